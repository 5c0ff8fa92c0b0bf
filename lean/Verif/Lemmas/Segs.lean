import Verif.Lemmas.Pattern
import Verif.Model.Tree
/- Helper lemmas: white-space trimming, gin translation, cutting of patterns and paths into segments. -/
namespace Water
open Spec

/-- `stripF` removes a concatenation of encodings from the front. -/
theorem stripF_spec (encs : List Str) (f : Nat) (s : Str) :
    ∃ pre, s = pre ++ stripF encs f s ∧ ∀ x ∈ pre, ∃ e ∈ encs, x ∈ e := by
  induction f generalizing s with
  | zero => exact ⟨[], by simp [stripF], by simp⟩
  | succ n ih =>
    unfold stripF
    cases hf : encs.find? (fun e => e.isPrefixOf s) with
    | none => exact ⟨[], by simp, by simp⟩
    | some e =>
      obtain ⟨pre, h1, h2⟩ := ih (s.drop e.length)
      have hp : e.isPrefixOf s = true := List.find?_some (p := fun e : Str => e.isPrefixOf s) hf
      have hm := List.mem_of_find?_eq_some hf
      rw [List.isPrefixOf_iff_prefix] at hp
      obtain ⟨t, ht⟩ := hp
      refine ⟨e ++ pre, ?_, ?_⟩
      · rw [List.append_assoc, ← h1, ← ht]; simp
      · intro x hx
        rcases List.mem_append.1 hx with hx | hx
        · exact ⟨e, hm, hx⟩
        · exact h2 x hx

/-- bytes that occur in no white-space encoding -/
def NonSpace (c : UInt8) : Prop := ∀ e ∈ spaceEnc, c ∉ e

instance (c : UInt8) : Decidable (NonSpace c) := inferInstanceAs (Decidable (∀ e ∈ spaceEnc, c ∉ e))

theorem mem_trimLeft {c : UInt8} {s : Str} (hc : NonSpace c) (h : c ∈ s) : c ∈ trimLeft s := by
  obtain ⟨pre, h1, h2⟩ := stripF_spec spaceEnc s.length s
  unfold trimLeft
  rw [h1] at h
  rcases List.mem_append.1 h with h | h
  · obtain ⟨e, he, hx⟩ := h2 c h; exact absurd hx (hc e he)
  · exact h

theorem mem_trimRight {c : UInt8} {s : Str} (hc : NonSpace c) (h : c ∈ s) : c ∈ trimRight s := by
  obtain ⟨pre, h1, h2⟩ := stripF_spec (spaceEnc.map List.reverse) s.length s.reverse
  unfold trimRight
  rw [← List.mem_reverse, h1] at h
  rcases List.mem_append.1 h with h | h
  · obtain ⟨e, he, hx⟩ := h2 c h
    obtain ⟨e', he', rfl⟩ := List.mem_map.1 he
    exact absurd (List.mem_reverse.1 hx) (hc e' he')
  · exact List.mem_reverse.2 h

theorem mem_trimSpace {c : UInt8} {s : Str} (hc : NonSpace c) (h : c ∈ s) : c ∈ trimSpace s :=
  mem_trimRight hc (mem_trimLeft hc h)

theorem trimLeft_suffix (s : Str) : trimLeft s <:+ s := by
  obtain ⟨pre, h1, _⟩ := stripF_spec spaceEnc s.length s
  exact ⟨pre, h1.symm⟩

theorem trimRight_prefix (s : Str) : trimRight s <+: s := by
  obtain ⟨pre, h1, _⟩ := stripF_spec (spaceEnc.map List.reverse) s.length s.reverse
  refine ⟨pre.reverse, ?_⟩
  unfold trimRight
  rw [← List.reverse_append, ← h1, List.reverse_reverse]

theorem mem_of_mem_trimSpace {c : UInt8} {s : Str} (h : c ∈ trimSpace s) : c ∈ s :=
  (trimLeft_suffix s).subset ((trimRight_prefix _).subset h)

/-- the first byte survives if it is not white space -/
theorem trimLeft_head {c : UInt8} {s : Str} (hc : NonSpace c) (h : s.head? = some c) : trimLeft s = s := by
  unfold trimLeft
  cases s with
  | nil => rfl
  | cons x xs =>
    simp at h; subst h
    simp only [List.length_cons, stripF]
    cases hf : spaceEnc.find? (fun e => e.isPrefixOf (x :: xs)) with
    | none => rfl
    | some e =>
      have hp : e.isPrefixOf (x :: xs) = true := List.find?_some (p := fun e : Str => e.isPrefixOf (x :: xs)) hf
      have hm := List.mem_of_find?_eq_some hf
      cases e with
      | nil => exact absurd hm (by decide)
      | cons y ys =>
        simp [List.isPrefixOf] at hp
        exact absurd (by simp [hp.1]) (hc _ hm)

theorem trimSpace_head {c : UInt8} {s : Str} (hc : NonSpace c) (h : s.head? = some c) :
    (trimSpace s).head? = some c := by
  unfold trimSpace
  rw [trimLeft_head hc h]
  have hm : c ∈ trimRight s := mem_trimRight hc (List.mem_of_head? h)
  obtain ⟨t, ht⟩ := trimRight_prefix s
  cases hr : trimRight s with
  | nil => rw [hr] at hm; cases hm
  | cons x xs =>
    rw [hr] at ht
    rw [← ht] at h
    simpa using h

theorem ginSeg_eq (v : Str) : variantSeg v = ginSeg v := by
  unfold variantSeg ginSeg
  by_cases h1 : v.head? = some colon
  · rw [if_pos (hasPrefix_one.2 h1), if_pos h1]; simp
  · rw [if_neg (fun h => h1 (hasPrefix_one.1 h)), if_neg h1]
    by_cases h2 : v.head? = some star
    · rw [if_pos (hasPrefix_one.2 h2), if_pos h2]
    · rw [if_neg (fun h => h2 (hasPrefix_one.1 h)), if_neg h2]

theorem ginSeg_no_slash {v : Str} (h : slash ∉ v) : slash ∉ ginSeg v := by
  unfold ginSeg
  split
  · intro hm
    simp only [List.mem_append, List.mem_singleton] at hm
    rcases hm with (hm | hm) | hm
    · revert hm; decide
    · exact h (List.mem_of_mem_tail (mem_of_mem_trimSpace hm))
    · revert hm; decide
  · split
    · exact fun hm => h (mem_of_mem_trimSpace hm)
    · exact h

theorem ginSeg_eq_nil {v : Str} : ginSeg v = [] ↔ v = [] := by
  constructor
  · intro h
    unfold ginSeg at h
    split at h
    · simp at h
    · split at h
      · rename_i h2
        have := trimSpace_head (c := star) (by decide) h2
        rw [h] at this; simp at this
      · exact h
  · rintro rfl; rfl

theorem ginSeg_plain {v : Str} (h1 : v.head? ≠ some colon) (h2 : v.head? ≠ some star) : ginSeg v = v := by
  unfold ginSeg; rw [if_neg h1, if_neg h2]

/-- a non-first segment's first byte follows a slash in the whole string -/
theorem containsStr_of_split {s x : Str} {c : UInt8} (h : x ∈ (splitB slash s).tail) (hx : x.head? = some c) :
    containsStr s [slash, c] = true := by
  induction s with
  | nil => simp [splitB] at h
  | cons y ys ih =>
    simp only [containsStr, Bool.or_eq_true]
    unfold splitB at h
    by_cases hy : (y == slash) = true
    · rw [if_pos hy] at h
      have hy : y = slash := by simpa using hy
      simp only [List.tail_cons] at h
      cases hs : splitB slash ys with
      | nil => exact absurd hs (splitB_ne_nil _ _)
      | cons z zs =>
        rw [hs] at h
        rcases List.mem_cons.1 h with rfl | h
        · left
          have : ys.head? = some c := by
            cases ys with
            | nil => simp [splitB] at hs; rw [hs.1] at hx; simp at hx
            | cons w ws =>
              unfold splitB at hs
              split at hs
              · injection hs with hs _; rw [← hs] at hx; simp at hx
              · cases hw : splitB slash ws with
                | nil => exact absurd hw (splitB_ne_nil _ _)
                | cons u us =>
                  rw [hw] at hs
                  injection hs with hs _
                  rw [← hs] at hx
                  simpa using hx
          cases ys with
          | nil => simp at this
          | cons w ws =>
            simp at this
            simp [List.isPrefixOf, hy, this]
        · right; exact ih (by rw [hs]; exact h)
    · rw [if_neg hy] at h
      right
      apply ih
      cases hs : splitB slash ys with
      | nil => exact absurd hs (splitB_ne_nil _ _)
      | cons z zs => rw [hs] at h; simpa using h

theorem splitB_slash_head {s : Str} (h : s.head? = some slash) : ∃ l, splitB slash s = [] :: l := by
  cases s with
  | nil => simp at h
  | cons x xs =>
    simp at h; subst h
    exact ⟨splitB slash xs, by simp [splitB]⟩

/-- `_VariantUri` is segment-wise on paths starting with '/'. -/
theorem variantUri_eq {raw : Str} (h : raw.head? = some slash) :
    variantUri raw = join [slash] ((splitB slash raw).map ginSeg) := by
  unfold variantUri
  have hm : (fun v => variantSeg v) = ginSeg := funext ginSeg_eq
  split
  · rename_i hc
    simp only [Bool.and_eq_true, Bool.not_eq_true'] at hc
    obtain ⟨l, hl⟩ := splitB_slash_head h
    have : (splitB slash raw).map ginSeg = splitB slash raw := by
      rw [hl]
      simp only [List.map_cons]
      congr 1
      conv => rhs; rw [← List.map_id l]
      apply List.map_congr_left
      intro x hx
      have hx' : x ∈ (splitB slash raw).tail := by rw [hl]; exact hx
      apply ginSeg_plain
      · intro h'
        have := containsStr_of_split hx' h'
        rw [hc.1] at this; cases this
      · intro h'
        have := containsStr_of_split hx' h'
        rw [hc.2] at this; cases this
    rw [this, join_splitB]
  · rw [show variantSeg = ginSeg from hm]

theorem splitB_variantUri {raw : Str} (h : raw.head? = some slash) :
    splitB slash (variantUri raw) = (splitB slash raw).map ginSeg := by
  rw [variantUri_eq h]
  apply splitB_join
  · simp [splitB_ne_nil]
  · intro x hx
    obtain ⟨y, hy, rfl⟩ := List.mem_map.1 hx
    exact ginSeg_no_slash (not_mem_of_mem_splitB hy)

theorem splitB_concat_slash (t : Str) : splitB slash (t ++ [slash]) = splitB slash t ++ [[]] := by
  induction t with
  | nil => rfl
  | cons x xs ih =>
    rw [List.cons_append]
    unfold splitB
    split
    · rw [ih]; rfl
    · rw [ih]
      cases hs : splitB slash xs with
      | nil => exact absurd hs (splitB_ne_nil _ _)
      | cons z zs => rfl

theorem getLast_splitB {s : Str} (h : (splitB slash s).getLast? = some []) :
    s = [] ∨ s.getLast? = some slash := by
  rcases List.eq_nil_or_concat s with rfl | ⟨t, c, rfl⟩
  · exact .inl rfl
  · right
    by_cases hc : c = slash
    · simp [hc]
    · exfalso
      rw [List.concat_eq_append] at h
      induction t with
      | nil => simp [splitB, hc] at h
      | cons x xs ih =>
        rw [List.cons_append] at h
        unfold splitB at h
        split at h
        · apply ih
          cases hs : splitB slash (xs ++ [c]) with
          | nil => exact absurd hs (splitB_ne_nil _ _)
          | cons z zs => rw [hs] at h; simpa using h
        · cases hs : splitB slash (xs ++ [c]) with
          | nil => exact absurd hs (splitB_ne_nil _ _)
          | cons z zs =>
            rw [hs] at h
            cases zs with
            | nil => simp at h
            | cons w ws => apply ih; rw [hs]; simpa using h

theorem splitB_trimSuffix (s : Str) :
    splitB slash (trimSuffix s [slash]) =
      if s.getLast? = some slash then (splitB slash s).dropLast else splitB slash s := by
  rw [trimSuffix_one]
  split
  · rename_i h
    have hne : s ≠ [] := by rintro rfl; simp at h
    have : s = s.dropLast ++ [slash] := by
      rw [List.getLast?_eq_some_getLast hne] at h
      have h : s.getLast hne = slash := by simpa using h
      rw [← h]; exact (List.dropLast_concat_getLast hne).symm
    conv => rhs; rw [this, splitB_concat_slash]
    simp
  · rfl

/-- Level-by-level cutting is `skipEmpty` of the full split. -/
theorem addSegmentsF_eq (f : Nat) (p : Str) (hf : p.length < f) :
    addSegmentsF f p = skipEmpty (splitB slash p) := by
  induction f generalizing p with
  | zero => omega
  | succ n ih =>
    unfold addSegmentsF
    simp only []
    rw [trimPrefix_one]
    cases p with
    | nil => simp [splitB, skipEmpty, indexByte]
    | cons x xs =>
      by_cases hx : x = slash
      · subst hx
        simp only [List.head?_cons, if_true, List.tail_cons]
        have h0 : splitB slash (slash :: xs) = [] :: splitB slash xs := by simp [splitB]
        rw [h0]
        cases hi : indexByte xs slash with
        | none => simp [splitB_index_none hi, skipEmpty]
        | some i =>
          rw [splitB_index_some hi]
          simp only [skipEmpty, if_true]
          rw [ih]
          have := (indexByte_some hi).1
          simp at hf ⊢; omega
      · simp only [List.head?_cons, Option.some.injEq, hx, if_false]
        cases hi : indexByte (x :: xs) slash with
        | none => simp [splitB_index_none hi, skipEmpty]
        | some i =>
          have hlt := (indexByte_some hi).1
          rw [splitB_index_some hi]
          have hi0 : i ≠ 0 := by
            rintro rfl
            have := head_eq_of_index_zero hi
            simp at this; exact hx this
          have htake : (x :: xs).take i ≠ [] := by
            cases i with
            | zero => exact absurd rfl hi0
            | succ j => simp
          simp only []
          rw [ih _ (by simp at hf ⊢; omega)]
          cases hs : splitB slash ((x :: xs).drop (i + 1)) with
          | nil => exact absurd hs (splitB_ne_nil _ _)
          | cons z zs => simp only [skipEmpty, if_neg htake]

theorem addSegments_eq (p : Str) : addSegments p = skipEmpty (splitB slash (trimSuffix p [slash])) := by
  unfold addSegments
  exact addSegmentsF_eq _ _ (by omega)

/-- The segments under which a registered path is stored are those of the specification. -/
theorem addSegments_variantUri {uri : Str} (h : uri.head? = some slash) :
    addSegments (variantUri uri) = routeSegs uri := by
  rw [addSegments_eq, splitB_trimSuffix, splitB_variantUri h]
  unfold routeSegs
  have hlast : (variantUri uri).getLast? = some slash ↔ uri.getLast? = some slash := by
    have key : ∀ s : Str, s.getLast? = some slash ↔ (s ≠ [] ∧ (splitB slash s).getLast? = some []) := by
      intro s
      constructor
      · intro hs
        have hne : s ≠ [] := by rintro rfl; simp at hs
        refine ⟨hne, ?_⟩
        have : s = s.dropLast ++ [slash] := by
          rw [List.getLast?_eq_some_getLast hne] at hs
          have hs : s.getLast hne = slash := by simpa using hs
          rw [← hs]; exact (List.dropLast_concat_getLast hne).symm
        rw [this, splitB_concat_slash]; simp
      · rintro ⟨hne, hs⟩
        exact (getLast_splitB hs).resolve_left hne
    have hmap : ((splitB slash uri).map ginSeg).getLast? = some [] ↔ (splitB slash uri).getLast? = some [] := by
      rw [List.getLast?_map]
      cases (splitB slash uri).getLast? with
      | none => simp
      | some z => simp [ginSeg_eq_nil]
    have hne1 : uri ≠ [] := by rintro rfl; simp at h
    have hne2 : variantUri uri ≠ [] := by
      intro he
      obtain ⟨l, hl⟩ := splitB_slash_head h
      have := splitB_variantUri h
      rw [he, hl] at this
      simp [splitB] at this
      have h1 := join_splitB slash uri
      rw [hl, this.2] at h1
      simp [join] at h1
      exact hne1 h1
    rw [key, key, splitB_variantUri h, hmap]
    simp [hne1, hne2]
  simp only [hlast]
  have e := splitB_trimSuffix uri
  rw [trimSuffix_one] at e
  split
  · rename_i hl
    rw [if_pos hl, if_pos hl] at e
    rw [e, List.map_dropLast]
  · rfl

theorem skipEmpty_of_nonempty {l : List Str} (h : ∀ x ∈ l, x ≠ []) : skipEmpty l = l := by
  induction l with
  | nil => rfl
  | cons x xs ih =>
    cases xs with
    | nil => rfl
    | cons y ys =>
      simp only [skipEmpty, if_neg (h x (by simp))]
      rw [ih (fun z hz => h z (by simp [hz]))]

theorem skipEmpty_ne_nil {l : List Str} (h : l ≠ []) : skipEmpty l ≠ [] := by
  match l with
  | [] => exact absurd rfl h
  | [s] => simp [skipEmpty]
  | s :: t :: r => simp only [skipEmpty]; split <;> simp

theorem routeSegs_ne_nil (uri : Str) : routeSegs uri ≠ [] := by
  unfold routeSegs
  exact skipEmpty_ne_nil (by simp [splitB_ne_nil])

theorem pathSegs_eq (uri : Str) :
    pathSegs uri = splitB slash (trimSuffix (trimPrefix uri [slash]) [slash]) := by
  unfold pathSegs stripSlashes
  rw [trimPrefix_one, trimSuffix_one]

end Water
