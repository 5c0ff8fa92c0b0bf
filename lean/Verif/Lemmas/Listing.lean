import Verif.Spec.Listing
import Verif.Lemmas.ServeFile
import Verif.Lemmas.Redirect
/- Lemmas for C137. -/
namespace Water
open Spec

theorem escapePath_cons (c : UInt8) (s : Str) : escapePath (c :: s) =
    (if escapesPath c then [37, upperHex (c.toNat / 16), upperHex (c.toNat % 16)] else [c]) ++ escapePath s := rfl

theorem escapePath_append (a b : Str) : escapePath (a ++ b) = escapePath a ++ escapePath b := by
  unfold escapePath; rw [List.flatMap_append]

theorem upperByte : ∀ c : UInt8, digitOf (upperHex (c.toNat / 16)) = some (c.toNat / 16) ∧
    digitOf (upperHex (c.toNat % 16)) = some (c.toNat % 16) ∧ UInt8.ofNat (16 * (c.toNat / 16) + c.toNat % 16) = c := by
  apply all_bytes
  decide +kernel

theorem escapesPath_percent : ∀ c : UInt8, escapesPath c = false → c ≠ 37 := by
  apply all_bytes
  decide +kernel

/-- decoding undoes the escaping -/
theorem pct_escapePath (s : Str) : pctDecode (escapePath s) = s := by
  induction s with
  | nil => rfl
  | cons c s ih =>
    rw [escapePath_cons]
    split
    · obtain ⟨h1, h2, h3⟩ := upperByte c
      show pctDecode (37 :: upperHex (c.toNat / 16) :: upperHex (c.toNat % 16) :: escapePath s) = _
      rw [pctDecode.eq_def]
      simp only [if_true, h1, h2, h3, ih]
    · rename_i hc
      have hc := escapesPath_percent c (by simpa using hc)
      show pctDecode (c :: escapePath s) = _
      rw [pctDecode.eq_def]
      simp only [hc, if_false, ih]

/-- A byte that can be in an escaped path. -/
def pathByte (c : UInt8) : Bool :=
  32 < c && c != 34 && c != 35 && c != 39 && c != 60 && c != 62 && c != 63 && c != 92

theorem escaped_byte : ∀ c : UInt8, ∀ d ∈ (if escapesPath c then [37, upperHex (c.toNat / 16), upperHex (c.toNat % 16)] else [c]),
    pathByte d = true ∧ (d = 38 → c = 38) ∧ (d = 47 → c = 47) ∧ (d = 58 → c = 58) := by
  apply all_bytes
  decide +kernel

theorem escapePath_mem {s : Str} {d : UInt8} (h : d ∈ escapePath s) :
    pathByte d = true ∧ (d = 38 → (38 : UInt8) ∈ s) ∧ (d = 47 → (47 : UInt8) ∈ s) ∧ (d = 58 → (58 : UInt8) ∈ s) := by
  unfold escapePath at h
  rw [List.mem_flatMap] at h
  obtain ⟨c, hc, hd⟩ := h
  obtain ⟨h1, h2, h3, h4⟩ := escaped_byte c d hd
  exact ⟨h1, fun h => h2 h ▸ hc, fun h => h3 h ▸ hc, fun h => h4 h ▸ hc⟩

/-! Decoding -/

theorem pctDecode_plain {c : UInt8} {s : Str} (h : c ≠ 37) : pctDecode (c :: s) = c :: pctDecode s := by
  rw [pctDecode.eq_def]
  simp only [h, if_false]

/-- what is before a slash is decoded alone -/
theorem pctDecode_slash (v : Str) : ∀ (n : Nat) (a : Str), a.length ≤ n → pctDecode (a ++ 47 :: v) = pctDecode a ++ 47 :: pctDecode v := by
  intro n
  induction n with
  | zero =>
    intro a h
    rw [List.length_eq_zero_iff.1 (Nat.le_zero.1 h)]
    exact pctDecode_plain (by decide)
  | succ n ih =>
    intro a h
    cases a with
    | nil => exact pctDecode_plain (by decide)
    | cons c a =>
      have h : a.length ≤ n := by simpa using h
      by_cases hc : c = 37
      · subst hc
        match a, h with
        | [], _ =>
          show pctDecode (37 :: 47 :: v) = pctDecode [37] ++ 47 :: pctDecode v
          rw [show pctDecode [37] = [37] from by decide +kernel]
          rw [pctDecode.eq_def]
          simp only [if_true]
          cases v with
          | nil => decide +kernel
          | cons x v =>
            dsimp only
            rw [show digitOf 47 = none from by decide +kernel]
            dsimp only
            rw [pctDecode_plain (by decide)]
            rfl
        | [x], _ =>
          show pctDecode (37 :: x :: 47 :: v) = pctDecode [37, x] ++ 47 :: pctDecode v
          rw [show pctDecode [37, x] = [37, x] from by rw [pctDecode.eq_def]; simp only [if_true]]
          rw [pctDecode.eq_def]
          simp only [if_true]
          rw [show digitOf 47 = none from by decide +kernel]
          have := ih [x] (by assumption)
          have hx : pctDecode (x :: 47 :: v) = x :: 47 :: pctDecode v := by
            have e : x :: 47 :: v = [x] ++ 47 :: v := rfl
            rw [e, this]
            by_cases hx : x = 37
            · subst hx; rw [show pctDecode [37] = [37] from by decide +kernel]; rfl
            · rw [pctDecode_plain hx]; rfl
          cases digitOf x <;> dsimp only <;> rw [hx] <;> rfl
        | x :: y :: r, h =>
          show pctDecode (37 :: x :: y :: (r ++ 47 :: v)) = pctDecode (37 :: x :: y :: r) ++ 47 :: pctDecode v
          have ihr := ih r (by simp at h; omega)
          have ihx := ih (x :: y :: r) (by simpa using h)
          rw [pctDecode.eq_def, pctDecode.eq_def (37 :: x :: y :: r)]
          simp only [if_true]
          cases digitOf x <;> cases digitOf y <;> dsimp only
          · exact congrArg (37 :: ·) ihx
          · exact congrArg (37 :: ·) ihx
          · exact congrArg (37 :: ·) ihx
          · rw [ihr]; rfl
      · show pctDecode (c :: (a ++ 47 :: v)) = _
        rw [pctDecode_plain hc, pctDecode_plain hc, ih a h]
        rfl

theorem pctDecode_dir {u : Str} (h : u.getLast? = some slash) (v : Str) : pctDecode (u ++ v) = pctDecode u ++ pctDecode v := by
  obtain ⟨a, rfl⟩ := List.getLast?_eq_some_iff.1 h
  have h1 := pctDecode_slash v _ a (Nat.le_refl _)
  have h2 := pctDecode_slash [] _ a (Nat.le_refl _)
  show pctDecode (a ++ [47] ++ v) = pctDecode (a ++ [47]) ++ _
  rw [h2, List.append_assoc]
  show pctDecode (a ++ 47 :: v) = _
  rw [h1, List.append_assoc]
  rfl

/-! Following -/

/-- not a dot segment -/
def NoDot (s : Str) : Prop := pctDecode s ≠ b!"." ∧ pctDecode s ≠ b!".."

theorem removeDots_none : ∀ (l done : List Str), (∀ s ∈ l, NoDot s) → removeDots done l = done ++ l
  | [], done, _ => by simp [removeDots]
  | s :: l, done, h => by
    rw [removeDots, if_neg (h s (by simp)).1, if_neg (h s (by simp)).2, removeDots_none l _ (fun x hx => h x (by simp [hx])), List.append_assoc]
    rfl

theorem removeDots_front (B : List Str) : ∀ (l done : List Str), (∀ s ∈ l, NoDot s) → removeDots done (l ++ B) = removeDots (done ++ l) B
  | [], done, _ => by simp
  | s :: l, done, h => by
    show removeDots done (s :: (l ++ B)) = _
    rw [removeDots, if_neg (h s (by simp)).1, if_neg (h s (by simp)).2, removeDots_front B l _ (fun x hx => h x (by simp [hx])), List.append_assoc]
    rfl

theorem noDot_nil : NoDot [] := ⟨by decide +kernel, by decide +kernel⟩

theorem follow_raw {u : Str} (hu : DirAddress u) {r p : Str} (hr : r ≠ []) (hslash : r.head? ≠ some slash) (hq : ∀ c ∈ r, c ≠ 63 ∧ c ≠ 35)
    (hp : ∀ done : List Str, (∀ s ∈ done, NoDot s) → removeDots done (splitB slash r) = done ++ splitB slash p) : follow u r = u ++ p := by
  have ht : r.takeWhile (fun c => c != 63 && c != 35) = r := takeWhile_full (fun c hc => by simp [hq c hc])
  unfold follow
  dsimp only
  rw [ht, if_neg hr, if_neg hslash]
  have hlast : (u.reverse.dropWhile (· != slash)).reverse = u := by
    obtain ⟨a, rfl⟩ := List.getLast?_eq_some_iff.1 hu.closed
    simp
  rw [hlast]
  obtain ⟨t, rfl⟩ : ∃ t, u = slash :: t := by
    cases u with
    | nil => exact absurd hu.rooted (by simp)
    | cons c t => exact ⟨t, by rw [show c = slash from by simpa using hu.rooted]⟩
  show slash :: join [slash] (removeDots [] (splitB slash (t ++ r))) = slash :: (t ++ p)
  congr 1
  by_cases h0 : t = []
  · subst h0
    show join [slash] (removeDots [] (splitB slash r)) = p
    rw [hp [] (by simp)]
    exact join_splitB slash p
  · obtain ⟨x, rfl⟩ : ∃ x, t = x ++ [slash] := by
      have : t.getLast? = some slash := by
        have := hu.closed
        rw [List.getLast?_cons] at this
        cases hh : t.getLast? with
        | none => exact absurd (List.getLast?_eq_none_iff.1 hh) h0
        | some y => rw [hh] at this; exact this
      obtain ⟨x, rfl⟩ := List.getLast?_eq_some_iff.1 this
      exact ⟨x, rfl⟩
    have hx : ∀ s ∈ splitB slash x, NoDot s := by
      intro s hs
      refine hu.nodots s ?_
      rw [splitB_cons_slash, splitB_append_any]
      simp [hs]
    rw [List.append_assoc, List.append_assoc]
    show join [slash] (removeDots [] (splitB slash (x ++ slash :: r))) = x ++ slash :: p
    rw [splitB_append_any, removeDots_front _ _ _ hx, List.nil_append, hp _ hx, ← splitB_append_any, join_splitB]

theorem follow_plain {u : Str} (hu : DirAddress u) {r : Str} (hr : r ≠ []) (hslash : r.head? ≠ some slash) (hq : ∀ c ∈ r, c ≠ 63 ∧ c ≠ 35)
    (hd : ∀ s ∈ splitB slash r, NoDot s) : follow u r = u ++ r :=
  follow_raw hu hr hslash hq (fun _ _ => removeDots_none _ _ hd)

theorem follow_here {u : Str} (hu : DirAddress u) {r : Str} (hq : ∀ c ∈ r, c ≠ 63 ∧ c ≠ 35)
    (hd : ∀ s ∈ splitB slash r, NoDot s) : follow u (b!"./" ++ r) = u ++ r := by
  refine follow_raw hu (by simp) (fun h => by cases h) ?_ ?_
  · intro c hc
    rcases List.mem_append.1 hc with h | h
    · have : c = 46 ∨ c = 47 := by simpa using h
      rcases this with rfl | rfl <;> decide
    · exact hq c h
  · intro done _
    show removeDots done (splitB slash (b!"." ++ slash :: r)) = _
    rw [splitB_append (show slash ∉ b!"." by decide), removeDots, if_pos (show pctDecode b!"." = b!"." by decide +kernel),
      if_neg (splitB_ne_nil _ _)]
    exact removeDots_none _ _ hd

/-! Reading -/

theorem attrReads_self {h : Str} (hm : ∀ c ∈ h, c ∉ markup) : AttrReads h h := by
  induction h with
  | nil => exact .nil
  | cons c t ih => exact .plain (hm c (by simp)) (ih (fun x hx => hm x (by simp [hx])))

theorem attrReads_eq {h a : Str} (hr : AttrReads h a) (hm : (38 : UInt8) ∉ h) : a = h := by
  induction hr with
  | nil => rfl
  | plain _ _ ih => rw [ih (fun hh => hm (by simp [hh]))]
  | reference he _ _ =>
    refine absurd ?_ hm
    simp only [attrReferences, references, List.cons_append, List.nil_append, List.mem_cons, Prod.mk.injEq, List.not_mem_nil, or_false] at he
    rcases he with ⟨rfl, _⟩ | ⟨rfl, _⟩ | ⟨rfl, _⟩ | ⟨rfl, _⟩ | ⟨rfl, _⟩ | ⟨rfl, _⟩ <;> simp

theorem means_htmlEscape {s : Str} (h0 : (0 : UInt8) ∉ s) : Means (htmlEscape s) s := by
  induction s with
  | nil => exact .nil
  | cons c s ih =>
    have ih := ih (fun hh => h0 (by simp [hh]))
    have hc0 : c ≠ 0 := fun hh => h0 (by simp [hh])
    show Means (htmlByte c ++ htmlEscape s) _
    unfold htmlByte
    by_cases h1 : c = 38
    · subst h1; exact .reference (by decide) ih
    by_cases h2 : c = 60
    · subst h2; exact .reference (by decide) ih
    by_cases h3 : c = 62
    · subst h3; exact .reference (by decide) ih
    by_cases h4 : c = 34
    · subst h4; exact .reference (by decide) ih
    by_cases h5 : c = 39
    · subst h5; exact .reference (by decide) ih
    rw [if_neg h1, if_neg h2, if_neg h3, if_neg h4, if_neg h5]
    exact .plain (by simp [markup, h1, h2, h3, h4, h5, hc0]) ih

theorem cut_at_first {c : UInt8} {s : Str} (h : c ∈ s) : ∃ a b, s = a ++ c :: b ∧ c ∉ a := by
  induction s with
  | nil => cases h
  | cons x s ih =>
    by_cases hx : x = c
    · exact ⟨[], s, by rw [hx]; rfl, by simp⟩
    · obtain ⟨a, b, h1, h2⟩ := ih ((List.mem_cons.1 h).resolve_left (fun hh => hx hh.symm))
      exact ⟨x :: a, b, by rw [h1]; rfl, by simp [h2, Ne.symm hx]⟩

/-! Elsewhere -/

theorem webAddress_path {h : Str} (hb : ∀ c ∈ h, pathByte c = true) : webAddress h = h := by
  have hall : ∀ c ∈ h, ¬ c ≤ 32 ∧ c ≠ 9 ∧ c ≠ 10 ∧ c ≠ 13 ∧ c ≠ 92 := by
    have key : ∀ c : UInt8, pathByte c = true → ¬ c ≤ 32 ∧ c ≠ 9 ∧ c ≠ 10 ∧ c ≠ 13 ∧ c ≠ 92 := by
      apply all_bytes
      decide +kernel
    exact fun c hc => key c (hb c hc)
  unfold webAddress webReads
  have h1 : h.dropWhile (· ≤ 32) = h := by
    cases h with
    | nil => rfl
    | cons c t => rw [List.dropWhile_cons_of_neg (by simpa using (hall c (by simp)).1)]
  rw [h1, List.filter_eq_self.2 (fun c hc => by simp [hall c hc])]
  exact (List.map_congr_left (fun c hc => if_neg (hall c hc).2.2.2.2)).trans (List.map_id _)

/-! The address of an entry -/

/-- what can be in a directory: a name, and a slash behind it if it is a directory -/
theorem pathUrl_spec {n : Str} (hn : FileName n) (d : Bool) :
    ∃ e, pctDecode e = shownName (n, d) ∧ (pathUrl (shownName (n, d)) = e ∧ (58 : UInt8) ∉ e ∨ pathUrl (shownName (n, d)) = b!"./" ++ e) ∧
      e ≠ [] ∧ e.head? ≠ some slash ∧ (∀ c ∈ e, pathByte c = true ∧ (c = 38 → (38 : UInt8) ∈ n)) ∧ ∀ s ∈ splitB slash e, NoDot s := by
  by_cases hstar : shownName (n, d) = b!"*"
  · refine ⟨b!"*", by rw [hstar]; decide +kernel, .inl ⟨by rw [hstar]; decide +kernel, by decide⟩, by decide, by decide, ?_, ?_⟩
    · intro c hc
      have : c = 42 := by simpa using hc
      subst this
      exact ⟨by decide, fun h => by cases h⟩
    · rw [splitB_of_not_mem (by decide)]
      intro s hs
      rw [List.mem_singleton.1 hs]
      exact ⟨by decide +kernel, by decide +kernel⟩
  · have hshape : escapePath (shownName (n, d)) = if d then escapePath n ++ b!"/" else escapePath n := by
      unfold shownName
      cases d
      · rfl
      · show escapePath (n ++ b!"/") = _
        rw [escapePath_append]
        rfl
    have hflat : slash ∉ escapePath n := fun h => hn.flat ((escapePath_mem h).2.2.1 rfl)
    have hne : escapePath n ≠ [] := by
      intro h
      have := pct_escapePath n
      rw [h] at this
      exact hn.some this.symm
    have hnd : NoDot (escapePath n) := by
      unfold NoDot
      rw [pct_escapePath]
      exact ⟨hn.self, hn.up⟩
    refine ⟨escapePath (shownName (n, d)), pct_escapePath _, ?_, ?_, ?_, ?_, ?_⟩
    · unfold pathUrl
      dsimp only
      rw [if_neg hstar]
      cases hi : indexByte (escapePath (shownName (n, d))) 58 with
      | none => exact .inl ⟨rfl, indexByte_none.1 hi⟩
      | some i =>
        refine .inr ?_
        dsimp only
        rw [if_neg]
        intro hc
        have hc : (47 : UInt8) ∈ (escapePath (shownName (n, d))).take i := by simpa using hc
        rw [hshape] at hc hi
        cases d
        · exact hflat (List.mem_of_mem_take hc)
        · have hm : (58 : UInt8) ∈ escapePath n := by
            have : (58 : UInt8) ∈ escapePath n ++ b!"/" := by
              apply Classical.byContradiction
              intro hh
              have hi : indexByte (escapePath n ++ b!"/") 58 = some i := hi
              rw [indexByte_none.2 hh] at hi
              cases hi
            exact (List.mem_append.1 this).resolve_right (by decide)
          obtain ⟨a, b, hab, ha⟩ := cut_at_first hm
          have hi : indexByte (escapePath n ++ b!"/") 58 = some i := hi
          have hc : (47 : UInt8) ∈ (escapePath n ++ b!"/").take i := hc
          rw [hab, List.append_assoc] at hi hc
          have hl : i = a.length := by
            have := indexByte_append (b := b ++ b!"/") ha
            exact Option.some.inj (hi.symm.trans this)
          rw [hl, List.take_left] at hc
          exact hflat (by rw [hab]; exact List.mem_append_left _ hc)
    · rw [hshape]
      cases d <;> simp [hne]
    · rw [hshape]
      have : (escapePath n).head? ≠ some slash := by
        intro h
        exact hflat (List.mem_of_head? h)
      cases d
      · exact this
      · show (escapePath n ++ b!"/").head? ≠ _
        cases hh : escapePath n with
        | nil => exact absurd hh hne
        | cons x t => rw [hh] at this; exact this
    · intro c hc
      obtain ⟨h1, h2, _⟩ := escapePath_mem hc
      refine ⟨h1, fun h => ?_⟩
      have := h2 h
      unfold shownName at this
      cases d
      · exact this
      · exact (List.mem_append.1 this).resolve_right (by decide)
    · rw [hshape]
      cases d
      · show ∀ s ∈ splitB slash (escapePath n), _
        rw [splitB_of_not_mem hflat]
        intro s hs
        rw [List.mem_singleton.1 hs]
        exact hnd
      · show ∀ s ∈ splitB slash (escapePath n ++ slash :: []), _
        rw [splitB_append hflat]
        intro s hs
        rcases List.mem_cons.1 hs with rfl | h
        · exact hnd
        · have : s = [] := by simpa [splitB] using h
          rw [this]
          exact noDot_nil

end Water
