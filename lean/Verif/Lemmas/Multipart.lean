import Verif.Model.Multipart
import Verif.Spec.Multipart
import Verif.Lemmas.Cookie
import Verif.Lemmas.Url
/- Reading what a browser writes as multipart/form-data. -/
namespace Water
open Spec

/-! ### media types -/

theorem isTSpecial_iff (c : UInt8) : isTSpecial c = true ↔ Special c := by
  unfold isTSpecial Special
  simp

theorem token_split {a b : Str} {c : UInt8} (h : ∀ x ∈ a, isTokenChar x = true) (hc : isTokenChar c = false) :
    consumeToken (a ++ c :: b) = (a, c :: b) := by
  unfold consumeToken
  induction a with
  | nil => simp [hc]
  | cons x a ih =>
    have hx := h x (List.mem_cons_self ..)
    have := ih (fun y hy => h y (List.mem_cons_of_mem _ hy))
    simp only [Prod.mk.injEq] at this
    simp [hx, this.1, this.2]

theorem token_all {a : Str} (h : ∀ x ∈ a, isTokenChar x = true) : consumeToken a = (a, []) := by
  unfold consumeToken
  induction a with
  | nil => rfl
  | cons x a ih =>
    have hx := h x (List.mem_cons_self ..)
    have := ih (fun y hy => h y (List.mem_cons_of_mem _ hy))
    simp only [Prod.mk.injEq] at this
    simp [hx, this.1, this.2]

/-- what is behind a closing quote is shorter -/
theorem quotedTail_shorter {s v r : Str} (h : quotedTail s = some (v, r)) : r.length < s.length := by
  induction hn : s.length using Nat.strongRecOn generalizing s v r with
  | _ n ih =>
    cases s with
    | nil => simp [quotedTail] at h
    | cons c cs =>
      unfold quotedTail at h
      split at h
      · cases h; simp at hn; omega
      · split at h
        · cases cs with
          | nil => cases h
          | cons x xs =>
            simp only [List.length_cons] at hn
            dsimp only at h
            split at h
            · simp only [Option.map_eq_some_iff] at h
              obtain ⟨⟨v', r'⟩, h1, h2⟩ := h
              cases h2
              have := ih xs.length (by omega) h1 rfl
              show r'.length < n
              omega
            · simp only [Option.map_eq_some_iff] at h
              obtain ⟨⟨v', r'⟩, h1, h2⟩ := h
              cases h2
              have := ih (x :: xs).length (by simp; omega) h1 rfl
              simp only [List.length_cons] at this
              show r'.length < n
              omega
        · split at h
          · cases h
          · simp only [Option.map_eq_some_iff] at h
            obtain ⟨⟨v', r'⟩, h1, h2⟩ := h
            cases h2
            simp only [List.length_cons] at hn
            have := ih cs.length (by omega) h1 rfl
            show r'.length < n
            omega

theorem consume_quoted (x : Str) :
    (let w := consumeValue (34 :: x); if w.1 = [] ∧ w.2 = 34 :: x then none else some w) = quotedTail x := by
  dsimp only
  unfold consumeValue
  simp only [ne_eq, not_true_eq_false, if_false]
  cases h : quotedTail x with
  | none => simp
  | some p =>
    obtain ⟨v, r⟩ := p
    have := quotedTail_shorter h
    simp only [Option.getD_some]
    rw [if_neg]
    rintro ⟨_, he⟩
    rw [he] at this
    simp at this
    omega

theorem consume_param {key : Str} (hk : ∀ c ∈ key, isTokenChar c = true) (hl : toLower key = key) (hne : key ≠ [])
    (hh : ∀ c, key.head? = some c → NonSpace c) (x : Str) :
    consumeMediaParam (59 :: 32 :: (key ++ 61 :: 34 :: x)) = (quotedTail x).map (fun r => (key, r.1, r.2)) := by
  have h59 : NonSpace 59 := by decide
  have h61 : NonSpace 61 := by decide
  have h34 : NonSpace 34 := by decide
  unfold consumeMediaParam
  rw [trimLeft_head h59 rfl]
  simp only [ne_eq, not_true_eq_false, if_false]
  rw [trimLeft_space (by
    intro c hc
    cases key with
    | nil => exact absurd rfl hne
    | cons y ys => exact hh c (by simpa using hc))]
  rw [token_split hk (by decide)]
  simp only [hl, hne, if_false]
  rw [trimLeft_head h61 rfl]
  simp only [not_true_eq_false, if_false]
  rw [trimLeft_head h34 rfl]
  have := consume_quoted x
  dsimp only at this
  rw [← this]
  split
  · rfl
  · rfl

theorem consume_name (x : Str) : consumeMediaParam (b!"; name=\"" ++ x) = (quotedTail x).map (fun r => (b!"name", r.1, r.2)) :=
  consume_param (key := b!"name") (by decide) (by decide +kernel) (by decide) (by decide) x

theorem consume_filename (x : Str) :
    consumeMediaParam (b!"; filename=\"" ++ x) = (quotedTail x).map (fun r => (b!"filename", r.1, r.2)) :=
  consume_param (key := b!"filename") (by decide) (by decide +kernel) (by decide) (by decide) x

/-- the first parameter of a Content-Disposition -/
theorem disposition_name (E : MimeEnv) (x : Str) :
    parseMediaType E (b!"form-data; name=\"" ++ x) =
      mediaParams E b!"form-data" (x.length + 18) (b!"; name=\"" ++ x) [] [] := by
  unfold parseMediaType
  have h1 : indexByte (b!"form-data; name=\"" ++ x) 59 = some 9 :=
    indexByte_append (a := b!"form-data") (b := b!" name=\"" ++ x) (c := 59) (by decide)
  rw [h1]
  have h2 : (b!"form-data; name=\"" ++ x).take ((some 9).getD (b!"form-data; name=\"" ++ x).length) = b!"form-data" := rfl
  have h3 : (b!"form-data; name=\"" ++ x).drop ((some 9).getD (b!"form-data; name=\"" ++ x).length) = b!"; name=\"" ++ x := rfl
  dsimp only
  rw [h2, h3]
  have h4 : trimSpace (toLower b!"form-data") = b!"form-data" := by decide +kernel
  rw [h4, if_pos (show checkMediaType b!"form-data" = true by decide +kernel)]
  congr 1

/-- the end of a text without further parameters -/
theorem mediaParams_end (E : MimeEnv) (type : Str) (fuel : Nat) (ps : MParams) : mediaParams E type fuel [] ps [] = ⟨type, ps, false⟩ := by
  cases fuel with
  | zero => rfl
  | succ n => simp [mediaParams, show trimLeft ([] : Str) = [] from rfl]

/-- a parameter -/
theorem mediaParams_one (E : MimeEnv) (type : Str) (fuel : Nat) (v key value rest : Str) (ps : MParams) (c : UInt8)
    (hv : v.head? = some c) (hc : NonSpace c) (hp : consumeMediaParam v = some (key, value, rest)) (hs : star ∉ key)
    (hd : key ∉ ps.map Prod.fst) :
    mediaParams E type (fuel + 1) v ps [] = mediaParams E type fuel rest (ps ++ [(key, value)]) [] := by
  rw [mediaParams]
  rw [trimLeft_head hc hv, if_neg (by rintro rfl; cases hv), hp]
  dsimp only
  rw [if_neg (by simpa using hs), if_neg (by simpa using hd)]

/-- something that is not a parameter -/
theorem mediaParams_bad (E : MimeEnv) (type : Str) (fuel : Nat) (v : Str) (ps : MParams) (hv : trimLeft v ≠ [])
    (hp : consumeMediaParam (trimLeft v) = none) (ht : trimSpace (trimLeft v) ≠ [59]) :
    mediaParams E type (fuel + 1) v ps [] = ⟨type, [], true⟩ := by
  unfold mediaParams
  dsimp only
  rw [if_neg hv, hp]
  dsimp only
  rw [if_neg ht]

/-- a name that needs nothing -/
theorem formName_plain {s : Str} (h : ∀ c ∈ s, c ≠ 34 ∧ c ≠ 13 ∧ c ≠ 10) : formName s = s := by
  unfold formName
  induction s with
  | nil => rfl
  | cons c s ih =>
    have hc := h c (List.mem_cons_self ..)
    rw [List.flatMap_cons, ih (fun x hx => h x (List.mem_cons_of_mem _ hx))]
    simp [formNameChar, hc.1, hc.2.1, hc.2.2]

theorem formName_clean (s : Str) : ∀ c ∈ formName s, c ≠ 34 ∧ c ≠ 13 ∧ c ≠ 10 := by
  intro c hc
  unfold formName at hc
  rw [List.mem_flatMap] at hc
  obtain ⟨x, _, hx⟩ := hc
  unfold formNameChar at hx
  split at hx
  · revert c; decide
  · split at hx
    · revert c; decide
    · split at hx
      · revert c; decide
      · rw [List.mem_singleton] at hx
        subst hx
        exact ⟨by assumption, by assumption, by assumption⟩

/-- a name that is kept is read as it is -/
theorem quotedTail_kept {s : Str} (h1 : ∀ c ∈ s, c ≠ 34 ∧ c ≠ 13 ∧ c ≠ 10)
    (h2 : ∀ a b, s = a ++ 92 :: b → ∃ c r, b = c :: r ∧ ¬ Special c) (r : Str) : quotedTail (s ++ 34 :: r) = some (s, r) := by
  induction s with
  | nil =>
    rw [List.nil_append]
    unfold quotedTail
    rw [if_pos rfl]
  | cons c s ih =>
    have hc := h1 c (List.mem_cons_self ..)
    have ih := ih (fun x hx => h1 x (List.mem_cons_of_mem _ hx)) (fun a b hab => h2 (c :: a) b (by rw [hab]; rfl))
    rw [List.cons_append]
    unfold quotedTail
    rw [if_neg hc.1]
    by_cases h92 : c = 92
    · subst h92
      obtain ⟨x, t, ht, hx⟩ := h2 [] s rfl
      subst ht
      rw [if_pos rfl]
      rw [← isTSpecial_iff] at hx
      simp only [List.cons_append]
      rw [if_neg hx]
      rw [List.cons_append] at ih
      rw [ih]
      rfl
    · rw [if_neg h92, if_neg (by simp [hc.2.1, hc.2.2]), ih]
      rfl

/-! ### boundary lines -/

theorem boundary_byte {B : Str} (h : BoundaryText B) {c : UInt8} (hc : c ∈ B) :
    isTokenChar c = true ∧ c ≠ 13 ∧ c ≠ 10 ∧ c ≠ 32 ∧ c ≠ 9 ∧ NonSpace c := by
  have := h.2.2 c hc
  clear hc
  have key : ∀ c : UInt8, (c = 45 ∨ (48 ≤ c ∧ c ≤ 57) ∨ (65 ≤ c ∧ c ≤ 90) ∨ (97 ≤ c ∧ c ≤ 122)) →
      isTokenChar c = true ∧ c ≠ 13 ∧ c ≠ 10 ∧ c ≠ 32 ∧ c ≠ 9 ∧ NonSpace c := by
    unfold NonSpace
    refine all_bytes ?_
    decide +kernel
  exact key c this

theorem readSlice_line {a rest : Str} (h : 10 ∉ a) (hl : a.length < 4096) : readSlice (a ++ 10 :: rest) = .line (a ++ [10]) rest := by
  unfold readSlice
  rw [indexByte_append h]
  dsimp only
  rw [if_pos (show a.length < peekBufferSize from hl)]
  have e : a ++ 10 :: rest = (a ++ [10]) ++ rest := by simp
  rw [e]
  rw [List.take_left' (by simp), List.drop_left' (by simp)]

theorem hasPrefix_append (p s : Str) : hasPrefix (p ++ s) p = true := by
  unfold hasPrefix
  rw [List.isPrefixOf_iff_prefix]
  exact List.prefix_append _ _

/-- a boundary line in front of a part -/
theorem delimiter_line (B : Str) (first : Bool) : isDelimiterLine B b!"\r\n" first (b!"--" ++ B ++ b!"\r\n") = (true, b!"\r\n") := by
  unfold isDelimiterLine
  dsimp only
  rw [if_pos (hasPrefix_append _ _), List.drop_left]
  have : skipLWSP b!"\r\n" = b!"\r\n" := by decide
  rw [this]
  cases first <;> decide

theorem next_first {B : Str} (hB : BoundaryText B) (fuel : Nat) (first expect : Bool) (rest : Str) :
    nextBoundary B (fuel + 1) b!"\r\n" first expect (b!"--" ++ B ++ b!"\r\n" ++ rest) = .part b!"\r\n" rest := by
  unfold nextBoundary
  have e : b!"--" ++ B ++ b!"\r\n" ++ rest = (b!"--" ++ B ++ b!"\r") ++ 10 :: rest := by simp
  rw [e, readSlice_line]
  · dsimp only
    have e2 : b!"--" ++ B ++ b!"\r" ++ [10] = b!"--" ++ B ++ b!"\r\n" := by simp
    rw [e2, delimiter_line]
  · simp only [List.mem_append, not_or]
    exact ⟨⟨by decide, fun h => (boundary_byte hB h).2.2.1 rfl⟩, by decide⟩
  · have := hB.2.1
    simp
    omega

theorem next_final {B : Str} (hB : BoundaryText B) (fuel : Nat) (first expect : Bool) (rest : Str) :
    nextBoundary B (fuel + 1) b!"\r\n" first expect (b!"--" ++ B ++ b!"--\r\n" ++ rest) = .fin := by
  unfold nextBoundary
  have e : b!"--" ++ B ++ b!"--\r\n" ++ rest = (b!"--" ++ B ++ b!"--\r") ++ 10 :: rest := by simp
  rw [e, readSlice_line]
  · dsimp only
    have e2 : b!"--" ++ B ++ b!"--\r" ++ [10] = b!"--" ++ B ++ b!"--\r\n" := by simp
    have h1 : isDelimiterLine B b!"\r\n" first (b!"--" ++ B ++ b!"--\r\n") = (false, b!"\r\n") := by
      unfold isDelimiterLine
      dsimp only
      rw [if_pos (hasPrefix_append _ _), List.drop_left]
      have : skipLWSP b!"--\r\n" = b!"--\r\n" := by decide
      rw [this]
      cases first <;> decide
    have h2 : isFinalBoundary B b!"\r\n" (b!"--" ++ B ++ b!"--\r\n") = true := by
      unfold isFinalBoundary
      dsimp only
      have e3 : b!"--" ++ B ++ b!"--\r\n" = b!"--" ++ B ++ b!"--" ++ b!"\r\n" := by simp
      rw [e3, hasPrefix_append, List.drop_left]
      decide
    rw [e2, h1]
    dsimp only
    rw [if_pos h2]
  · simp only [List.mem_append, not_or]
    exact ⟨⟨by decide, fun h => (boundary_byte hB h).2.2.1 rfl⟩, by decide⟩
  · have := hB.2.1
    simp
    omega

/-- the line end behind the data of a part is passed over -/
theorem next_empty (B : Str) (fuel : Nat) (rest : Str) :
    nextBoundary B (fuel + 1) b!"\r\n" false false (b!"\r\n" ++ rest) = nextBoundary B fuel b!"\r\n" false true rest := by
  rw [nextBoundary]
  have e : b!"\r\n" ++ rest = [13] ++ 10 :: rest := rfl
  rw [e, readSlice_line (by decide) (by decide)]
  dsimp only
  have h0 : ∀ p : Str, hasPrefix ([13] ++ [10]) (b!"--" ++ p) = false := fun p => by
    simp [hasPrefix, List.isPrefixOf]
  have h1 : isDelimiterLine B b!"\r\n" false ([13] ++ [10]) = (false, b!"\r\n") := by
    unfold isDelimiterLine
    dsimp only
    rw [h0]
    rfl
  have h2 : isFinalBoundary B b!"\r\n" ([13] ++ [10]) = false := by
    unfold isFinalBoundary
    dsimp only
    rw [List.append_assoc, h0]
    rfl
  rw [h1]
  dsimp only
  rw [if_neg (by rw [h2]; decide), if_neg (by decide), if_neg (by decide), if_pos (by decide)]

/-! ### data -/

theorem scan_found {nd rest : Str} (hb : afterBoundary rest = true) (hne : nd ≠ []) :
    ∀ d : Str, (∀ a b, d ++ nd ++ rest = a ++ b → a.length < d.length → ¬ nd <+: b) →
      scanData nd 0 (d ++ nd ++ rest) = some (d, nd ++ rest) := by
  intro d
  induction d with
  | nil =>
    intro _
    cases nd with
    | nil => exact absurd rfl hne
    | cons c cs =>
      simp only [List.nil_append, List.cons_append]
      unfold scanData
      rw [if_pos (by rw [List.isPrefixOf_iff_prefix, ← List.cons_append]; exact List.prefix_append _ _)]
      rw [if_pos (by rw [← List.cons_append, List.drop_left]; exact hb)]
  | cons c d ih =>
    intro h
    have := ih (fun a b hab hl => h (c :: a) b (by simp only [List.cons_append, ← hab]) (by simp; omega))
    simp only [List.cons_append]
    unfold scanData
    rw [if_neg, this]
    · rfl
    · rw [List.isPrefixOf_iff_prefix]
      have := h [] (c :: (d ++ nd ++ rest)) (by simp) (by simp)
      exact this

/-- A word that begins with a byte it has nowhere else begins in `d ++ word` only within `d` or at its end. -/
theorem occurs_within {c : UInt8} {w d rest a b : Str} (hw : c ∉ w) (h : d ++ (c :: w) ++ rest = a ++ b) (hl : a.length < d.length)
    (hp : (c :: w) <+: b) : (c :: w) <:+: d := by
  obtain ⟨t, rfl⟩ := hp
  have hd : ∃ u, d = a ++ u := by
    have : a = (a ++ (c :: w ++ t)).take a.length := by simp
    rw [← h, List.append_assoc, List.take_append_of_le_length (by omega)] at this
    refine ⟨d.drop a.length, ?_⟩
    conv => lhs; rw [← List.take_append_drop a.length d]
    rw [← this]
  obtain ⟨u, rfl⟩ := hd
  have hu : u ≠ [] := by rintro rfl; simp at hl
  have h : u ++ (c :: w ++ rest) = c :: w ++ t := by
    simp only [List.append_assoc, List.cons_append] at h ⊢
    exact List.append_cancel_left h
  by_cases hlen : (c :: w).length ≤ u.length
  · refine ⟨a, u.drop (c :: w).length, ?_⟩
    have : u = (c :: w) ++ u.drop (c :: w).length := by
      have h1 : (u ++ (c :: w ++ rest)).take (c :: w).length = u.take (c :: w).length := List.take_append_of_le_length hlen
      rw [h, List.take_left] at h1
      conv => lhs; rw [← List.take_append_drop (c :: w).length u, ← h1]
    conv => rhs; rw [this]
    simp
  · exfalso
    cases u with
    | nil => exact hu rfl
    | cons x u =>
      simp only [List.cons_append, List.cons.injEq] at h
      have h2 : (c :: (w ++ rest)) = (w ++ t).drop u.length := by rw [← h.2]; simp
      have h3 : (w ++ t).drop u.length = w.drop u.length ++ t := by
        rw [List.drop_append_of_le_length]
        simp only [List.length_cons] at hlen
        omega
      rw [h3] at h2
      simp only [List.length_cons] at hlen
      cases hwd : w.drop u.length with
      | nil =>
        have := List.drop_eq_nil_iff.1 hwd
        omega
      | cons y ys =>
        rw [hwd, List.cons_append, List.cons.injEq] at h2
        exact hw (List.mem_of_mem_drop (by rw [hwd, h2.1]; exact List.mem_cons_self ..))

/-- the data of a part -/
theorem partData_eq {B d rest : Str} (hB : BoundaryText B) (hd : ¬ (b!"--" ++ B) <:+: d) (hr : afterBoundary rest = true) :
    partData B b!"\r\n" (d ++ b!"\r\n" ++ (b!"--" ++ B) ++ rest) = some (d, b!"\r\n" ++ (b!"--" ++ B) ++ rest) := by
  have hno : ∀ x ∈ b!"--" ++ B, x ≠ 13 ∧ x ≠ 10 := by
    intro x hx
    rcases List.mem_append.1 hx with hx | hx
    · have : ∀ x ∈ b!"--", x ≠ 13 ∧ x ≠ 10 := by decide
      exact this x hx
    · exact ⟨(boundary_byte hB hx).2.1, (boundary_byte hB hx).2.2.1⟩
  unfold partData
  dsimp only
  have hpre : hasPrefix (d ++ b!"\r\n" ++ (b!"--" ++ B) ++ rest) (b!"--" ++ B) = false := by
    rw [Bool.eq_false_iff]
    intro h
    unfold hasPrefix at h
    rw [List.isPrefixOf_iff_prefix] at h
    generalize hw : b!"--" ++ B = w at *
    by_cases hl : w.length ≤ d.length
    · apply hd
      have : w <+: d := by
        refine List.prefix_of_prefix_length_le h ?_ hl
        simp only [List.append_assoc]
        exact List.prefix_append _ _
      exact this.isInfix
    · have h1 : (d ++ [13]) <+: w := by
        refine List.prefix_of_prefix_length_le ?_ h (by simp; omega)
        refine ⟨10 :: (w ++ rest), by simp⟩
      have := h1.subset (List.mem_append_right _ (List.mem_singleton.2 rfl))
      exact (hno _ this).1 rfl
  rw [hpre, if_neg (by decide)]
  have e : d ++ b!"\r\n" ++ (b!"--" ++ B) ++ rest = d ++ (b!"\r\n" ++ (b!"--" ++ B)) ++ rest := by simp
  rw [e]
  have := scan_found (nd := b!"\r\n" ++ (b!"--" ++ B)) (rest := rest) hr (by simp) d ?_
  · exact this
  · intro a b hab hl hp
    have := occurs_within (c := 13) (w := 10 :: (b!"--" ++ B)) (d := d) (rest := rest) (a := a) (b := b)
      (by
        intro h
        rcases List.mem_cons.1 h with h | h
        · cases h
        · exact (hno _ h).1 rfl) hab hl hp
    apply hd
    obtain ⟨s, t, hst⟩ := this
    exact ⟨s ++ b!"\r\n", t, by rw [← hst]; simp⟩

/-! ### headers -/

theorem readLine_crlf {line rest : Str} (h : 10 ∉ line) : readLine (line ++ b!"\r\n" ++ rest) = some (line, rest) := by
  have e : line ++ b!"\r\n" ++ rest = (line ++ [13]) ++ 10 :: rest := by simp
  unfold readLine
  rw [e, indexByte_append (by simp [h])]
  dsimp only
  rw [List.take_left, trimSuffix_one]
  have e2 : (line ++ [13] ++ 10 :: rest).drop ((line ++ [13]).length + 1) = rest := by
    have : line ++ [13] ++ 10 :: rest = (line ++ [13] ++ [10]) ++ rest := by simp
    rw [this, List.drop_left' (by simp)]
  rw [e2]
  simp

/-- what is left of a text behind its last character that is no blank -/
def cutBlank (s : Str) : Str := (s.reverse.dropWhile blankB).reverse

theorem trimBlank_eq {a x : Str} {c : UInt8} (ha : ∀ y, (a ++ [c]).head? = some y → blankB y = false) (hc : blankB c = false) :
    trimBlank (a ++ [c] ++ x) = a ++ [c] ++ cutBlank x := by
  unfold trimBlank cutBlank
  have h1 : (a ++ [c] ++ x).dropWhile blankB = a ++ [c] ++ x := by
    cases a with
    | nil => simp [hc]
    | cons y a =>
      have := ha y (by simp)
      simp [this]
  rw [h1, List.reverse_append, List.reverse_append]
  simp only [List.reverse_cons, List.reverse_nil, List.nil_append, List.singleton_append]
  have key : ∀ l : Str, (l ++ c :: a.reverse).dropWhile blankB = l.dropWhile blankB ++ c :: a.reverse := by
    intro l
    induction l with
    | nil => simp [hc]
    | cons y l ih =>
      simp only [List.cons_append, List.dropWhile_cons]
      split
      · exact ih
      · rfl
  rw [key]
  simp

theorem cutBlank_end {x : Str} {c : UInt8} (hc : blankB c = false) : cutBlank (x ++ [c]) = x ++ [c] := by
  unfold cutBlank
  simp [hc]

/-- a header line with nothing that continues it -/
theorem header_line {key x rest : Str} (fuel : Nat) (h : Header) (hk : key ≠ []) (hkc : colon ∉ key) (hkn : 10 ∉ key)
    (hkb : ∀ y, key.head? = some y → blankB y = false) (hx : 10 ∉ x) (hr : ∀ y, rest.head? = some y → blankB y = false) :
    mimeHeaderLoop (fuel + 1) h (key ++ [colon] ++ x ++ b!"\r\n" ++ rest) =
      mimeHeaderLoop fuel (h.add key ((cutBlank x).dropWhile blankB)) rest := by
  have hl : 10 ∉ key ++ [colon] ++ x := by
    simp only [List.mem_append, not_or]
    exact ⟨⟨hkn, by decide⟩, hx⟩
  rw [mimeHeaderLoop, readLine_crlf hl]
  dsimp only
  rw [if_neg (by simp), if_neg (by simp)]
  rw [trimBlank_eq (by
    intro y hy
    cases key with
    | nil => exact absurd rfl hk
    | cons k ks => exact hkb y (by simpa using hy)) (by decide)]
  have hcont : continued rest.length (key ++ [colon] ++ cutBlank x) rest = (key ++ [colon] ++ cutBlank x, rest) := by
    cases rest with
    | nil => rfl
    | cons y ys =>
      have := hr y rfl
      rw [List.length_cons, continued, if_neg (by simp [this])]
  rw [hcont]
  dsimp only
  have hi : indexByte (key ++ [colon] ++ cutBlank x) colon = some key.length := by
    rw [List.append_assoc]
    exact indexByte_append hkc
  rw [hi]
  have h1 : (key ++ [colon] ++ cutBlank x).take ((some key.length).getD 0) = key := by
    rw [List.append_assoc]; exact List.take_left
  have h2 : (key ++ [colon] ++ cutBlank x).drop ((some key.length).getD 0 + 1) = cutBlank x := by
    exact List.drop_left' (by simp)
  rw [h1, h2, if_neg hk]

/-- the end of a header -/
theorem header_end (fuel : Nat) (h : Header) (rest : Str) : mimeHeaderLoop (fuel + 1) h (b!"\r\n" ++ rest) = .ok h rest := by
  rw [mimeHeaderLoop]
  have := readLine_crlf (line := []) (rest := rest) (by simp)
  rw [List.nil_append] at this
  rw [this]
  rfl

end Water
