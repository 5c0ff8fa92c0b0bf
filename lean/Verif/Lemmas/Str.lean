import Verif.Model.Str
/- Helper lemmas about the string functions. -/
namespace Water

theorem indexByte_none {s : Str} {c : UInt8} : indexByte s c = none ↔ c ∉ s := by
  unfold indexByte
  rw [List.findIdx?_eq_none_iff]
  constructor
  · intro h hc; have := h c hc; simp at this
  · intro h x hx; simp; rintro rfl; exact h hx

theorem indexByte_some {s : Str} {c : UInt8} {i : Nat} (h : indexByte s c = some i) :
    i < s.length ∧ s = s.take i ++ c :: s.drop (i + 1) ∧ c ∉ s.take i := by
  unfold indexByte at h
  rw [List.findIdx?_eq_some_iff_getElem] at h
  obtain ⟨hi, hc, hlt⟩ := h
  have hc : s[i] = c := by simpa using hc
  refine ⟨hi, ?_, ?_⟩
  · rw [← hc]; simp
  · intro hm
    rw [List.mem_take_iff_getElem] at hm
    obtain ⟨j, hj, e⟩ := hm
    have := hlt j (by omega)
    simp [e] at this

/-- `indexByte` of a string cut at a separator -/
theorem indexByte_append {a b : Str} {c : UInt8} (h : c ∉ a) : indexByte (a ++ c :: b) c = some a.length := by
  unfold indexByte
  rw [List.findIdx?_eq_some_iff_getElem]
  refine ⟨by simp, by simp, ?_⟩
  intro j hj
  rw [List.getElem_append_left hj]
  simp; rintro rfl; exact h (List.getElem_mem _)

theorem splitB_ne_nil (c : UInt8) (s : Str) : splitB c s ≠ [] := by
  cases s with
  | nil => simp [splitB]
  | cons x xs => unfold splitB; split <;> (try split) <;> simp

theorem splitB_of_not_mem {c : UInt8} {s : Str} (h : c ∉ s) : splitB c s = [s] := by
  induction s with
  | nil => rfl
  | cons x xs ih =>
    simp only [List.mem_cons, not_or] at h
    unfold splitB
    rw [if_neg (by simpa using fun e => h.1 e.symm), ih h.2]

theorem splitB_append {c : UInt8} {a b : Str} (h : c ∉ a) : splitB c (a ++ c :: b) = a :: splitB c b := by
  induction a with
  | nil => simp [splitB]
  | cons x xs ih =>
    simp only [List.mem_cons, not_or] at h
    rw [List.cons_append, splitB, if_neg (by simpa using fun e => h.1 e.symm), ih h.2]

theorem splitB_index_none {c : UInt8} {s : Str} (h : indexByte s c = none) : splitB c s = [s] :=
  splitB_of_not_mem (indexByte_none.1 h)

theorem splitB_index_some {c : UInt8} {s : Str} {i : Nat} (h : indexByte s c = some i) :
    splitB c s = s.take i :: splitB c (s.drop (i + 1)) := by
  obtain ⟨_, e, hn⟩ := indexByte_some h
  conv => lhs; rw [e]
  exact splitB_append hn

theorem not_mem_of_mem_splitB {c : UInt8} {s x : Str} (h : x ∈ splitB c s) : c ∉ x := by
  induction s generalizing x with
  | nil => simp [splitB] at h; simp [h]
  | cons y ys ih =>
    unfold splitB at h
    split at h
    · simp at h; rcases h with rfl | h
      · simp
      · exact ih h
    · rename_i hy
      have hy : y ≠ c := by simpa using hy
      revert h
      cases hs : splitB c ys with
      | nil => exact absurd hs (splitB_ne_nil c ys)
      | cons z zs =>
        intro h
        simp only [List.mem_cons] at h
        rcases h with rfl | h
        · simp only [List.mem_cons, not_or]
          exact ⟨fun e => hy e.symm, ih (by simp [hs])⟩
        · exact ih (by simp [hs, h])

theorem join_cons_ne {sep x : Str} {l : List Str} (h : l ≠ []) : join sep (x :: l) = x ++ sep ++ join sep l := by
  cases l with
  | nil => exact absurd rfl h
  | cons y ys => rfl

theorem join_splitB (c : UInt8) (s : Str) : join [c] (splitB c s) = s := by
  induction s with
  | nil => rfl
  | cons x xs ih =>
    unfold splitB
    split
    · rename_i h
      have h : x = c := by simpa using h
      rw [join_cons_ne (splitB_ne_nil c xs), ih, h]; simp
    · cases hs : splitB c xs with
      | nil => exact absurd hs (splitB_ne_nil c xs)
      | cons y ys =>
        rw [hs] at ih
        cases ys with
        | nil => simp [join] at ih ⊢; exact ih
        | cons z zs => simp [join] at ih ⊢; exact ih

theorem splitB_join {c : UInt8} {l : List Str} (hne : l ≠ []) (h : ∀ x ∈ l, c ∉ x) :
    splitB c (join [c] l) = l := by
  induction l with
  | nil => exact absurd rfl hne
  | cons x xs ih =>
    cases xs with
    | nil => simp [join]; exact splitB_of_not_mem (h x (by simp))
    | cons y ys =>
      rw [join_cons_ne (by simp)]
      have := splitB_append (c := c) (a := x) (b := join [c] (y :: ys)) (h x (by simp))
      simp only [List.append_assoc, List.cons_append, List.nil_append] at this ⊢
      rw [this, ih (by simp) (fun z hz => h z (by simp [hz]))]

theorem splitB_injective {c : UInt8} {s t : Str} (h : splitB c s = splitB c t) : s = t := by
  rw [← join_splitB c s, h, join_splitB]

end Water

namespace Water

theorem takeWhile_index {s : Str} {c : UInt8} {i : Nat} (h : indexByte s c = some i) :
    s.takeWhile (· != c) = s.take i := by
  obtain ⟨_, e, hn⟩ := indexByte_some h
  conv => lhs; rw [e]
  rw [List.takeWhile_append_of_pos]
  · simp
  · intro a ha; simp; rintro rfl; exact hn ha

theorem dropWhile_index {s : Str} {c : UInt8} {i : Nat} (h : indexByte s c = some i) :
    s.dropWhile (· != c) = s.drop i := by
  obtain ⟨hi, e, hn⟩ := indexByte_some h
  conv => lhs; rw [e]
  rw [List.dropWhile_append_of_pos]
  · simp
    conv => rhs; rw [e]
    rw [List.drop_append_of_le_length (by simp; omega)]
    simp
  · intro a ha; simp; rintro rfl; exact hn ha

theorem indexByte_eq_some_iff {s : Str} {c : UInt8} {i : Nat} :
    indexByte s c = some i ↔ s[i]? = some c ∧ c ∉ s.take i := by
  constructor
  · intro h
    obtain ⟨hi, e, hn⟩ := indexByte_some h
    refine ⟨?_, hn⟩
    rw [e]; rw [List.getElem?_append_right (by simp; omega)]
    simp [Nat.min_eq_left (Nat.le_of_lt hi)]
  · rintro ⟨h1, h2⟩
    have hi : i < s.length := by
      rcases Nat.lt_or_ge i s.length with h | h
      · exact h
      · simp [List.getElem?_eq_none h] at h1
    have : s = s.take i ++ c :: s.drop (i + 1) := by
      rw [List.getElem?_eq_getElem hi] at h1
      have : s[i] = c := by simpa using h1
      rw [← this]; simp
    conv => lhs; rw [this]
    rw [indexByte_append h2]
    simp; omega

theorem indexByte_take {s : Str} {c : UInt8} {i j : Nat} (h : indexByte s c = some i) (hij : i < j) :
    indexByte (s.take j) c = some i := by
  rw [indexByte_eq_some_iff] at h ⊢
  refine ⟨?_, ?_⟩
  · rw [List.getElem?_take_of_lt hij]; exact h.1
  · rw [List.take_take]; rw [Nat.min_eq_left (Nat.le_of_lt hij)]; exact h.2

theorem mem_of_indexByte {s : Str} {c : UInt8} {i : Nat} (h : indexByte s c = some i) : c ∈ s := by
  have := (indexByte_some h).2.1
  rw [this]; simp

theorem exists_indexByte {s : Str} {c : UInt8} (h : c ∈ s) : ∃ i, indexByte s c = some i := by
  cases hi : indexByte s c with
  | none => exact absurd h (indexByte_none.1 hi)
  | some i => exact ⟨i, rfl⟩

theorem containsStr_one {s : Str} {c : UInt8} : containsStr s [c] = true ↔ c ∈ s := by
  induction s with
  | nil => simp [containsStr]
  | cons x xs ih =>
    simp only [containsStr, Bool.or_eq_true, ih, List.mem_cons]
    simp [List.isPrefixOf]

theorem hasPrefix_one {s : Str} {c : UInt8} : hasPrefix s [c] = true ↔ s.head? = some c := by
  cases s with
  | nil => simp [hasPrefix]
  | cons x xs =>
    simp only [hasPrefix, List.isPrefixOf, List.head?_cons, Option.some.injEq, Bool.and_true, beq_iff_eq]
    exact eq_comm

theorem hasSuffix_one {s : Str} {c : UInt8} : hasSuffix s [c] = true ↔ s.getLast? = some c := by
  unfold hasSuffix
  rw [List.isSuffixOf_iff_suffix]
  constructor
  · rintro ⟨t, rfl⟩; simp
  · intro h
    have hne : s ≠ [] := by rintro rfl; simp at h
    refine ⟨s.dropLast, ?_⟩
    rw [List.getLast?_eq_some_getLast hne] at h
    have h : s.getLast hne = c := by simpa using h
    rw [← h]; exact List.dropLast_concat_getLast hne

theorem trimPrefix_one {s : Str} {c : UInt8} :
    trimPrefix s [c] = if s.head? = some c then s.tail else s := by
  unfold trimPrefix
  by_cases h : s.head? = some c
  · rw [if_pos (hasPrefix_one.2 h), if_pos h]; simp
  · rw [if_neg (fun h' => h (hasPrefix_one.1 h')), if_neg h]

theorem trimSuffix_one {s : Str} {c : UInt8} :
    trimSuffix s [c] = if s.getLast? = some c then s.dropLast else s := by
  unfold trimSuffix
  by_cases h : s.getLast? = some c
  · rw [if_pos (hasSuffix_one.2 h), if_pos h, List.dropLast_eq_take]; simp
  · rw [if_neg (fun h' => h (hasSuffix_one.1 h')), if_neg h]

theorem lastIndexByte_last {s : Str} {c : UInt8} (hne : s ≠ []) :
    lastIndexByte s c = some (s.length - 1) ↔ s.getLast? = some c := by
  have hlen : 0 < s.length := List.length_pos_iff.2 hne
  unfold lastIndexByte
  rw [List.getLast?_eq_head?_reverse]
  constructor
  · intro h
    cases hi : indexByte s.reverse c with
    | none => simp [hi] at h
    | some i =>
      simp [hi] at h
      have hlt := (indexByte_some hi).1
      simp at hlt
      have : i = 0 := by omega
      subst this
      rw [indexByte_eq_some_iff] at hi
      rw [List.head?_eq_getElem?]; exact hi.1
  · intro h
    have : indexByte s.reverse c = some 0 := by
      rw [indexByte_eq_some_iff]; simp [← List.head?_eq_getElem?, h]
    simp [this]

theorem lastIndexByte_lt {s : Str} {c : UInt8} {i : Nat} (h : lastIndexByte s c = some i) :
    i < s.length ∧ s[i]? = some c := by
  unfold lastIndexByte at h
  cases hi : indexByte s.reverse c with
  | none => simp [hi] at h
  | some j =>
    simp [hi] at h
    have hlt := (indexByte_some hi).1
    simp at hlt
    rw [indexByte_eq_some_iff] at hi
    have h1 := hi.1
    rw [List.getElem?_reverse (by simpa using hlt)] at h1
    refine ⟨by omega, ?_⟩
    rw [← h]; exact h1

end Water
