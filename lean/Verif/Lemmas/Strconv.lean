import Verif.Model.Strconv
import Verif.Spec.Number
/- `strconv` in terms of numerals. -/
namespace Water
open Spec

/-- the value of digits after a prefix of value `n` -/
def valueFrom (n : Nat) (s : Str) : Nat := s.foldl (fun n c => 10 * n + (c.toNat - 48)) n

theorem valueFrom_nil (n : Nat) : valueFrom n [] = n := rfl
theorem valueFrom_cons (n : Nat) (c : UInt8) (s : Str) : valueFrom n (c :: s) = valueFrom (10 * n + (c.toNat - 48)) s := by
  unfold valueFrom; rw [List.foldl_cons]

theorem valueFrom_ge (s : Str) : ∀ n, n ≤ valueFrom n s := by
  induction s with
  | nil => intro n; exact Nat.le_refl _
  | cons c s ih => intro n; rw [valueFrom_cons]; have := ih (10 * n + (c.toNat - 48)); omega

theorem digit_bounds {c : UInt8} (h : IsDigit c) : 48 ≤ c.toNat ∧ c.toNat ≤ 57 := by
  obtain ⟨h1, h2⟩ := h
  rw [UInt8.le_iff_toNat_le] at h1 h2
  exact ⟨h1, h2⟩

theorem lead_cons {c : UInt8} {s : Str} (h : IsDigit c) : lead (c :: s) = c :: lead s := by
  simp [lead, h]

theorem lead_cons_not {c : UInt8} {s : Str} (h : ¬ IsDigit c) : lead (c :: s) = [] := by
  simp [lead, h]

/-- The loop, in full. -/
theorem parseUintLoop_spec (bits : Nat) (hb : bits ≤ 64) (s : Str) : ∀ n, n < 2 ^ bits →
    parseUintLoop (2 ^ bits - 1) n s =
      if valueFrom n (lead s) < 2 ^ bits then
        if lead s = s then (valueFrom n s, none) else (0, some .syntax)
      else (2 ^ bits - 1, some .range) := by
  have hp : 2 ^ bits ≤ 2 ^ 64 := Nat.pow_le_pow_right (by decide) hb
  have hpos : 0 < 2 ^ bits := Nat.two_pow_pos _
  induction s with
  | nil => intro n hn; simp [parseUintLoop, lead, valueFrom, hn]
  | cons c s ih =>
    intro n hn
    unfold parseUintLoop
    by_cases hd : IsDigit c
    · have hd' : 48 ≤ c ∧ c ≤ 57 := hd
      obtain ⟨hd1, hd2⟩ := digit_bounds hd
      rw [if_pos hd', lead_cons hd, valueFrom_cons, valueFrom_cons]
      have hge := valueFrom_ge (lead s) (10 * n + (c.toNat - 48))
      by_cases hc : n ≥ (2 ^ 64 - 1) / 10 + 1
      · rw [if_pos hc, if_neg]
        omega
      · rw [if_neg hc]
        have h10 : n * 10 % 2 ^ 64 = n * 10 := Nat.mod_eq_of_lt (by omega)
        simp only [h10]
        by_cases hov : n * 10 + (c.toNat - 48) < 2 ^ 64
        · have h1 : (n * 10 + (c.toNat - 48)) % 2 ^ 64 = n * 10 + (c.toNat - 48) := Nat.mod_eq_of_lt hov
          rw [h1]
          by_cases hm : n * 10 + (c.toNat - 48) > 2 ^ bits - 1
          · rw [if_pos (.inr hm), if_neg]; omega
          · rw [if_neg (by omega), ih _ (by omega)]
            have : n * 10 + (c.toNat - 48) = 10 * n + (c.toNat - 48) := by omega
            rw [this]
            simp only [List.cons.injEq, true_and]
        · have h1 : (n * 10 + (c.toNat - 48)) % 2 ^ 64 = n * 10 + (c.toNat - 48) - 2 ^ 64 := by
            rw [Nat.mod_eq_sub_mod (by omega), Nat.mod_eq_of_lt (by omega)]
          rw [h1, if_pos (.inl (by omega)), if_neg (by omega)]
    · have hd' : ¬ (48 ≤ c ∧ c ≤ 57) := hd
      rw [if_neg hd', lead_cons_not hd]
      simp [valueFrom, hn]

theorem lead_eq_iff {s : Str} : lead s = s ↔ ∀ c ∈ s, IsDigit c := by
  induction s with
  | nil => simp [lead]
  | cons c s ih =>
    by_cases h : IsDigit c
    · rw [lead_cons h]; simp [ih, h]
    · rw [lead_cons_not h]; simp [h]

theorem numeral_lead {s : Str} (h : Numeral s) : lead s = s := lead_eq_iff.2 h.2

/-- `ParseUint`, in full. -/
theorem parseUint_spec (bits : Nat) (hb : bits ≤ 64) (s : Str) :
    parseUint bits s =
      if s ≠ [] ∧ value (lead s) < 2 ^ bits then
        if lead s = s then (value s, none) else (0, some .syntax)
      else if s = [] then (0, some .syntax)
      else (2 ^ bits - 1, some .range) := by
  unfold parseUint
  by_cases h : s = []
  · simp [h]
  · rw [if_neg h, parseUintLoop_spec bits hb s 0 (Nat.two_pow_pos _)]
    simp only [h, not_false_eq_true, ne_eq, true_and, if_false]
    rfl

theorem parseUint_numeral {bits : Nat} (hb : bits ≤ 64) {s : Str} (h : Numeral s) :
    parseUint bits s = if value s < 2 ^ bits then (value s, none) else (2 ^ bits - 1, some .range) := by
  rw [parseUint_spec bits hb, numeral_lead h]
  simp [h.1]

theorem parseUint_ok {bits : Nat} (hb : bits ≤ 64) {s : Str} {n : Nat} :
    parseUint bits s = (n, none) ↔ Numeral s ∧ value s = n ∧ n < 2 ^ bits := by
  rw [parseUint_spec bits hb]
  constructor
  · intro h
    split at h
    · rename_i h1
      split at h
      · rename_i h2
        rw [h2] at h1
        simp only [Prod.mk.injEq, and_true] at h
        exact ⟨⟨h1.1, lead_eq_iff.1 h2⟩, h, h ▸ h1.2⟩
      · simp at h
    · split at h <;> simp at h
  · rintro ⟨h1, rfl, h3⟩
    rw [numeral_lead h1]
    simp [h1.1, h3]

/-! ### `ParseInt` -/

/-- the number is negative -/
def isNeg (s : Str) : Bool := s.head? == some 45

theorem parseInt_unfold (bits : Nat) {s : Str} (hs : s ≠ []) : parseInt bits s =
    match parseUint bits (unsigned s) with
    | (_, some .syntax) => (0, some .syntax)
    | (un, _) =>
      if !isNeg s && un ≥ 2 ^ (bits - 1) then (((2 ^ (bits - 1) : Nat) : Int) - 1, some .range)
      else if isNeg s && un > 2 ^ (bits - 1) then (- ((2 ^ (bits - 1) : Nat) : Int), some .range)
      else (if isNeg s then - (un : Int) else un, none) := by
  cases s with
  | nil => exact absurd rfl hs
  | cons c cs =>
    have h1 : (if (c == 43 || c == 45) = true then cs else c :: cs) = unsigned (c :: cs) := by
      simp [unsigned, Bool.or_eq_true]
    have h2 : (c == 45) = isNeg (c :: cs) := by simp [isNeg]
    unfold parseInt
    simp only
    rw [h1, h2]
    rfl

theorem two_pow_half {bits : Nat} (h : 1 ≤ bits) : 2 ^ bits = 2 * 2 ^ (bits - 1) := by
  obtain ⟨k, rfl⟩ : ∃ k, bits = k + 1 := ⟨bits - 1, by omega⟩
  rw [Nat.pow_succ]; simp; omega

theorem two_pow_half_pos {bits : Nat} (h : 2 ≤ bits) : 2 ≤ 2 ^ (bits - 1) := by
  obtain ⟨k, rfl⟩ : ∃ k, bits = k + 2 := ⟨bits - 2, by omega⟩
  have := Nat.two_pow_pos k
  simp only [Nat.add_succ_sub_one, Nat.pow_succ]; omega

/-- the value with its sign -/
def signedValue (s : Str) : Int := if isNeg s then - (value (unsigned s) : Int) else value (unsigned s)

theorem digit_not_sign {c : UInt8} (h : IsDigit c) : c ≠ 43 ∧ c ≠ 45 := by
  obtain ⟨h1, h2⟩ := digit_bounds h
  constructor <;> (rintro rfl; revert h1; decide)

theorem signed_iff {s : Str} {v : Int} : Signed s v ↔ Numeral (unsigned s) ∧ v = signedValue s := by
  constructor
  · intro h
    cases h with
    | plain h =>
      cases s with
      | nil => exact absurd rfl h.1
      | cons c cs =>
        obtain ⟨h1, h2⟩ := digit_not_sign (h.2 c List.mem_cons_self)
        have : unsigned (c :: cs) = c :: cs := by simp [unsigned, h1, h2]
        simp only [signedValue, this, isNeg]
        simp [h, h2]
    | plus h => simp [unsigned, h, signedValue, isNeg]
    | minus h => simp [unsigned, h, signedValue, isNeg]
  · rintro ⟨h, rfl⟩
    cases s with
    | nil => exact absurd rfl h.1
    | cons c cs =>
      by_cases h1 : c = 43
      · subst h1
        have h2 : unsigned (43 :: cs) = cs := rfl
        rw [h2] at h
        have : signedValue (43 :: cs) = value cs := by simp [signedValue, isNeg, h2]
        rw [this]; exact .plus h
      · by_cases h3 : c = 45
        · subst h3
          have h2 : unsigned (45 :: cs) = cs := rfl
          rw [h2] at h
          have : signedValue (45 :: cs) = - value cs := by simp [signedValue, isNeg, h2]
          rw [this]; exact .minus h
        · have h2 : unsigned (c :: cs) = c :: cs := by simp [unsigned, h1, h3]
          rw [h2] at h
          have : signedValue (c :: cs) = value (c :: cs) := by simp [signedValue, isNeg, h2, h3]
          rw [this]; exact .plain h

theorem unsigned_nil {s : Str} (h : unsigned s ≠ []) : s ≠ [] := by
  rintro rfl; exact h rfl

theorem parseInt_signed {bits : Nat} (h2 : 2 ≤ bits) (hb : bits ≤ 64) {s : Str} {v : Int} (h : Signed s v) :
    parseInt bits s =
      if - ((2 ^ (bits - 1) : Nat) : Int) ≤ v ∧ v < (2 ^ (bits - 1) : Nat) then (v, none)
      else (clamp (- ((2 ^ (bits - 1) : Nat) : Int)) (((2 ^ (bits - 1) : Nat) : Int) - 1) v, some .range) := by
  obtain ⟨hn, rfl⟩ := signed_iff.1 h
  rw [parseInt_unfold bits (unsigned_nil hn.1), parseUint_numeral hb hn, two_pow_half (by omega)]
  have hp := two_pow_half_pos h2
  generalize (2 ^ (bits - 1) : Nat) = P at hp ⊢
  unfold signedValue clamp
  generalize value (unsigned s) = n
  cases isNeg s
  · simp only [Bool.not_false, Bool.true_and, Bool.false_and, Bool.false_eq_true, if_false, decide_eq_true_eq]
    by_cases h1 : n < 2 * P
    · rw [if_pos h1]
      simp only
      by_cases h3 : n ≥ P
      · rw [if_pos h3, if_neg (by omega), if_neg (by omega), if_pos (by omega)]
      · rw [if_neg h3, if_pos (by omega)]
    · rw [if_neg h1]
      simp only
      rw [if_pos (by omega), if_neg (by omega), if_neg (by omega), if_pos (by omega)]
  · simp only [Bool.not_true, Bool.false_and, Bool.true_and, Bool.false_eq_true, if_false, if_true, decide_eq_true_eq]
    by_cases h1 : n < 2 * P
    · rw [if_pos h1]
      simp only
      by_cases h3 : n > P
      · rw [if_pos h3, if_neg (by omega), if_pos (by omega)]
      · rw [if_neg h3, if_pos (by omega)]
    · rw [if_neg h1]
      simp only
      rw [if_pos (by omega), if_neg (by omega), if_pos (by omega)]

theorem parseInt_malformed {bits : Nat} (h2 : 2 ≤ bits) (hb : bits ≤ 64) {s : Str} (h : ¬ Numeral (unsigned s)) :
    parseInt bits s =
      if value (lead (unsigned s)) < 2 ^ bits then (0, some .syntax)
      else (if isNeg s then - ((2 ^ (bits - 1) : Nat) : Int) else ((2 ^ (bits - 1) : Nat) : Int) - 1, some .range) := by
  have hp := two_pow_half_pos h2
  by_cases h0 : s = []
  · subst h0
    simp [parseInt, unsigned, lead, value, Nat.two_pow_pos]
  · rw [parseInt_unfold bits h0, parseUint_spec bits hb]
    by_cases h1 : unsigned s = []
    · simp [h1, lead, value, Nat.two_pow_pos]
    · have h3 : lead (unsigned s) ≠ unsigned s := fun he => h ⟨h1, lead_eq_iff.1 he⟩
      simp only [h1, h3, ne_eq, not_false_eq_true, true_and, if_false]
      by_cases h4 : value (lead (unsigned s)) < 2 ^ bits
      · simp [h4]
      · simp only [h4, if_false]
        rw [two_pow_half (by omega)]
        generalize (2 ^ (bits - 1) : Nat) = P at hp ⊢
        cases isNeg s
        · simp only [Bool.not_false, Bool.true_and, Bool.false_eq_true, if_false, decide_eq_true_eq]
          rw [if_pos (by omega)]
        · simp only [Bool.not_true, Bool.false_and, Bool.true_and, Bool.false_eq_true, if_false, if_true, decide_eq_true_eq]
          rw [if_pos (by omega)]

theorem parseInt_ok {bits : Nat} (h2 : 2 ≤ bits) (hb : bits ≤ 64) {s : Str} {v : Int} :
    parseInt bits s = (v, none) ↔ Signed s v ∧ - ((2 ^ (bits - 1) : Nat) : Int) ≤ v ∧ v < (2 ^ (bits - 1) : Nat) := by
  constructor
  · intro h
    by_cases hn : Numeral (unsigned s)
    · have hs : Signed s (signedValue s) := signed_iff.2 ⟨hn, rfl⟩
      rw [parseInt_signed h2 hb hs] at h
      split at h
      · rename_i h1
        simp only [Prod.mk.injEq, and_true] at h
        subst h; exact ⟨hs, h1⟩
      · simp at h
    · rw [parseInt_malformed h2 hb hn] at h
      split at h <;> simp at h
  · rintro ⟨h, h1⟩
    rw [parseInt_signed h2 hb h, if_pos h1]

/-! ### `Atoi` -/

theorem atoiLoop_spec (s : Str) : ∀ n : Nat, atoiLoop n s = if lead s = s then some (valueFrom n s : Int) else none := by
  induction s with
  | nil => intro n; simp [atoiLoop, lead, valueFrom]
  | cons c s ih =>
    intro n
    unfold atoiLoop
    by_cases hd : IsDigit c
    · have hd' : 48 ≤ c ∧ c ≤ 57 := hd
      rw [if_pos hd', lead_cons hd, valueFrom_cons]
      have : (n : Int) * 10 + ((c.toNat - 48 : Nat) : Int) = ((10 * n + (c.toNat - 48) : Nat) : Int) := by omega
      rw [this, ih]
      simp only [List.cons.injEq, true_and]
    · have hd' : ¬ (48 ≤ c ∧ c ≤ 57) := hd
      rw [if_neg hd', lead_cons_not hd]
      simp

theorem valueFrom_lt (s : Str) (h : ∀ c ∈ s, IsDigit c) : ∀ n, valueFrom n s < (n + 1) * 10 ^ s.length := by
  induction s with
  | nil => intro n; simp [valueFrom]
  | cons c s ih =>
    intro n
    rw [valueFrom_cons, List.length_cons, Nat.pow_succ]
    obtain ⟨h1, h2⟩ := digit_bounds (h c List.mem_cons_self)
    have h3 := ih (fun x hx => h x (List.mem_cons_of_mem _ hx)) (10 * n + (c.toNat - 48))
    have h4 : (10 * n + (c.toNat - 48) + 1) * 10 ^ s.length ≤ ((n + 1) * 10) * 10 ^ s.length :=
      Nat.mul_le_mul_right _ (by omega)
    have h5 : (n + 1) * (10 ^ s.length * 10) = ((n + 1) * 10) * 10 ^ s.length := by
      rw [Nat.mul_comm (10 ^ s.length) 10, Nat.mul_assoc]
    omega

theorem value_lt {s : Str} (h : ∀ c ∈ s, IsDigit c) : value s < 10 ^ s.length := by
  have := valueFrom_lt s h 0
  rw [Nat.zero_add, Nat.one_mul] at this
  exact this

theorem lead_digits (s : Str) : ∀ c ∈ lead s, IsDigit c := by
  induction s with
  | nil => simp [lead]
  | cons c s ih =>
    by_cases h : IsDigit c
    · rw [lead_cons h]; intro x hx
      rcases List.mem_cons.1 hx with rfl | hx
      · exact h
      · exact ih x hx
    · rw [lead_cons_not h]; simp

theorem lead_length (s : Str) : (lead s).length ≤ s.length := by
  unfold lead; exact (List.takeWhile_sublist _).length_le

theorem unsigned_length (s : Str) : (unsigned s).length ≤ s.length := by
  cases s with
  | nil => exact Nat.le_refl _
  | cons c cs =>
    by_cases h : c = 43 ∨ c = 45
    · simp [unsigned, h]
    · simp [unsigned, h]

theorem atoi_eq (s : Str) : atoi s = parseInt 64 s := by
  unfold atoi
  split
  · rename_i h
    have hs : s ≠ [] := by rintro rfl; simp at h
    have ht : (if s.head? = some 45 ∨ s.head? = some 43 then s.drop 1 else s) = unsigned s := by
      cases s with
      | nil => exact absurd rfl hs
      | cons c cs => simp [unsigned, Or.comm]
    have hneg : (s.head? = some 45) = (isNeg s = true) := by simp [isNeg]
    simp only [ht]
    simp only [hneg]
    have hval : ∀ t : Str, (∀ c ∈ t, IsDigit c) → t.length ≤ s.length → value t < 2 ^ 63 := by
      intro t h1 h2
      have h3 := value_lt h1
      have h4 : 10 ^ t.length ≤ 10 ^ 18 := Nat.pow_le_pow_right (by decide) (by omega)
      have h5 : (10 : Nat) ^ 18 < 2 ^ 63 := by decide
      omega
    by_cases hn : Numeral (unsigned s)
    · rw [if_neg hn.1]
      have h1 := atoiLoop_spec (unsigned s) 0
      rw [if_pos (numeral_lead hn)] at h1
      have h1' : atoiLoop 0 (unsigned s) = some (value (unsigned s) : Int) := h1
      rw [h1', parseInt_signed (by decide) (by decide) (signed_iff.2 ⟨hn, rfl⟩)]
      have hv := hval _ hn.2 (unsigned_length s)
      simp only
      have h9 : (2 : Nat) ^ (64 - 1) = 9223372036854775808 := by decide
      have h8 : (2 : Nat) ^ 63 = 9223372036854775808 := by decide
      rw [h9]
      rw [h8] at hv
      have : signedValue s = if isNeg s = true then - (value (unsigned s) : Int) else value (unsigned s) := rfl
      rw [this]
      cases isNeg s
      · simp only [Bool.false_eq_true, if_false]
        rw [if_pos (by omega)]
      · simp only [if_true]
        rw [if_pos (by omega)]
    · rw [parseInt_malformed (by decide) (by decide) hn]
      have hv := hval _ (lead_digits _) (Nat.le_trans (lead_length _) (unsigned_length s))
      rw [if_pos (Nat.lt_trans hv (by decide))]
      by_cases h0 : unsigned s = []
      · rw [if_pos h0]
      · rw [if_neg h0]
        have h1 := atoiLoop_spec (unsigned s) 0
        rw [if_neg (fun he => hn ⟨h0, lead_eq_iff.1 he⟩)] at h1
        have h1' : atoiLoop 0 (unsigned s) = none := h1
        rw [h1']
  · rfl

/-! ### Printing -/

theorem value_append (a : Str) (c : UInt8) : value (a ++ [c]) = 10 * value a + (c.toNat - 48) := by
  unfold value; rw [List.foldl_append, List.foldl_cons, List.foldl_nil]

theorem digit_toNat {d : Nat} (h : d < 10) : (UInt8.ofNat (48 + d)).toNat = 48 + d := by
  rw [UInt8.toNat_ofNat']; exact Nat.mod_eq_of_lt (by omega)

theorem digit_isDigit {d : Nat} (h : d < 10) : IsDigit (UInt8.ofNat (48 + d)) := by
  constructor
  · rw [UInt8.le_iff_toNat_le, digit_toNat h]; show 48 ≤ _; omega
  · rw [UInt8.le_iff_toNat_le, digit_toNat h]; show _ ≤ 57; omega

theorem decDigits_spec (f : Nat) : ∀ n, n < f → Numeral (decDigitsF f n) ∧ value (decDigitsF f n) = n := by
  induction f with
  | zero => intro n h; omega
  | succ f ih =>
    intro n h
    unfold decDigitsF
    by_cases h10 : n < 10
    · rw [if_pos h10]
      refine ⟨⟨by simp, ?_⟩, ?_⟩
      · intro c hc; rw [List.mem_singleton] at hc; subst hc; exact digit_isDigit h10
      · have : value ([] ++ [UInt8.ofNat (48 + n)]) = n := by
          rw [value_append, digit_toNat h10]; simp [value]
        exact this
    · rw [if_neg h10]
      obtain ⟨h1, h2⟩ := ih (n / 10) (by omega)
      refine ⟨⟨by simp, ?_⟩, ?_⟩
      · intro c hc
        rcases List.mem_append.1 hc with hc | hc
        · exact h1.2 c hc
        · rw [List.mem_singleton] at hc; subst hc; exact digit_isDigit (Nat.mod_lt _ (by decide))
      · rw [value_append, h2, digit_toNat (Nat.mod_lt _ (by decide))]
        omega

theorem itoaNat_spec (n : Nat) : Numeral (itoaNat n) ∧ value (itoaNat n) = n := decDigits_spec (n + 1) n (Nat.lt_succ_self n)

theorem itoa_signed (i : Int) : Signed (itoa i) i := by
  unfold itoa
  split
  · obtain ⟨h1, h2⟩ := itoaNat_spec i.natAbs
    have := Signed.minus h1
    rw [h2] at this
    have e : (-(i.natAbs : Int)) = i := by omega
    rw [e] at this; exact this
  · obtain ⟨h1, h2⟩ := itoaNat_spec i.toNat
    have := Signed.plain h1
    rw [h2] at this
    have e : (i.toNat : Int) = i := by omega
    rw [e] at this; exact this

end Water
