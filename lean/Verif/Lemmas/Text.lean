import Verif.Lemmas.Util
import Verif.Spec.Text
import Verif.Model.Files
/-
Lower and upper case, canonical header keys.
-/
namespace Water
open Spec

theorem toLower_cons (c : UInt8) (s : Str) : toLower (c :: s) = lowerStep c (toLower s) := rfl
theorem toUpper_cons (c : UInt8) (s : Str) : toUpper (c :: s) = upperStep c (toUpper s) := rfl

theorem lowByte_high : ∀ c : UInt8, 128 ≤ (if 65 ≤ c ∧ c ≤ 90 then c + 32 else c) → ¬ (65 ≤ c ∧ c ≤ 90) := by
  refine all_bytes ?_; decide +kernel
theorem upByte_high : ∀ c : UInt8, 128 ≤ (if 97 ≤ c ∧ c ≤ 122 then c - 32 else c) → ¬ (97 ≤ c ∧ c ≤ 122) := by
  refine all_bytes ?_; decide +kernel

theorem toLower_high {s w : Str} {d : UInt8} (hd : 128 ≤ d) (h : toLower s = d :: w) : ∃ t, s = d :: t ∧ toLower t = w := by
  cases s with
  | nil => cases h
  | cons c s =>
    rw [toLower_cons] at h
    unfold lowerStep at h
    split at h
    · injection h with h1; rw [← h1] at hd; exact absurd hd (by decide)
    · split at h
      · injection h with h1; rw [← h1] at hd; exact absurd hd (by decide)
      · injection h with h1 h2
        have := lowByte_high c (by rw [h1]; exact hd)
        rw [if_neg this] at h1
        exact ⟨s, by rw [h1], h2⟩

theorem toUpper_high {s w : Str} {d : UInt8} (hd : 128 ≤ d) (h : toUpper s = d :: w) : ∃ t, s = d :: t ∧ toUpper t = w := by
  cases s with
  | nil => cases h
  | cons c s =>
    rw [toUpper_cons] at h
    unfold upperStep at h
    split at h
    · injection h with h1; rw [← h1] at hd; exact absurd hd (by decide)
    · split at h
      · injection h with h1; rw [← h1] at hd; exact absurd hd (by decide)
      · injection h with h1 h2
        have := upByte_high c (by rw [h1]; exact hd)
        rw [if_neg this] at h1
        exact ⟨s, by rw [h1], h2⟩

theorem low_spell : ∀ c : UInt8, [c] ∈ smallSpellings (if 65 ≤ c ∧ c ≤ 90 then c + 32 else c) := by
  refine all_bytes ?_; decide +kernel
theorem up_spell : ∀ c : UInt8, [c] ∈ capitalSpellings (if 97 ≤ c ∧ c ≤ 122 then c - 32 else c) := by
  refine all_bytes ?_; decide +kernel

/-- Whatever a text is mapped to, it spells it. -/
theorem toLower_spells (n : Nat) : ∀ s : Str, s.length ≤ n → ReadsSmall (toLower s) s := by
  induction n with
  | zero => intro s h; cases s with
    | nil => exact .nil
    | cons => simp at h
  | succ n ih =>
    intro s h
    cases s with
    | nil => exact .nil
    | cons c s =>
      rw [toLower_cons]
      unfold lowerStep
      split
      · rename_i hc
        obtain ⟨rfl, hr⟩ := hc
        obtain ⟨w, hw⟩ : ∃ w, toLower s = 0xB0 :: w := by
          cases hl : toLower s with
          | nil => rw [hl] at hr; cases hr
          | cons a w => rw [hl] at hr; simp at hr; exact ⟨w, by rw [hr]⟩
        obtain ⟨t, rfl, ht⟩ := toLower_high (by decide) hw
        rw [hw, List.tail_cons, ← ht]
        exact Spells.cons (x := [0xC4, 0xB0]) (by decide) (ih t (by simp at h; omega))
      · split
        · rename_i hc
          obtain ⟨rfl, hr⟩ := hc
          obtain ⟨w, hw⟩ : ∃ w, toLower s = 0x84 :: 0xAA :: w := by
            cases hl : toLower s with
            | nil => rw [hl] at hr; cases hr
            | cons a w =>
              cases w with
              | nil => rw [hl] at hr; simp at hr
              | cons b w => rw [hl] at hr; simp at hr; exact ⟨w, by rw [hr.1, hr.2]⟩
          obtain ⟨t, rfl, ht⟩ := toLower_high (by decide) hw
          obtain ⟨t, rfl, ht⟩ := toLower_high (by decide) ht
          have ht : toLower t = w := by assumption
          rw [hw, List.drop_succ_cons, List.drop_succ_cons, List.drop_zero, ← ht]
          exact Spells.cons (x := [0xE2, 0x84, 0xAA]) (by decide) (ih t (by simp at h; omega))
        · exact Spells.cons (x := [c]) (low_spell c) (ih s (by simp at h; omega))

theorem toUpper_spells (n : Nat) : ∀ s : Str, s.length ≤ n → ReadsCapital (toUpper s) s := by
  induction n with
  | zero => intro s h; cases s with
    | nil => exact .nil
    | cons => simp at h
  | succ n ih =>
    intro s h
    cases s with
    | nil => exact .nil
    | cons c s =>
      rw [toUpper_cons]
      unfold upperStep
      have key : ∀ d : UInt8, (toUpper s).head? = some d → ∃ w, toUpper s = d :: w := by
        intro d hr
        cases hl : toUpper s with
        | nil => rw [hl] at hr; cases hr
        | cons a w => rw [hl] at hr; simp at hr; exact ⟨w, by rw [hr]⟩
      split
      · rename_i hc
        obtain ⟨rfl, hr⟩ := hc
        obtain ⟨w, hw⟩ := key _ hr
        obtain ⟨t, rfl, ht⟩ := toUpper_high (by decide) hw
        rw [hw, List.tail_cons, ← ht]
        exact Spells.cons (x := [0xC4, 0xB1]) (by decide) (ih t (by simp at h; omega))
      · split
        · rename_i hc
          obtain ⟨rfl, hr⟩ := hc
          obtain ⟨w, hw⟩ := key _ hr
          obtain ⟨t, rfl, ht⟩ := toUpper_high (by decide) hw
          rw [hw, List.tail_cons, ← ht]
          exact Spells.cons (x := [0xC5, 0xBF]) (by decide) (ih t (by simp at h; omega))
        · exact Spells.cons (x := [c]) (up_spell c) (ih s (by simp at h; omega))

/-- A byte that can stand in a word of small letters, digits, and signs. -/
def smallByte (c : UInt8) : Prop := c ∉ capitalLetters ∧ c < 128
/-- A byte that can stand in a word of capital letters, digits, and signs. -/
def capitalByte (c : UInt8) : Prop := c ∉ smallLetters ∧ c < 128

instance (c : UInt8) : Decidable (smallByte c) := inferInstanceAs (Decidable (_ ∧ _))
instance (c : UInt8) : Decidable (capitalByte c) := inferInstanceAs (Decidable (_ ∧ _))

theorem small_one : ∀ c : UInt8, smallByte c → ∀ x ∈ smallSpellings c,
    (∃ a, x = [a] ∧ (if 65 ≤ a ∧ a ≤ 90 then a + 32 else a) = c ∧ a ≠ 0xC4 ∧ a ≠ 0xE2) ∨ (x = [0xC4, 0xB0] ∧ c = 105) ∨
      (x = [0xE2, 0x84, 0xAA] ∧ c = 107) := by
  have : ∀ c : UInt8, smallByte c → ∀ x ∈ smallSpellings c,
    (x.length = 1 ∧ (if 65 ≤ x.headD 0 ∧ x.headD 0 ≤ 90 then x.headD 0 + 32 else x.headD 0) = c ∧ x.headD 0 ≠ 0xC4 ∧ x.headD 0 ≠ 0xE2) ∨
      (x = [0xC4, 0xB0] ∧ c = 105) ∨ (x = [0xE2, 0x84, 0xAA] ∧ c = 107) := by
    refine all_bytes ?_; decide +kernel
  intro c hc x hx
  rcases this c hc x hx with ⟨h1, h2⟩ | h
  · obtain ⟨a, rfl⟩ := List.length_eq_one_iff.1 h1
    exact .inl ⟨a, rfl, h2⟩
  · exact .inr h

theorem capital_one : ∀ c : UInt8, capitalByte c → ∀ x ∈ capitalSpellings c,
    (∃ a, x = [a] ∧ (if 97 ≤ a ∧ a ≤ 122 then a - 32 else a) = c ∧ a ≠ 0xC4 ∧ a ≠ 0xC5) ∨ (x = [0xC4, 0xB1] ∧ c = 73) ∨
      (x = [0xC5, 0xBF] ∧ c = 83) := by
  have : ∀ c : UInt8, capitalByte c → ∀ x ∈ capitalSpellings c,
    (x.length = 1 ∧ (if 97 ≤ x.headD 0 ∧ x.headD 0 ≤ 122 then x.headD 0 - 32 else x.headD 0) = c ∧ x.headD 0 ≠ 0xC4 ∧ x.headD 0 ≠ 0xC5) ∨
      (x = [0xC4, 0xB1] ∧ c = 73) ∨ (x = [0xC5, 0xBF] ∧ c = 83) := by
    refine all_bytes ?_; decide +kernel
  intro c hc x hx
  rcases this c hc x hx with ⟨h1, h2⟩ | h
  · obtain ⟨a, rfl⟩ := List.length_eq_one_iff.1 h1
    exact .inl ⟨a, rfl, h2⟩
  · exact .inr h

theorem toLower_spelled {w m : Str} (hw : ∀ c ∈ w, smallByte c) (h : ReadsSmall w m) (s : Str) :
    toLower (m ++ s) = w ++ toLower s := by
  induction h with
  | nil => rfl
  | @cons c x w m hx _ ih =>
    have ih := ih (fun c hc => hw c (by simp [hc]))
    rcases small_one c (hw c (by simp)) x hx with ⟨a, rfl, h1, h2, h3⟩ | ⟨rfl, rfl⟩ | ⟨rfl, rfl⟩
    · show toLower (a :: (m ++ s)) = _
      rw [toLower_cons, ih]
      unfold lowerStep
      rw [if_neg (fun h => h2 h.1), if_neg (fun h => h3 h.1), h1]; rfl
    · show toLower (0xC4 :: 0xB0 :: (m ++ s)) = _
      rw [toLower_cons, toLower_cons, ih]; rfl
    · show toLower (0xE2 :: 0x84 :: 0xAA :: (m ++ s)) = _
      rw [toLower_cons, toLower_cons, toLower_cons, ih]; rfl

theorem toUpper_spelled {w m : Str} (hw : ∀ c ∈ w, capitalByte c) (h : ReadsCapital w m) (s : Str) :
    toUpper (m ++ s) = w ++ toUpper s := by
  induction h with
  | nil => rfl
  | @cons c x w m hx _ ih =>
    have ih := ih (fun c hc => hw c (by simp [hc]))
    rcases capital_one c (hw c (by simp)) x hx with ⟨a, rfl, h1, h2, h3⟩ | ⟨rfl, rfl⟩ | ⟨rfl, rfl⟩
    · show toUpper (a :: (m ++ s)) = _
      rw [toUpper_cons, ih]
      unfold upperStep
      rw [if_neg (fun h => h2 h.1), if_neg (fun h => h3 h.1), h1]; rfl
    · show toUpper (0xC4 :: 0xB1 :: (m ++ s)) = _
      rw [toUpper_cons, toUpper_cons, ih]; rfl
    · show toUpper (0xC5 :: 0xBF :: (m ++ s)) = _
      rw [toUpper_cons, toUpper_cons, ih]; rfl

theorem toLower_iff {w s : Str} (hw : ∀ c ∈ w, smallByte c) : toLower s = w ↔ ReadsSmall w s := by
  constructor
  · rintro rfl; exact toLower_spells _ s (Nat.le_refl _)
  · intro h
    have := toLower_spelled hw h []
    simpa [toLower] using this

theorem toUpper_iff {w s : Str} (hw : ∀ c ∈ w, capitalByte c) : toUpper s = w ↔ ReadsCapital w s := by
  constructor
  · rintro rfl; exact toUpper_spells _ s (Nat.le_refl _)
  · intro h
    have := toUpper_spelled hw h []
    simpa [toUpper] using this

theorem spells_append {sp : UInt8 → List Str} {w w' s : Str} (h : Spells sp (w ++ w') s) :
    ∃ a b, s = a ++ b ∧ Spells sp w a ∧ Spells sp w' b := by
  induction w generalizing s with
  | nil => exact ⟨[], s, rfl, .nil, h⟩
  | cons c w ih =>
    cases h with
    | @cons _ x _ t hx ht =>
      obtain ⟨a, b, rfl, h1, h2⟩ := ih ht
      exact ⟨x ++ a, b, by simp, .cons hx h1, h2⟩

/-- The first byte of a spelling of a small letter never continues a character. -/
theorem small_start : ∀ c : UInt8, smallByte c → ∀ x ∈ smallSpellings c,
    x ≠ [] ∧ x.head? ≠ some 0xB0 ∧ x.head? ≠ some 0x84 ∧ x.head? ≠ some 0xAA := by
  refine all_bytes ?_; decide +kernel

theorem lowerStep_append (x : UInt8) (r : Str) {c : UInt8} {t : Str} (h1 : c ≠ 0xB0) (h2 : c ≠ 0x84) (h3 : c ≠ 0xAA) :
    lowerStep x (r ++ (c :: t)) = lowerStep x r ++ c :: t := by
  unfold lowerStep
  generalize (if 65 ≤ x ∧ x ≤ 90 then x + 32 else x) = y
  cases r with
  | nil => simp [h1, h2]
  | cons a r =>
    cases r with
    | nil =>
      by_cases hx : x = 0xC4 ∧ a = 0xB0
      · simp [hx]
      · have hx' : ¬ (x = 0xC4 ∧ (a :: ([] ++ c :: t)).head? = some 0xB0) := by simpa using hx
        simp only [List.cons_append, List.head?_cons, Option.some.injEq, hx, if_false]
        simp [h3]
    | cons b r =>
      by_cases hx : x = 0xC4 ∧ a = 0xB0
      · simp [hx]
      · rw [if_neg (by simpa using hx), if_neg (show ¬ (x = 0xC4 ∧ (a :: b :: r).head? = some 0xB0) by simpa using hx)]
        by_cases hy : x = 226 ∧ [a, b] = [132, 170]
        · rw [if_pos (show (x = 226 ∧ List.take 2 (a :: b :: r ++ c :: t) = [132, 170]) from hy),
            if_pos (show (x = 226 ∧ List.take 2 (a :: b :: r) = [132, 170]) from hy)]; rfl
        · rw [if_neg (show ¬ (x = 226 ∧ List.take 2 (a :: b :: r ++ c :: t) = [132, 170]) from hy),
            if_neg (show ¬ (x = 226 ∧ List.take 2 (a :: b :: r) = [132, 170]) from hy)]; rfl

theorem toLower_append {w m : Str} (hw : ∀ c ∈ w, smallByte c) (hne : w ≠ []) (h : ReadsSmall w m) (a b : Str) :
    toLower (a ++ (m ++ b)) = toLower a ++ (w ++ toLower b) := by
  obtain ⟨c, w', rfl⟩ := List.exists_cons_of_ne_nil hne
  have hc := hw c (by simp)
  have hc1 : c ≠ 0xB0 ∧ c ≠ 0x84 ∧ c ≠ 0xAA := by
    have : c < 128 := hc.2
    refine ⟨?_, ?_, ?_⟩ <;> (rintro rfl; exact absurd this (by decide))
  have key : ∀ a : Str, toLower (a ++ (m ++ b)) = toLower a ++ (c :: w' ++ toLower b) := by
    intro a
    induction a with
    | nil => exact toLower_spelled hw h b
    | cons x a ih =>
      show toLower (x :: (a ++ (m ++ b))) = _
      rw [toLower_cons, ih, toLower_cons]
      exact lowerStep_append x _ (c := c) hc1.1 hc1.2.1 hc1.2.2
  exact key a

theorem contains_lower {w s : Str} (hw : ∀ c ∈ w, smallByte c) (hne : w ≠ []) :
    (∃ a b, toLower s = a ++ w ++ b) ↔ ∃ a m b, s = a ++ m ++ b ∧ ReadsSmall w m := by
  constructor
  · rintro ⟨a, b, h⟩
    have hs := toLower_spells _ s (Nat.le_refl _)
    rw [h] at hs
    obtain ⟨x, b', rfl, h1, h2⟩ := spells_append hs
    obtain ⟨a', m, rfl, h3, h4⟩ := spells_append h1
    exact ⟨a', m, b', rfl, h4⟩
  · rintro ⟨a, m, b, rfl, h⟩
    exact ⟨toLower a, toLower b, by rw [List.append_assoc, toLower_append hw hne h, ← List.append_assoc]⟩

/-! ### digits -/

theorem itoaNat_digits (n : Nat) : Digits decimals n (itoaNat n) := by
  have dig : ∀ d < 10, decimals[d]? = some (UInt8.ofNat (48 + d)) := by decide +kernel
  have key : ∀ f n, n < f → Digits decimals n (decDigitsF f n) := by
    intro f
    induction f with
    | zero => intro n h; omega
    | succ f ih =>
      intro n h
      unfold decDigitsF
      by_cases hn : n < 10
      · rw [if_pos hn]; exact .one (dig n hn)
      · rw [if_neg hn]
        have := Digits.more (table := decimals) (n := n / 10) (d := n % 10) (by omega) (ih (n / 10) (by omega)) (dig _ (by omega))
        have hl : decimals.length = 10 := by decide
        rw [hl, show 10 * (n / 10) + n % 10 = n by omega] at this
        exact this
  exact key _ _ (by omega)

theorem itoa_digits (i : Int) : SignedDigits decimals i (itoa i) := by
  unfold itoa
  by_cases h : i < 0
  · rw [if_pos h]
    have := SignedDigits.negative (n := i.natAbs) (by omega) (itoaNat_digits i.natAbs)
    rw [show -((i.natAbs : Nat) : Int) = i by omega] at this
    exact this
  · rw [if_neg h]
    have := SignedDigits.natural (itoaNat_digits i.toNat)
    rw [show ((i.toNat : Nat) : Int) = i by omega] at this
    exact this

theorem hexNat_digits (n : Nat) : Digits smallHex n (hexNat n) := by
  have dig : ∀ d < 16, smallHex[d]? = some (hexDigit d) := by decide +kernel
  have key : ∀ f n, n < f → Digits smallHex n (hexDigitsF f n) := by
    intro f
    induction f with
    | zero => intro n h; omega
    | succ f ih =>
      intro n h
      unfold hexDigitsF
      by_cases hn : n < 16
      · rw [if_pos hn]; exact .one (dig n hn)
      · rw [if_neg hn]
        have := Digits.more (table := smallHex) (n := n / 16) (d := n % 16) (by omega) (ih (n / 16) (by omega)) (dig _ (by omega))
        have hl : smallHex.length = 16 := by decide
        rw [hl, show 16 * (n / 16) + n % 16 = n by omega] at this
        exact this
  exact key _ _ (by omega)

theorem hexInt_digits (i : Int) : SignedDigits smallHex i (hexInt i) := by
  unfold hexInt
  by_cases h : i < 0
  · rw [if_pos h]
    have := SignedDigits.negative (n := i.natAbs) (by omega) (hexNat_digits i.natAbs)
    rw [show -((i.natAbs : Nat) : Int) = i by omega] at this
    exact this
  · rw [if_neg h]
    have := SignedDigits.natural (hexNat_digits i.toNat)
    rw [show ((i.toNat : Nat) : Int) = i by omega] at this
    exact this

theorem hexStr_bytes (s : Str) : HexBytes s (hexStr s) := by
  have dig : ∀ c : UInt8, smallHex[c.toNat / 16]? = some (hexDigit (c.toNat / 16)) ∧
      smallHex[c.toNat % 16]? = some (hexDigit (c.toNat % 16)) := by
    refine all_bytes ?_; decide +kernel
  induction s with
  | nil => exact .nil
  | cons c s ih => exact .cons (dig c).1 (dig c).2 ih

theorem pathEscape_percent (s : Str) : Percent segmentBytes s (pathEscape s) := by
  have dig : ∀ c : UInt8, (escapesByte c = false ↔ c ∈ segmentBytes) ∧
      capitalHex[c.toNat / 16]? = some (upperHex (c.toNat / 16)) ∧ capitalHex[c.toNat % 16]? = some (upperHex (c.toNat % 16)) := by
    refine all_bytes ?_; decide +kernel
  induction s with
  | nil => exact .nil
  | cons c s ih =>
    show Percent segmentBytes (c :: s) ((if escapesByte c then _ else _) ++ pathEscape s)
    cases h : escapesByte c with
    | true => exact .code (fun hc => by rw [(dig c).1.2 hc] at h; cases h) (dig c).2.1 (dig c).2.2 ih
    | false => exact .keep ((dig c).1.1 h) ih

/-! ### canonical header names -/

theorem valid_iff : ∀ c : UInt8, validHeaderByte c = true ↔ c ∈ tokenBytes := by
  refine all_bytes ?_; decide +kernel

/-- one byte of a canonical name -/
def canonByte (up : Bool) (c : UInt8) : UInt8 :=
  if up && 97 ≤ c && c ≤ 122 then c - 32 else if !up && 65 ≤ c && c ≤ 90 then c + 32 else c

theorem canonLoop_cons (up : Bool) (c : UInt8) (s : Str) :
    canonLoop up (c :: s) = canonByte up c :: canonLoop (canonByte up c == 45) s := rfl

instance (a b : UInt8) : Decidable (SameLetter a b) := inferInstanceAs (Decidable (_ ∨ _))

theorem canonByte_same : ∀ (c : UInt8) (up : Bool), SameLetter c (canonByte up c) := by
  refine all_bytes ?_; decide +kernel

theorem canonByte_case : ∀ (c : UInt8) (up : Bool),
    (if up then canonByte up c ∉ smallLetters else canonByte up c ∉ capitalLetters) ∧ (canonByte up c == 45) = (c == 45) := by
  refine all_bytes ?_; decide +kernel

theorem sameLetter_symm {a b : UInt8} (h : SameLetter a b) : SameLetter b a := by
  rcases h with h | h | h
  · exact .inl h.symm
  · exact .inr (.inr h)
  · exact .inr (.inl h)

theorem letter_pairs : ∀ p ∈ smallLetters.zip capitalLetters,
    (∀ up, canonByte up p.1 = canonByte up p.2) ∧
    ∀ q ∈ smallLetters.zip capitalLetters, p.2 ≠ q.1 ∧ (p.1 = q.1 → p = q) ∧ (p.2 = q.2 → p = q) := by
  decide +kernel

theorem sameLetter_trans {a b c : UInt8} (h : SameLetter a b) (h' : SameLetter b c) : SameLetter a c := by
  rcases h with rfl | h | h
  · exact h'
  · rcases h' with rfl | h' | h'
    · exact .inr (.inl h)
    · exact absurd rfl ((letter_pairs _ h).2 _ h').1
    · have := ((letter_pairs _ h).2 _ h').2.2 rfl
      injection this with h1 h2; exact .inl h1
  · rcases h' with rfl | h' | h'
    · exact .inr (.inr h)
    · have := ((letter_pairs _ h).2 _ h').2.1 rfl
      injection this with h1 h2; exact .inl h2
    · exact absurd rfl ((letter_pairs _ h').2 _ h).1

theorem canonByte_eq {a b : UInt8} (up : Bool) : canonByte up a = canonByte up b ↔ SameLetter a b := by
  constructor
  · intro h
    exact sameLetter_trans (canonByte_same a up) (h ▸ sameLetter_symm (canonByte_same b up))
  · rintro (rfl | h | h)
    · rfl
    · exact (letter_pairs _ h).1 up
    · exact ((letter_pairs _ h).1 up).symm

theorem canonLoop_eq {a b : Str} (up : Bool) : canonLoop up a = canonLoop up b ↔ SameName a b := by
  induction a generalizing b up with
  | nil =>
    cases b with
    | nil => exact ⟨fun _ => .nil, fun _ => rfl⟩
    | cons c b => exact ⟨fun h => by simp [canonLoop] at h, fun h => by cases h⟩
  | cons d a ih =>
    cases b with
    | nil => exact ⟨fun h => by simp [canonLoop] at h, fun h => by cases h⟩
    | cons c b =>
      rw [canonLoop_cons, canonLoop_cons]
      constructor
      · intro h
        injection h with h1 h2
        rw [h1] at h2
        exact .cons ((canonByte_eq up).1 h1) ((ih _).1 h2)
      · intro h
        cases h with
        | cons h1 h2 =>
          rw [(canonByte_eq up).2 h1, (ih _).2 h2]

theorem sameName_canon (up : Bool) (s : Str) : SameName s (canonLoop up s) := by
  induction s generalizing up with
  | nil => exact .nil
  | cons c s ih => exact .cons (canonByte_same c up) (ih _)

theorem sameLetter_token : ∀ p ∈ smallLetters.zip capitalLetters, p.1 ∈ tokenBytes ∧ p.2 ∈ tokenBytes := by decide +kernel

theorem sameName_token {a b : Str} (h : SameName a b) : (∀ c ∈ a, c ∈ tokenBytes) ↔ ∀ c ∈ b, c ∈ tokenBytes := by
  induction h with
  | nil => exact Iff.rfl
  | cons h _ ih =>
    rw [List.forall_mem_cons, List.forall_mem_cons, ih]
    refine and_congr_left (fun _ => ?_)
    rcases h with rfl | h | h
    · exact Iff.rfl
    · have := sameLetter_token _ h; exact ⟨fun _ => this.2, fun _ => this.1⟩
    · have := sameLetter_token _ h; exact ⟨fun _ => this.1, fun _ => this.2⟩

theorem canonKey_eq {a b : Str} : canonKey a = canonKey b ↔ SameHeader a b := by
  have tok : ∀ k : Str, k.all validHeaderByte = true ↔ ∀ c ∈ k, c ∈ tokenBytes := by
    intro k
    rw [List.all_eq_true]
    exact forall_congr' (fun c => imp_congr_right (fun _ => valid_iff c))
  unfold canonKey SameHeader
  by_cases ha : ∀ c ∈ a, c ∈ tokenBytes
  · by_cases hb : ∀ c ∈ b, c ∈ tokenBytes
    · rw [if_pos ((tok a).2 ha), if_pos ((tok b).2 hb), canonLoop_eq]
      constructor
      · exact fun h => .inr ⟨ha, hb, h⟩
      · rintro (rfl | h)
        · exact (canonLoop_eq true).1 rfl
        · exact h.2.2
    · rw [if_pos ((tok a).2 ha), if_neg (fun h => hb ((tok b).1 h))]
      constructor
      · intro h
        exact absurd ((sameName_token (sameName_canon true a)).1 ha) (h ▸ hb)
      · rintro (rfl | h)
        · exact absurd ha hb
        · exact absurd h.2.1 hb
  · rw [if_neg (fun h => ha ((tok a).1 h))]
    by_cases hb : ∀ c ∈ b, c ∈ tokenBytes
    · rw [if_pos ((tok b).2 hb)]
      constructor
      · intro h
        exact absurd ((sameName_token (sameName_canon true b)).1 hb) (h ▸ ha)
      · rintro (rfl | h)
        · exact absurd hb ha
        · exact absurd h.1 ha
    · rw [if_neg (fun h => hb ((tok b).1 h))]
      exact ⟨.inl, fun h => h.resolve_right (fun h => ha h.1)⟩

theorem canonLoop_capitals (up : Bool) (s : Str) : ∀ a c b, canonLoop up s = a ++ c :: b →
    ((a = [] ∧ up = true) ∨ a.getLast? = some 45 → c ∉ smallLetters) ∧
    ((a = [] ∧ up = false) ∨ (a ≠ [] ∧ a.getLast? ≠ some 45) → c ∉ capitalLetters) := by
  induction s generalizing up with
  | nil => intro a c b h; simp [canonLoop] at h
  | cons d s ih =>
    intro a c b h
    rw [canonLoop_cons] at h
    have hd := canonByte_case d up
    cases a with
    | nil =>
      injection h with h1 h2
      subst h1
      cases up with
      | true => simp only [if_true] at hd; exact ⟨fun _ => hd.1, fun h => by simp at h⟩
      | false => simp only [if_false, Bool.false_eq_true] at hd; exact ⟨fun h => by simp at h, fun _ => hd.1⟩
    | cons x a =>
      injection h with h1 h2
      subst h1
      have := ih _ a c b h2
      cases a with
      | nil =>
        by_cases hx : canonByte up d = 45
        · exact ⟨fun _ => this.1 (.inl ⟨rfl, by simp [hx]⟩), fun h => by simp [hx] at h⟩
        · exact ⟨fun h => by simp [hx] at h, fun _ => this.2 (.inl ⟨rfl, by simp [hx]⟩)⟩
      | cons y a =>
        simp only [List.getLast?_cons_cons] at *
        exact ⟨fun h => this.1 (.inr (h.resolve_left (by simp))), fun h => this.2 (.inr ⟨by simp, (h.resolve_left (by simp)).2⟩)⟩

end Water
