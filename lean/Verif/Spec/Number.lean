import Verif.Model.Str
/- Decimal numerals, as in the language of arithmetic. -/
namespace Water.Spec
open Water

/-- a decimal digit -/
def IsDigit (c : UInt8) : Prop := 48 ≤ c ∧ c ≤ 57

instance (c : UInt8) : Decidable (IsDigit c) := inferInstanceAs (Decidable (_ ∧ _))

/-- the value of a list of digits, least significant last -/
def value (s : Str) : Nat := s.foldl (fun n c => 10 * n + (c.toNat - 48)) 0

/-- a non-empty list of decimal digits -/
def Numeral (s : Str) : Prop := s ≠ [] ∧ ∀ c ∈ s, IsDigit c

/-- a decimal number with an optional sign, and its value -/
inductive Signed : Str → Int → Prop where
  | plain {s : Str} : Numeral s → Signed s (value s)
  | plus {s : Str} : Numeral s → Signed (43 :: s) (value s)
  | minus {s : Str} : Numeral s → Signed (45 :: s) (- value s)

/-- the nearest number in a range -/
def clamp (lo hi v : Int) : Int := if v < lo then lo else if v > hi then hi else v

/-- the leading digits -/
def lead (s : Str) : Str := s.takeWhile (fun c => decide (IsDigit c))

/-- without the sign -/
def unsigned : Str → Str
  | [] => []
  | c :: cs => if c = 43 ∨ c = 45 then cs else c :: cs

end Water.Spec
