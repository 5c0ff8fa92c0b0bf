import Verif.Spec.Conditions
import Verif.Spec.Number
/-
Ranges of bytes (RFC 7233, 2.1). Nothing of this is in /repo.
-/
namespace Water.Spec
open Water

/-- What a client may ask for: the bytes from one position to another, those from a position on, or the last ones. -/
inductive ByteSpec where
  | fromTo (a b : Nat)
  | onward (a : Nat)
  | last (n : Nat)
  deriving DecidableEq

/-- how it is written -/
inductive SpecText : ByteSpec → Str → Prop where
  | fromTo {s t : Str} : Numeral s → Numeral t → value s ≤ value t → SpecText (.fromTo (value s) (value t)) (s ++ 45 :: t)
  | onward {s : Str} : Numeral s → SpecText (.onward (value s)) (s ++ [45])
  | last {s : Str} : Numeral s → SpecText (.last (value s)) (45 :: s)

/-- A list of them with commas in between; elements may be empty, RFC 7230, 7. -/
inductive SpecList : List ByteSpec → Str → Prop where
  | nil {w : Str} : OWS w → SpecList [] w
  | comma {w s : Str} {l : List ByteSpec} : OWS w → SpecList l s → SpecList l (w ++ 44 :: s)
  | one {w t v : Str} {b : ByteSpec} : OWS w → SpecText b t → OWS v → SpecList [b] (w ++ t ++ v)
  | more {w t v s : Str} {b : ByteSpec} {l : List ByteSpec} : OWS w → SpecText b t → OWS v → SpecList l s →
      SpecList (b :: l) (w ++ t ++ v ++ 44 :: s)

/-- The first and the last position of what is asked for, in a file with `size` bytes; `none` if there is nothing of it. -/
def ByteSpec.within (size : Nat) : ByteSpec → Option (Nat × Nat)
  | .fromTo a b => if a < size then some (a, min b (size - 1)) else none
  | .onward a => if a < size then some (a, size - 1) else none
  | .last n => if n = 0 ∨ size = 0 then none else some (size - n, size - 1)

/-- the bytes between two positions -/
def between (d : Str) (p : Nat × Nat) : Str := (d.drop p.1).take (p.2 + 1 - p.1)

/-- The first position and the number of bytes: this is how ranges are handed to the writer of multipart answers. -/
def spanOf (p : Nat × Nat) : Nat × Nat := (p.1, p.2 + 1 - p.1)

/-- Numbers of 63 bits; and the last bytes are asked for only if there are some. -/
def ByteSpec.Plain (size : Nat) : ByteSpec → Prop
  | .fromTo a b => a < 2 ^ 63 ∧ b < 2 ^ 63
  | .onward a => a < 2 ^ 63
  | .last n => n < 2 ^ 63 ∧ n ≠ 0 ∧ size ≠ 0

instance (size : Nat) : (b : ByteSpec) → Decidable (b.Plain size)
  | .fromTo _ _ => inferInstanceAs (Decidable (_ ∧ _))
  | .onward a => inferInstanceAs (Decidable (a < 2 ^ 63))
  | .last _ => inferInstanceAs (Decidable (_ ∧ _))

end Water.Spec
