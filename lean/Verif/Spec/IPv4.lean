import Verif.Spec.Number
import Verif.Spec.Jar
/- How IPv4 addresses are written. -/
namespace Water.Spec

/-- a number from 0 to 255, perhaps with zeros before it -/
def Octet (s : Str) : Prop := Numeral s ∧ value s ≤ 255

/-- four of them, with dots between -/
def IPv4Text (s : Str) : Prop :=
  ∃ a b c d, s = a ++ b!"." ++ b ++ b!"." ++ c ++ b!"." ++ d ∧ Octet a ∧ Octet b ∧ Octet c ∧ Octet d

end Water.Spec
