import Verif.Spec.Rfc3339
/-
The dates of HTTP (RFC 7231, 7.1.1.1), in the preferred format: `Sun, 06 Nov 1994 08:49:37 GMT`. Nothing of this is in /repo.
-/
namespace Water.Spec
open Water

/-- the days of the week -/
def dayNames : List Str := [b!"Sun", b!"Mon", b!"Tue", b!"Wed", b!"Thu", b!"Fri", b!"Sat"]
/-- the months -/
def monthNames : List Str := [b!"Jan", b!"Feb", b!"Mar", b!"Apr", b!"May", b!"Jun", b!"Jul", b!"Aug", b!"Sep", b!"Oct", b!"Nov", b!"Dec"]

/-- The day of the week, counted on from the first of January 1970, which was a Thursday. -/
def Weekday (D : Date) (w : Nat) : Prop := ∃ n n0, DayNo n D ∧ DayNo n0 ⟨1970, 1, 1⟩ ∧ (w : Int) = (4 + ((n : Int) - n0)) % 7

/-- The text for a second, in UTC. -/
inductive ImfDate : Str → Stamp → Prop where
  | mk {t : Stamp} {w : Nat} {dn mn : Str} : t.date.y < 10000 → t.date.Valid → t.h < 24 → t.min < 60 → t.sec < 60 → t.ns = 0 → t.offset = 0 →
      Weekday t.date w → dayNames[w]? = some dn → monthNames[t.date.m - 1]? = some mn →
      ImfDate (dn ++ b!", " ++ two t.date.d ++ b!" " ++ mn ++ b!" " ++ four t.date.y ++ b!" " ++ two t.h ++ b!":" ++ two t.min ++ b!":" ++
        two t.sec ++ b!" GMT") t

/-! What is read besides. -/

/-- the same letter, large or small -/
def sameLetter (a b : UInt8) : Prop :=
  a = b ∨ (97 ≤ a.toNat ∧ a.toNat ≤ 122 ∧ b.toNat + 32 = a.toNat) ∨ (97 ≤ b.toNat ∧ b.toNat ≤ 122 ∧ a.toNat + 32 = b.toNat)

/-- the same text but for the case of ASCII letters -/
inductive AnyCase : Str → Str → Prop where
  | nil : AnyCase [] []
  | cons {a b : UInt8} {s t : Str} : sameLetter a b → AnyCase s t → AnyCase (a :: s) (b :: t)

/-- one space or more -/
inductive Spaces : Str → Prop where
  | one : Spaces b!" "
  | more {s : Str} : Spaces s → Spaces (32 :: s)

/-- The texts that are read, and the moments they are read as: the day of the week is any, names may have small and capital letters, a space
may be several, the hour one digit, and the seconds may have a fraction. -/
inductive ReadsImf : Str → Stamp → Prop where
  | mk {t : Stamp} {dn mn dn' mn' s1 s2 s3 s4 s5 hh fr : Str} : t.date.y < 10000 → t.date.Valid → AnyHour hh t.h → t.min < 60 → t.sec < 60 →
      (Fraction fr t.ns ∨ LongFraction fr t.ns) → t.offset = 0 → dn ∈ dayNames → AnyCase dn' dn → monthNames[t.date.m - 1]? = some mn →
      AnyCase mn' mn → Spaces s1 → Spaces s2 → Spaces s3 → Spaces s4 → Spaces s5 →
      ReadsImf (dn' ++ b!"," ++ s1 ++ two t.date.d ++ s2 ++ mn' ++ s3 ++ four t.date.y ++ s4 ++ hh ++ b!":" ++ two t.min ++ b!":" ++ two t.sec ++
        fr ++ s5 ++ b!"GMT") t

end Water.Spec
