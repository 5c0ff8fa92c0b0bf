import Verif.Spec.Number
/- Dates, and what a text of RFC 3339 denotes. -/
namespace Water.Spec
open Water

/-! ### the calendar -/

/-- a leap year -/
def Leap (y : Nat) : Prop := y % 4 = 0 ∧ (y % 100 ≠ 0 ∨ y % 400 = 0)

instance (y : Nat) : Decidable (Leap y) := inferInstanceAs (Decidable (_ ∧ _))

/-- the length of a month -/
def monthDays (y m : Nat) : Nat :=
  if m = 2 then if Leap y then 29 else 28 else if m ∈ [4, 6, 9, 11] then 30 else 31

/-- year, month and day -/
structure Date where
  y : Nat
  m : Nat
  d : Nat
  deriving DecidableEq

/-- there is such a day -/
def Date.Valid (D : Date) : Prop := 1 ≤ D.m ∧ D.m ≤ 12 ∧ 1 ≤ D.d ∧ D.d ≤ monthDays D.y D.m

/-- the next day -/
def Date.next (D : Date) : Date :=
  if D.d < monthDays D.y D.m then ⟨D.y, D.m, D.d + 1⟩ else if D.m < 12 then ⟨D.y, D.m + 1, 1⟩ else ⟨D.y + 1, 1, 1⟩

/-- the n-th day after the first of January of the year 0 -/
inductive DayNo : Nat → Date → Prop where
  | first : DayNo 0 ⟨0, 1, 1⟩
  | next {n : Nat} {D : Date} : DayNo n D → DayNo (n + 1) D.next

/-- a moment as one writes it: date, time of day, nanoseconds, and the offset from UTC in seconds -/
structure Stamp where
  date : Date
  h : Nat
  min : Nat
  sec : Nat
  ns : Nat
  offset : Int

/-- The moment in seconds since 1970 in UTC, leap seconds not counted. -/
def Stamp.Unix (t : Stamp) (u : Int) : Prop :=
  ∃ n n0, DayNo n t.date ∧ DayNo n0 ⟨1970, 1, 1⟩ ∧ u = ((n : Int) - n0) * 86400 + t.h * 3600 + t.min * 60 + t.sec - t.offset

/-! ### the texts -/

/-- the two digits of a number below 100 -/
def two (n : Nat) : Str := [UInt8.ofNat (48 + n / 10 % 10), UInt8.ofNat (48 + n % 10)]
/-- the four digits of a number below 10000 -/
def four (n : Nat) : Str := two (n / 100) ++ two n

/-- the fraction of a second: up to nine digits -/
inductive Fraction : Str → Nat → Prop where
  | none : Fraction [] 0
  | some {ds : Str} : Numeral ds → ds.length ≤ 9 → Fraction (46 :: ds) (value ds * 10 ^ (9 - ds.length))

/-- the offset: `Z`, or a sign with hours and minutes -/
inductive Offset : Str → Int → Prop where
  | utc : Offset b!"Z" 0
  | east {h m : Nat} : h < 24 → m < 60 → Offset (b!"+" ++ two h ++ b!":" ++ two m) ((h * 60 + m) * 60 : Nat)
  | west {h m : Nat} : h < 24 → m < 60 → Offset (b!"-" ++ two h ++ b!":" ++ two m) (- ((h * 60 + m) * 60 : Nat))

/-- The text of RFC 3339 for a moment, with capital `T` and `Z`, not in a leap second, and in whole nanoseconds. -/
inductive Rfc3339 : Str → Stamp → Prop where
  | mk {t : Stamp} {fr z : Str} : t.date.y < 10000 → t.date.Valid → t.h < 24 → t.min < 60 → t.sec < 60 → Fraction fr t.ns → Offset z t.offset →
      Rfc3339 (four t.date.y ++ b!"-" ++ two t.date.m ++ b!"-" ++ two t.date.d ++ b!"T" ++ two t.h ++ b!":" ++ two t.min ++ b!":" ++ two t.sec ++
        fr ++ z) t

/-- Every text of the grammar of RFC 3339, by its parts: the letter between date and time may be small, the second may be a leap second, a
fraction has any number of digits, and `Z` may be small. -/
inductive RfcText (date : Date) (c : UInt8) (h min sec : Nat) (fr z : Str) : Prop where
  | mk : date.y < 10000 → date.Valid → c ∈ b!"Tt" → h < 24 → min < 60 → sec ≤ 60 → (fr = [] ∨ ∃ ds, Numeral ds ∧ fr = 46 :: ds) →
      (z = b!"z" ∨ ∃ o, Offset z o) → RfcText date c h min sec fr z

/-- the text with these parts -/
def rfcText (date : Date) (c : UInt8) (h min sec : Nat) (fr z : Str) : Str :=
  four date.y ++ b!"-" ++ two date.m ++ b!"-" ++ two date.d ++ [c] ++ two h ++ b!":" ++ two min ++ b!":" ++ two sec ++ fr ++ z

/-! What is read besides. -/

/-- A fraction of ten digits or more, if they make a number below 10^9: that many nanoseconds. -/
inductive LongFraction : Str → Nat → Prop where
  | mk {ds : Str} : Numeral ds → 10 ≤ ds.length → value ds < 10 ^ 9 → LongFraction (46 :: ds) (value ds)

/-- two characters for a number: two digits, or a sign and a digit -/
inductive TwoChars : Str → Int → Prop where
  | digits {n : Nat} : n < 100 → TwoChars (two n) n
  | plus {n : Nat} : n < 10 → TwoChars [43, UInt8.ofNat (48 + n)] n
  | minus {n : Nat} : n < 10 → TwoChars [45, UInt8.ofNat (48 + n)] (- n)

/-- the offsets that are read -/
inductive AnyOffset : Str → Int → Prop where
  | utc : AnyOffset b!"Z" 0
  | east {a b : Str} {h m : Int} : TwoChars a h → TwoChars b m → AnyOffset (b!"+" ++ a ++ b!":" ++ b) ((h * 60 + m) * 60)
  | west {a b : Str} {h m : Int} : TwoChars a h → TwoChars b m → AnyOffset (b!"-" ++ a ++ b!":" ++ b) (- ((h * 60 + m) * 60))

/-- the hours that are read: one digit is enough -/
inductive AnyHour : Str → Nat → Prop where
  | two {n : Nat} : n < 24 → AnyHour (two n) n
  | one {n : Nat} : n < 10 → AnyHour [UInt8.ofNat (48 + n)] n

/-- The texts that are read, and the moments they are read as. -/
inductive Reads3339 : Str → Stamp → Prop where
  | mk {t : Stamp} {hh fr z : Str} : t.date.y < 10000 → t.date.Valid → AnyHour hh t.h → t.min < 60 → t.sec < 60 →
      (Fraction fr t.ns ∨ LongFraction fr t.ns) → AnyOffset z t.offset →
      Reads3339 (four t.date.y ++ b!"-" ++ two t.date.m ++ b!"-" ++ two t.date.d ++ b!"T" ++ hh ++ b!":" ++ two t.min ++ b!":" ++ two t.sec ++
        fr ++ z) t

end Water.Spec
