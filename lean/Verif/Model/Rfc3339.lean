import Verif.Model.Duration
/-
`time.Parse` (Go 1.15) with the layout `2006-01-02T15:04:05Z07:00`, which binding/mapping.go:396, 435, 447, 486
use for a time field without the tag `time_format`. The loop over the chunks of the layout is unrolled. Not modelled: the texts of the errors;
the `Location` of the result, which does not change the instant. The sums of seconds are those of integers: in `time.Date` they wrap
around in 64 bits, twice or never.
-/
namespace Water

/-- a decimal digit, as `time.isDigit` has it -/
def timeDigit (c : UInt8) : Bool := decide (48 ≤ c) && decide (c ≤ 57)

/-- `time.getnum`: one or two digits -/
def getnum (fixed : Bool) : Str → Option (Nat × Str)
  | [] => none
  | [a] => if timeDigit a && !fixed then some (a.toNat - 48, []) else none
  | a :: b :: s =>
    if !timeDigit a then none
    else if !timeDigit b then if fixed then none else some (a.toNat - 48, b :: s)
    else some ((a.toNat - 48) * 10 + (b.toNat - 48), s)

/-- `time.skip` for one character that is no space -/
def skipByte (c : UInt8) (s : Str) : Option Str := if s.head? = some c then some s.tail else none

/-- `time.atoi` -/
def timeAtoi (s : Str) : Option Int :=
  match leadingInt 0 (if s.head? = some 45 ∨ s.head? = some 43 then s.tail else s) with
  | some (q, []) => some (if s.head? = some 45 then - (q : Int) else (q : Int))
  | _ => none

/-- the fraction that may follow the seconds, with `time.parseNanoseconds`: nanoseconds and the rest -/
def timeFraction (s : Str) : Option (Nat × Str) :=
  if s.head? = some 46 ∧ (s.drop 1).head?.any timeDigit = true then
    let ds := s.tail.takeWhile timeDigit
    match timeAtoi ds with
    | none => none
    | some ns => if ns < 0 ∨ 1000000000 ≤ ns then none else some (ns.toNat * 10 ^ (9 - ds.length), s.tail.dropWhile timeDigit)
  else some (0, s)

/-- the offset from UTC in seconds, `Z` or `±hh:mm`, and the rest -/
def timeZone (s : Str) : Option (Int × Str) :=
  if s.head? = some 90 then some (0, s.tail)
  else if s.length < 6 then none
  else if s[3]? ≠ some 58 then none
  else
    match timeAtoi ((s.drop 1).take 2), timeAtoi ((s.drop 4).take 2) with
    | some hr, some mm =>
      if s.head? = some 43 then some ((hr * 60 + mm) * 60, s.drop 6)
      else if s.head? = some 45 then some (- ((hr * 60 + mm) * 60), s.drop 6)
      else none
    | _, _ => none

/-- `time.isLeap` -/
def isLeap (y : Nat) : Bool := y % 4 == 0 && (y % 100 != 0 || y % 400 == 0)

/-- `time.daysBefore` -/
def daysBefore : List Nat := [0, 31, 59, 90, 120, 151, 181, 212, 243, 273, 304, 334, 365]

/-- `time.daysIn` -/
def daysIn (m y : Nat) : Nat := if m = 2 ∧ isLeap y = true then 29 else daysBefore.getD m 0 - daysBefore.getD (m - 1) 0

/-- the days that `time.Date` counts from its year 0, which is -292277022399 -/
def absDays (year month day : Nat) : Nat :=
  let y := year + 292277022399
  let n400 := y / 400
  let y := y - 400 * n400
  let n100 := y / 100
  let y := y - 100 * n100
  let n4 := y / 4
  let y := y - 4 * n4
  146097 * n400 + 36524 * n100 + 1461 * n4 + 365 * y + daysBefore.getD (month - 1) 0 + (if isLeap year = true ∧ 3 ≤ month then 1 else 0) + (day - 1)

/-- `time.Date` in UTC, in seconds since 1970: `absoluteToInternal` is -9223371966579724800, `internalToUnix` -62135596800. -/
def unixDate (year month day hour min sec : Nat) : Int :=
  ((absDays year month day * 86400 + (hour * 3600 + min * 60 + sec) : Nat) : Int) + (-9223371966579724800 + -62135596800)

/-- `time.Parse(time.RFC3339, s)`: seconds since 1970 and nanoseconds; `none` is an error -/
def parse3339 (s : Str) : Option (Int × Nat) :=
  if s.length < 4 ∨ s.head?.any timeDigit = false then none
  else
    (timeAtoi (s.take 4)).bind fun year =>
    (skipByte 45 (s.drop 4)).bind fun s =>
    (getnum true s).bind fun (month, s) =>
    if month = 0 ∨ 12 < month then none else
    (skipByte 45 s).bind fun s =>
    (getnum true s).bind fun (day, s) =>
    (skipByte 84 s).bind fun s =>
    (getnum false s).bind fun (hour, s) =>
    if 24 ≤ hour then none else
    (skipByte 58 s).bind fun s =>
    (getnum true s).bind fun (min, s) =>
    if 60 ≤ min then none else
    (skipByte 58 s).bind fun s =>
    (getnum true s).bind fun (sec, s) =>
    if 60 ≤ sec then none else
    (timeFraction s).bind fun (nsec, s) =>
    (timeZone s).bind fun (offset, s) =>
    if s ≠ [] then none
    else if day < 1 ∨ daysIn month year.toNat < day then none
    else some (unixDate year.toNat month day hour min sec - offset, nsec)

end Water
