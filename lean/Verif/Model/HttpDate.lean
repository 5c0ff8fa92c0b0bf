import Verif.Model.Rfc3339
import Verif.Model.Content
/-
The dates of `http.ServeContent` (called at m_static.go:108 and content.go:226), Go 1.15: `Time.UTC().Format(http.TimeFormat)` and
`http.ParseTime`. The loops over the chunks of the layout `Mon, 02 Jan 2006 15:04:05 GMT` are unrolled. The other two layouts that
`http.ParseTime` tries, which are obsolete, are a parameter. Times are nanoseconds since 1970. Not modelled: times so far in the past that
their distance from the year -292277022399 wraps around.
-/
namespace Water

/-- `time.shortDayNames` -/
def shortDayNames : List Str := [b!"Sun", b!"Mon", b!"Tue", b!"Wed", b!"Thu", b!"Fri", b!"Sat"]

/-- `time.shortMonthNames` -/
def shortMonthNames : List Str :=
  [b!"Jan", b!"Feb", b!"Mar", b!"Apr", b!"May", b!"Jun", b!"Jul", b!"Aug", b!"Sep", b!"Oct", b!"Nov", b!"Dec"]

/-- the year and the day of the year in `time.absDate`: the year is counted from -292277022399, the day from 0 -/
def absYear (d : Nat) : Nat × Nat :=
  let n := d / 146097
  let y := 400 * n
  let d := d - 146097 * n
  let n := d / 36524
  let n := n - n / 4
  let y := y + 100 * n
  let d := d - 36524 * n
  let n := d / 1461
  let y := y + 4 * n
  let d := d - 1461 * n
  let n := d / 365
  let n := n - n / 4
  (y + n, d - 365 * n)

/-- the month and the day of the month in `time.absDate` -/
def absMonth (leap : Bool) (yday : Nat) : Nat × Nat :=
  if leap = true ∧ yday = 31 + 29 - 1 then (2, 29)
  else
    let day := if leap = true ∧ 31 + 29 - 1 < yday then yday - 1 else yday
    let month := day / 31
    let fin := daysBefore.getD (month + 1) 0
    if fin ≤ day then (month + 2, day - fin + 1) else (month + 1, day - daysBefore.getD month 0 + 1)

/-- whether a year counted from -292277022399 is a leap year: `isLeap(year)`, where 292277022400 is a multiple of 400 -/
def absLeap (y : Nat) : Bool := isLeap (y + 1)

/-- `time.appendInt` for a number that is not negative -/
def padInt (width n : Nat) : Str := List.replicate (width - (itoaNat n).length) 48 ++ itoaNat n

/-- `time.appendInt` -/
def appendInt (width : Nat) (n : Int) : Str := if n < 0 then 45 :: padInt width (-n).toNat else padInt width n.toNat

/-- `t.UTC().Format(http.TimeFormat)` -/
def formatHttp (t : Int) : Str :=
  let abs := (unixOf t + 9223372028715321600).toNat
  let wday := (abs + 86400) % 604800 / 86400
  let yd := absYear (abs / 86400)
  let md := absMonth (absLeap yd.1) yd.2
  let sec := abs % 86400
  shortDayNames.getD wday [] ++ b!", " ++ padInt 2 md.2 ++ b!" " ++ shortMonthNames.getD (md.1 - 1) [] ++ b!" " ++
    appendInt 4 ((yd.1 : Int) - 292277022399) ++ b!" " ++
    padInt 2 (sec / 3600) ++ b!":" ++ padInt 2 (sec % 3600 / 60) ++ b!":" ++ padInt 2 (sec % 60) ++ b!" GMT"

/-- `time.match`, for texts of the same length: equal but for the case of ASCII letters -/
def matchFold : Str → Str → Bool
  | a :: s, b :: t => (a == b || ((a ||| 32) == (b ||| 32) && decide (97 ≤ (a ||| 32)) && decide ((a ||| 32) ≤ 122))) && matchFold s t
  | [], [] => true
  | _, _ => false

/-- `time.lookup`: the number of the name at the beginning and the rest -/
def lookupName : List Str → Nat → Str → Option (Nat × Str)
  | [], _, _ => none
  | v :: tab, i, s => if v.length ≤ s.length ∧ matchFold (s.take v.length) v = true then some (i, s.drop v.length) else lookupName tab (i + 1) s

/-- `time.skip`; no layout here has two spaces in a row -/
def skipPrefix : Str → Str → Option Str
  | [], v => some v
  | c :: p, v =>
    if c = 32 then if v.head?.any (· != 32) then none else skipPrefix p (v.dropWhile (· == 32))
    else if v.head? = some c then skipPrefix p v.tail else none

/-- `time.Parse(http.TimeFormat, s)` -/
def parseImf (s : Str) : Option Int :=
  (lookupName shortDayNames 0 s).bind fun (_, s) =>
  (skipPrefix b!", " s).bind fun s =>
  (getnum true s).bind fun (day, s) =>
  (skipPrefix b!" " s).bind fun s =>
  (lookupName shortMonthNames 0 s).bind fun (mon, s) =>
  (skipPrefix b!" " s).bind fun s =>
  if s.length < 4 ∨ s.head?.any timeDigit = false then none else
  (timeAtoi (s.take 4)).bind fun year =>
  (skipPrefix b!" " (s.drop 4)).bind fun s =>
  (getnum false s).bind fun (hour, s) =>
  if 24 ≤ hour then none else
  (skipPrefix b!":" s).bind fun s =>
  (getnum true s).bind fun (min, s) =>
  if 60 ≤ min then none else
  (skipPrefix b!":" s).bind fun s =>
  (getnum true s).bind fun (sec, s) =>
  if 60 ≤ sec then none else
  (timeFraction s).bind fun (nsec, s) =>
  (skipPrefix b!" GMT" s).bind fun s =>
  if s ≠ [] then none
  else if day < 1 ∨ daysIn (mon + 1) year.toNat < day then none
  else some (unixDate year.toNat (mon + 1) day hour min sec * 1000000000 + nsec)

/-- `http.ParseTime`: three layouts are tried; `obsolete` is what the last two make of a text -/
def parseHttp (obsolete : Str → Option Int) (s : Str) : Option Int :=
  match parseImf s with
  | some t => some t
  | none => obsolete s

end Water
