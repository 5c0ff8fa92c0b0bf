import Verif.Model.Str
/-
`time.ParseDuration` (Go 1.15), which binding/mapping.go:352 calls. Not modelled: the texts of the errors, and the arithmetic of
`float64` with which a fraction becomes nanoseconds (`frac`).
-/
namespace Water

/-- the greatest `int64` -/
def maxInt64 : Nat := 2 ^ 63 - 1

/-- `time.leadingInt`: the leading digits as a number, and the rest. In `int64` the two tests for overflow are that
`x*10 + c - '0'` is greater than the greatest number. -/
def leadingInt : Nat → Str → Option (Nat × Str)
  | x, [] => some (x, [])
  | x, c :: s =>
    if c < 48 ∨ c > 57 then some (x, c :: s)
    else if x > maxInt64 / 10 then none
    else if x * 10 + (c.toNat - 48) > maxInt64 then none
    else leadingInt (x * 10 + (c.toNat - 48)) s

/-- `time.leadingFraction`: the leading digits as a number, how often the scale was multiplied by 10, and the rest. Digits behind an
overflow are skipped. -/
def leadingFraction : Nat → Nat → Bool → Str → Nat × Nat × Str
  | x, k, _, [] => (x, k, [])
  | x, k, overflow, c :: s =>
    if c < 48 ∨ c > 57 then (x, k, c :: s)
    else if overflow then leadingFraction x k true s
    else if x > maxInt64 / 10 then leadingFraction x k true s
    else if x * 10 + (c.toNat - 48) > maxInt64 then leadingFraction x k true s
    else leadingFraction (x * 10 + (c.toNat - 48)) (k + 1) false s

/-- `time.unitMap`: nanoseconds of a unit; `µs` is written with U+00B5 or U+03BC -/
def durationUnit (u : Str) : Option Nat :=
  if u = b!"ns" then some 1
  else if u = b!"us" ∨ u = b!"µs" ∨ u = b!"μs" then some 1000
  else if u = b!"ms" then some 1000000
  else if u = b!"s" then some 1000000000
  else if u = b!"m" then some 60000000000
  else if u = b!"h" then some 3600000000000
  else none

/-- not a point and not a digit -/
def unitByte (c : UInt8) : Bool := !(c == 46 || (decide (48 ≤ c) && decide (c ≤ 57)))

/-- One round of the loop of `time.ParseDuration`: the number with its unit at the start, in nanoseconds, and the rest.
`frac f k unit` is `int64(float64(f) * (float64(unit) / 1eK))`. -/
def durationPart (frac : Nat → Nat → Nat → Nat) (s : Str) : Option (Nat × Str) :=
  if s.head?.any (fun c => c == 46 || (decide (48 ≤ c) && decide (c ≤ 57))) = false then none
  else
    match leadingInt 0 s with
    | none => none
    | some (v, s1) =>
      let pre := s1.length ≠ s.length
      let (f, k, s2) := if s1.head? = some 46 then leadingFraction 0 0 false s1.tail else (0, 0, s1)
      let post := s1.head? = some 46 ∧ s2.length ≠ s1.tail.length
      if ¬ pre ∧ ¬ post then none
      else
        let u := s2.takeWhile unitByte
        if u = [] then none
        else
          match durationUnit u with
          | none => none
          | some unit =>
            if v > maxInt64 / unit then none
            else
              let w := if f > 0 then v * unit + frac f k unit else v * unit
              if w > maxInt64 then none else some (w, s2.dropWhile unitByte)

/-- the loop of `time.ParseDuration` -/
def durationLoop (frac : Nat → Nat → Nat → Nat) : Nat → Nat → Str → Option Nat
  | _, d, [] => some d
  | 0, _, _ :: _ => none
  | fuel + 1, d, c :: s =>
    match durationPart frac (c :: s) with
    | none => none
    | some (v, rest) => if d + v > maxInt64 then none else durationLoop frac fuel (d + v) rest

/-- `time.ParseDuration`; `none` is an error -/
def parseDuration (frac : Nat → Nat → Nat → Nat) (s : Str) : Option Int :=
  let neg := s.head? = some 45
  let s := if s.head? = some 45 ∨ s.head? = some 43 then s.tail else s
  if s = b!"0" then some 0
  else if s = [] then none
  else (durationLoop frac s.length 0 s).map (fun (d : Nat) => if neg then - (d : Int) else (d : Int))

end Water
