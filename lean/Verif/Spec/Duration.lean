import Verif.Spec.Number
/- What a text for a duration means. -/
namespace Water.Spec
open Water

/-- the units and their nanoseconds; the micro sign is U+00B5 or the Greek letter U+03BC -/
def timeUnits : List (Str × Nat) :=
  [(b!"ns", 1), (b!"us", 10 ^ 3), (b!"µs", 10 ^ 3), (b!"μs", 10 ^ 3), (b!"ms", 10 ^ 6), (b!"s", 10 ^ 9), (b!"m", 60 * 10 ^ 9),
    (b!"h", 3600 * 10 ^ 9)]

/-- The digits of a fraction that count: as many as make a number below 2^63. -/
def KeptDigits (d p : Str) : Prop := p <+: d ∧ value p < 2 ^ 63 ∧ ∀ c, p ++ [c] <+: d → 2 ^ 63 ≤ value (p ++ [c])

/-- A number with a unit, in nanoseconds. Digits may be missing before or behind the point. `frac f k n` is the amount of `f`
10^k-ths of `n` nanoseconds. -/
inductive Amount (frac : Nat → Nat → Nat → Nat) : Str → Nat → Prop where
  | whole {i u : Str} {n : Nat} : Numeral i → (u, n) ∈ timeUnits → Amount frac (i ++ u) (value i * n)
  | point {i d p u : Str} {n : Nat} : (∀ c ∈ i, IsDigit c) → (∀ c ∈ d, IsDigit c) → i ≠ [] ∨ d ≠ [] → KeptDigits d p → (u, n) ∈ timeUnits →
      Amount frac (i ++ [46] ++ d ++ u) (value i * n + if value p = 0 then 0 else frac (value p) p.length n)

/-- amounts one after the other -/
inductive Amounts (frac : Nat → Nat → Nat → Nat) : Str → Nat → Prop where
  | one {t : Str} {v : Nat} : Amount frac t v → Amounts frac t v
  | more {t u : Str} {v w : Nat} : Amount frac t v → Amounts frac u w → Amounts frac (t ++ u) (v + w)

/-- The duration that a text denotes: amounts, below 2^63 nanoseconds, or `0`; with or without a sign. -/
inductive DurationOf (frac : Nat → Nat → Nat → Nat) : Str → Int → Prop where
  | zero {sign : Str} : sign ∈ [[], b!"+", b!"-"] → DurationOf frac (sign ++ b!"0") 0
  | plain {s : Str} {d : Nat} : Amounts frac s d → d < 2 ^ 63 → DurationOf frac s d
  | plus {s : Str} {d : Nat} : Amounts frac s d → d < 2 ^ 63 → DurationOf frac (43 :: s) d
  | minus {s : Str} {d : Nat} : Amounts frac s d → d < 2 ^ 63 → DurationOf frac (45 :: s) (- (d : Int))

end Water.Spec
