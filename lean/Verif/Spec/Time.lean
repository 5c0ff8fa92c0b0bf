import Verif.Spec.Mapping
/-
Times in forms: the instant that a text stands for in a field with given tags.
-/
namespace Water.Spec

/-- The instant of `time.Unix(sec, nsec)`, in nanoseconds since 1970: `nsec` may be negative or more than a second. -/
def instant : TimeV → Option Int
  | .unix sec nsec => some (sec * 1000000000 + nsec)
  | _ => none

/-- the field holds a number of seconds, a number of nanoseconds, or a written time -/
def CountsSeconds (fd : Field) : Prop := ReadsSmall b!"unix" (layout fd)
def CountsNanos (fd : Field) : Prop := ReadsSmall b!"unixnano" (layout fd)
def Written (fd : Field) : Prop := ¬ CountsSeconds fd ∧ ¬ CountsNanos fd

/-- What is in a time field after the text `s` has been stored there: with the layout `unix` (in any case) that many seconds after 1970,
with `unixnano` that many nanoseconds, before 1970 if negative; otherwise nothing if the text is empty, or what the text says in the layout
of the field, or of RFC 3339, at the place of the field. -/
structure Timed (o : BOracle) (fd : Field) (s : Str) (t : TimeV) : Prop where
  seconds : CountsSeconds fd → ∃ i, Signed s i ∧ FitsInt 64 i ∧ instant t = some (i * 1000000000)
  nanos : CountsNanos fd → ∃ i, Signed s i ∧ FitsInt 64 i ∧ instant t = some i
  empty : Written fd → s = [] → t = .zero
  text : Written fd → s ≠ [] → ∃ l id, Place fd l ∧ (fd.tag b!"time_location" ≠ [] → o.location (fd.tag b!"time_location") = true) ∧
    o.parseTime (layout fd) s l = some id ∧ t = .parsed id

/-- The texts that can be stored. -/
def Readable (o : BOracle) (fd : Field) (s : Str) : Prop :=
  ((CountsSeconds fd ∨ CountsNanos fd) → ∃ i, Signed s i ∧ FitsInt 64 i) ∧
  (Written fd → s ≠ [] → (fd.tag b!"time_location" ≠ [] → o.location (fd.tag b!"time_location") = true) ∧
    ∃ l id, Place fd l ∧ o.parseTime (layout fd) s l = some id)

end Water.Spec
