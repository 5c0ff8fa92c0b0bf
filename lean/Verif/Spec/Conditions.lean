import Verif.Spec.Cache
import Verif.Spec.HttpDate
/-
Conditional requests, RFC 7232: the fields and the order in which they are looked at.
-/
namespace Water.Spec
open Water

/-- Optional white space, RFC 7230, 3.2.3. -/
def OWS (s : Str) : Prop := ∀ c ∈ s, c = 32 ∨ c = 9

/-- A list of entity tags with commas between them, RFC 7232, 3.1. Elements may be empty, RFC 7230, 7. -/
inductive TagList : List Str → Str → Prop where
  | nil {w : Str} : OWS w → TagList [] w
  | comma {w s : Str} {ts : List Str} : OWS w → TagList ts s → TagList ts (w ++ 44 :: s)
  | last {w t v : Str} : OWS w → entityTag t = true → OWS v → TagList [t] (w ++ t ++ v)
  | tag {w t v s : Str} {ts : List Str} : OWS w → entityTag t = true → OWS v → TagList ts s → TagList (t :: ts) (w ++ t ++ v ++ 44 :: s)

/-- What If-Match and If-None-Match name: any version, or those with these tags. -/
inductive TagCond where
  | any
  | tags (ts : List Str)

/-- The value of If-Match or If-None-Match; the empty text is no such field. -/
inductive TagField : Str → Option TagCond → Prop where
  | absent : TagField [] none
  | any : TagField b!"*" (some .any)
  | tags {ts : List Str} {s : Str} : TagList ts s → ts ≠ [] → TagField s (some (.tags ts))

/-- The value of If-Modified-Since or If-Unmodified-Since, and the second it says. What is no date is as if it were not there. `obsolete` reads
the two obsolete formats. -/
inductive DateField (obsolete : Str → Option Int) : Str → Option Int → Prop where
  | absent : DateField obsolete [] none
  | date {s : Str} {st : Stamp} {n : Int} : ReadsImf s st → st.Unix n → DateField obsolete s (some n)
  | bad {s : Str} : (∀ st n, ReadsImf s st → ¬ st.Unix n) → obsolete s = none → DateField obsolete s none

/-- A weak tag. -/
def WeakTag (t : Str) : Prop := t.take 2 = b!"W/"

/-- The tag without the mark of weak tags. -/
def opaqueTag (t : Str) : Str := if t.take 2 = b!"W/" then t.drop 2 else t

/-- Strong comparison with the tag of the current version, RFC 7232, 2.3.2. -/
def TagCond.Strongly (cur : Option Str) : TagCond → Prop
  | .any => True
  | .tags ts => ∃ t ∈ ts, ¬ WeakTag t ∧ cur = some t

/-- Weak comparison with the tag of the current version. -/
def TagCond.Weakly (cur : Option Str) : TagCond → Prop
  | .any => True
  | .tags ts => ∃ t ∈ ts, ∃ c, cur = some c ∧ opaqueTag t = opaqueTag c

/-- Steps 1 and 2 of RFC 7232, 6: the answer is 412. `modified` is the second of the last change, if it is known. -/
def Refused (ifMatch : Option TagCond) (unmodifiedSince : Option Int) (cur : Option Str) (modified : Option Int) : Prop :=
  match ifMatch with
  | some c => ¬ c.Strongly cur
  | none => ∃ n m, unmodifiedSince = some n ∧ modified = some m ∧ n < m

/-- Steps 3 and 4 of RFC 7232, 6: the answer to GET is 304. -/
def Unchanged (ifNoneMatch : Option TagCond) (modifiedSince : Option Int) (cur : Option Str) (modified : Option Int) : Prop :=
  match ifNoneMatch with
  | some c => c.Weakly cur
  | none => ∃ n m, modifiedSince = some n ∧ modified = some m ∧ m ≤ n

/-- The second of the last change of a file; two times stand for none. -/
def changedAt (t : Int) : Option Int := if t = 0 ∨ t = -62135596800000000000 then none else some (second t)

end Water.Spec
