import Verif.Spec.Bind
import Verif.Spec.Choice
/-
Specification of the parameter map of a request, down to the last entry: which value every name has once the search is over. It is read
off the registrations and the path. No tree is involved.
-/
namespace Water.Spec
open Water
variable {α : Type}

/-- `d` accepts the first segments of the path, and at least one segment is left. -/
inductive Covers (rx : Regex) : List Str → List Str → Prop where
  | last {p s t : Str} {ss : List Str} : acceptsSeg rx p s → Covers rx [p] (s :: t :: ss)
  | cons {p s : Str} {d ss : List Str} : acceptsSeg rx p s → Covers rx d ss → Covers rx (p :: d) (s :: ss)

/-- At their first difference `d` has the stronger kind, or the same kind and the earlier first registration. -/
def Ahead (tbl : List (Entry α)) (d d' : List Str) : Prop :=
  ∃ c a da b db, d = c ++ a :: da ∧ d' = c ++ b :: db ∧ ((kind a).rank < (kind b).rank ∨
    ((kind a).rank = (kind b).rank ∧ Before (Through (c ++ [a])) (Through (c ++ [b])) tbl))

/-- `d` is tried before `d'`: it is the beginning of `d'`, or ahead of it. -/
def TriedFirst (tbl : List (Entry α)) (d d' : List Str) : Prop := (∃ q rest, d' = d ++ q :: rest) ∨ Ahead tbl d d'

/-- `d` is tried before the search ends with the route `r`: it is earlier than `r`, or it goes on where `r` ends. -/
def TriedBefore (tbl : List (Entry α)) (d r : List Str) : Prop :=
  (∃ q rest, r = d ++ q :: rest) ∨
  (∃ c a da b db, d = c ++ a :: da ∧ r = c ++ b :: db ∧ db ≠ [] ∧ ((kind a).rank < (kind b).rank ∨
    ((kind a).rank = (kind b).rank ∧ Before (Through (c ++ [a])) (Through (c ++ [b])) tbl))) ∨
  ∃ c a da b, d = c ++ a :: da ∧ r = c ++ [b]

/-- The beginning `d` of some registered pattern is tried on the path, and accepts, before the search ends. `ro` is the pattern chosen,
if one is. -/
def Tried (rx : Regex) (tbl : List (Entry α)) (ss : List Str) (ro : Option (List Str)) (d : List Str) : Prop :=
  (∃ e ∈ tbl, Through d e) ∧ Covers rx d ss ∧ ∀ r, ro = some r → TriedBefore tbl d r

/-- What the last segment of `d` captures as `x`, if it is a regexp: of two groups with the same name the later one counts. -/
def captured (rx : Regex) (x : Str) : List Str → List Str → Option Str
  | [p], s :: _ => if kind p = .regexp then ((regexNames p).zip ((rx.find (regexText p) s).drop 1)).reverse.lookup x else none
  | _ :: q :: d, _ :: ss => captured rx x (q :: d) ss
  | _, _ => none

/-- `v` is the newest capture of `x`: no beginning tried later captures `x` as well. -/
def Newest (rx : Regex) (tbl : List (Entry α)) (ss : List Str) (ro : Option (List Str)) (x v : Str) : Prop :=
  ∃ d, Tried rx tbl ss ro d ∧ captured rx x d ss = some v ∧
    ∀ d', Tried rx tbl ss ro d' → captured rx x d' ss ≠ none → d' = d ∨ TriedFirst tbl d' d

/-- What the chosen pattern binds once it is chosen, strongest first: the names and catch-alls from left to right, then the last segment. -/
def settled (rx : Regex) : Nat → List Str → List Str → List (Str × Str)
  | g, [p], s :: ss => (bindSeg rx g p s (join [slash] (s :: ss)) (join [slash] (s :: ss))).reverse
  | g, p :: q :: ps, s :: ss =>
    (if kind p = .regexp then [] else bindSeg rx g p s (join [slash] (s :: ss)) s) ++
      settled rx (if kind p = .star then g + 1 else g) (q :: ps) ss
  | _, _, _ => []

/-- The pattern a path is served by: the best one, or none if no registered pattern accepts the path. -/
def Picked (rx : Regex) (tbl : List (Entry α)) (ss : List Str) : Option (List Str) → Prop
  | some r => Best rx tbl ss r
  | none => ∀ x ∈ tbl, ¬ Accepts rx x.segs ss

/-- The value of `x` for a request: what the chosen pattern settles, otherwise the newest capture. -/
def ParamIs (rx : Regex) (tbl : List (Entry α)) (ss : List Str) (ro : Option (List Str)) (x v : Str) : Prop :=
  (∃ r, ro = some r ∧ (settled rx 0 r ss).lookup x = some v) ∨
  ((∀ r, ro = some r → (settled rx 0 r ss).lookup x = none) ∧ Newest rx tbl ss ro x v)

end Water.Spec
