import Verif.Spec.Routing
/-
Specification of route parameters: what a pattern binds on a path, read off the pattern and the path only.
-/
namespace Water.Spec
open Water

/-- the ignore name `_` -/
def underscore : Str := [95]

/-- The key of the `g`-th anonymous catch-all of a route: `*0`, `*1`, .. -/
def anonKey (g : Nat) : Str := star :: itoaNat g

/-- What one pattern segment binds: `s` is its own path segment, `rest` the path text from there on,
`value` what a catch-all captures when it is anonymous. -/
def bindSeg (rx : Regex) (g : Nat) (p s rest anonValue : Str) : List (Str × Str) :=
  match kind p with
  | .literal => []
  | .regexp => (regexNames p).zip ((rx.find (regexText p) s).drop 1)
  | .name => if nameText p = underscore then [] else [(nameText p, s)]
  | .star =>
    if starName p = [] then [(anonKey g, anonValue)]
    else if starName p = underscore then [] else [(starName p, rest)]

/-- The bindings of a pattern on a path. A final catch-all captures the whole rest; a non-final one captures
the rest if it is named and only its own segment if it is anonymous. -/
def bindings (rx : Regex) : Nat → List Str → List Str → List (Str × Str)
  | g, [p], s :: ss => bindSeg rx g p s (join [slash] (s :: ss)) (join [slash] (s :: ss))
  | g, p :: q :: ps, s :: ss =>
    bindSeg rx g p s (join [slash] (s :: ss)) s ++
      bindings rx (if kind p = .star then g + 1 else g) (q :: ps) ss
  | _, _, _ => []

/-- The names one pattern segment declares. -/
def declaredSeg (g : Nat) (p : Str) : List Str :=
  match kind p with
  | .literal => []
  | .regexp => regexNames p
  | .name => if nameText p = underscore then [] else [nameText p]
  | .star => if starName p = [] then [anonKey g] else if starName p = underscore then [] else [starName p]

/-- The parameter names a pattern declares. -/
def declared : Nat → List Str → List Str
  | _, [] => []
  | g, p :: ps => declaredSeg g p ++ declared (if kind p = .star then g + 1 else g) ps

/-- `x` is a name of a regexp segment of the pattern that is not its last segment. -/
def InnerRegexName (r : List Str) (x : Str) : Prop :=
  ∃ c p q rest, r = c ++ p :: q :: rest ∧ kind p = .regexp ∧ x ∈ regexNames p

/-- Some name is used by two regexp segments of the pattern, neither of which is its last segment. -/
def RepeatsInnerRegexName (r : List Str) : Prop :=
  ∃ c p d x, r = c ++ p :: d ∧ kind p = .regexp ∧ x ∈ regexNames p ∧ InnerRegexName d x

/-- A regexp segment of the pattern that is not its last one captures `v` as `x` on the path: it and the segments in front of it accept
the segments of the path they stand for. What comes after it plays no role. -/
inductive Captures (rx : Regex) : List Str → List Str → Str → Str → Prop where
  | here {p q : Str} {r : List Str} {s t : Str} {ss : List Str} {x v : Str} : kind p = .regexp → acceptsSeg rx p s →
      (x, v) ∈ (regexNames p).zip ((rx.find (regexText p) s).drop 1) → Captures rx (p :: q :: r) (s :: t :: ss) x v
  | there {p s : Str} {r ss : List Str} {x v : Str} : acceptsSeg rx p s → Captures rx r ss x v → Captures rx (p :: r) (s :: ss) x v

end Water.Spec
