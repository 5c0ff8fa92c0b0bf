import Verif.Model.Pattern
/-
Specification of routing, independent of the routing tree: what it means for a route pattern to accept
a request path. Only Go's string primitives and the regexp oracle are shared with the model.
-/
namespace Water.Spec
open Water

/-- Kinds of pattern segment, strongest first. -/
inductive Kind where
  | literal | regexp | name | star
  deriving DecidableEq, Repr

/-- rank of a kind: literal < regexp < name < star -/
def Kind.rank : Kind → Nat | .literal => 0 | .regexp => 1 | .name => 2 | .star => 3

/-- The text naming the parameters of a bracketed segment: after the opening bracket, up to the first `:`
if there is one, else up to the first `~`, else up to the closing bracket. -/
def nameText (p : Str) : Str :=
  if colon ∈ p then trimSpace ((p.drop 1).takeWhile (· != colon))
  else if tilde ∈ p then trimSpace ((p.drop 1).takeWhile (· != tilde))
  else trimSpace ((p.drop 1).dropLast)

/-- A segment beginning with `*` is a catch-all; one without angle brackets is a literal; a bracketed one
is a catch-all if its name begins with `*`, a regexp if it contains `~` and a plain name otherwise. -/
def kind (p : Str) : Kind :=
  if p.head? = some star then .star
  else if lt ∉ p then .literal
  else if (nameText p).head? = some star then .star
  else if tilde ∈ p then .regexp
  else .name

/-- The regular expression of `<names ~ re>`: the text after the first `~` up to the first `>`. -/
def regexText (p : Str) : Str := trimSpace (((p.takeWhile (· != gt)).dropWhile (· != tilde)).drop 1)

/-- The parameter names of a regexp segment. -/
def regexNames (p : Str) : List Str := (splitB comma (nameText p)).map trimSpace

/-- The name of a catch-all `*name` (or `<*name>`); empty for a bare `*`. -/
def starName (p : Str) : Str := if p.head? = some star then p.tail else (nameText p).tail

/-- When a pattern segment accepts a path segment. -/
def acceptsSeg (rx : Regex) (p s : Str) : Prop :=
  match kind p with
  | .literal => p = s
  | .regexp => (rx.find (regexText p) s).length = (regexNames p).length + 1
  | .name => True
  | .star => True

/-- When a list of pattern segments accepts a list of path segments. -/
inductive Accepts (rx : Regex) : List Str → List Str → Prop where
  | last {p s} : acceptsSeg rx p s → Accepts rx [p] [s]
  | rest {p s t ss} : kind p = .star → Accepts rx [p] (s :: t :: ss)
  | cons {p q ps s t ss} : acceptsSeg rx p s → Accepts rx (q :: ps) (t :: ss) →
      Accepts rx (p :: q :: ps) (s :: t :: ss)

/-- One leading and one trailing slash removed. -/
def stripSlashes (path : Str) : Str :=
  let p := if path.head? = some slash then path.tail else path
  if p.getLast? = some slash then p.dropLast else p

/-- The segments of a request path. -/
def pathSegs (path : Str) : List Str := splitB slash (stripSlashes path)

/-- gin-style spelling of one segment: `:x` is `<x>`, surrounding blanks of `*x` are dropped. -/
def ginSeg (v : Str) : Str :=
  if v.head? = some colon then [lt] ++ trimSpace v.tail ++ [gt]
  else if v.head? = some star then trimSpace v
  else v

/-- At the start of each level one empty segment (a leading slash) is skipped. -/
def skipEmpty : List Str → List Str
  | [] => []
  | [s] => [s]
  | s :: t :: r => if s = [] then t :: skipEmpty r else s :: skipEmpty (t :: r)

/-- The segments of a registered pattern. For `/s1/../sn` with non-empty `si` this is the list of the
`ginSeg si` (see `routeSegs_plain`). -/
def routeSegs (uri : Str) : List Str :=
  let u := if uri.getLast? = some slash then uri.dropLast else uri
  skipEmpty ((splitB slash u).map ginSeg)

end Water.Spec
