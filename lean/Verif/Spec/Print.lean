import Verif.Spec.Register
import Verif.Spec.Table
import Verif.Model.Strconv
/-
Specification of the printed lists of routes, read off the history of registration calls.
-/
namespace Water.Spec
open Water
variable {α : Type}

/-- No sibling of `i` was made after it. -/
def youngest (ops : List (Op α)) (i : Nat) : Bool :=
  ((made ops).drop (i + 1)).all (fun c => c.parent != ((made ops)[i]?).bind (·.parent))

/-- The drawing in front of a line, for the lineage below the root: a bar for every enclosing router that has a younger sibling,
blanks for the others, and a corner or a branch for the thing itself. -/
def drawing (ops : List (Op α)) : List Nat → Str
  | [] => []
  | [i] => if youngest ops i then b!"└──" else b!"├──"
  | i :: j :: l => (if youngest ops i then b!"    " else b!"│   ") ++ drawing ops (j :: l)

/-- How many handlers are in the chain of an endpoint, not counting the root's `Before` handlers. -/
def innerCount (ops : List (Op α)) (e : Nat × List Nat) : Nat := (e.2.flatMap (usesOf ops) ++ handlersOf ops e.1).length

/-- a method name, filled up with blanks to seven characters -/
def method7 (m : Str) : Str := m ++ List.replicate (7 - m.length) 32

/-- a number, filled up with blanks to three characters -/
def number3 (n : Nat) : Str := List.replicate (3 - (itoaNat n).length) 32 ++ itoaNat n

/-- The line of a group or an endpoint in the drawn tree of routers. -/
def treeLine (ops : List (Op α)) (e : Nat × List Nat) : Str :=
  drawing ops e.2.tail ++ b!" " ++ patternOf ops e.1 ++
    (if methodOf ops e.1 = [] then [] else b!" [" ++ method7 (methodOf ops e.1) ++ b!" : " ++ itoaNat (innerCount ops e) ++ b!"]")

/-- The line of an endpoint in the list of all routes, with the length of its chain. -/
def allLine (ops : List (Op α)) (r : Nat) (e : Nat × List Nat) : Str :=
  b!"[" ++ method7 (methodOf ops e.1) ++ b!" : " ++ itoaNat (chainOf ops r e.1 e.2).length ++ b!"] " ++ fullPath ops e.2

/-- The line of an endpoint in the list of the routes of a method, with the length of its chain. -/
def methodLine (ops : List (Op α)) (r : Nat) (e : Nat × List Nat) : Str :=
  b!"[" ++ number3 (chainOf ops r e.1 e.2).length ++ b!"] " ++ fullPath ops e.2

/-- Reading order of a tree: enclosing routers first, then depth first. -/
def ReadBefore (a b : List Nat) : Prop := (∃ s, s ≠ [] ∧ b = a ++ s) ∨ Precedes a b

/-! ### the drawn routing tree of a method -/

/-- A row of the drawing: a pattern cut into segments, and whether it is that of a route or only leads to longer ones. -/
structure Row where
  segs : List Str
  isRoute : Bool
  deriving DecidableEq

/-- a registration that a row stands for -/
def At (x : Row) (e : Entry α) : Prop := if x.isRoute then e.segs = x.segs else Through x.segs e

/-- the rows there are for a list of registrations -/
def Shown (tbl : List (Entry α)) (x : Row) : Prop := x.segs ≠ [] ∧ ∃ e ∈ tbl, At x e

/-- Of two rows with the same enclosing row `c`: those that only lead further come first, then the stronger kind, then what was
registered first. -/
def Above (tbl : List (Entry α)) (c : List Str) (a : Str) (ra : Bool) (b : Str) (rb : Bool) : Prop :=
  (ra = false ∧ rb = true) ∨
  (ra = rb ∧ ((kind a).rank < (kind b).rank ∨
    (kind a).rank = (kind b).rank ∧ Before (At ⟨c ++ [a], ra⟩) (At ⟨c ++ [b], rb⟩) tbl))

/-- more rows follow within the same enclosing row -/
def Followed (tbl : List (Entry α)) (c : List Str) (a : Str) (ra : Bool) : Prop :=
  ∃ b rb, Shown tbl ⟨c ++ [b], rb⟩ ∧ Above tbl c a ra b rb

/-- Top to bottom: enclosing rows first, else by the first difference. -/
def RowBefore (tbl : List (Entry α)) (x y : Row) : Prop :=
  (x.isRoute = false ∧ ∃ s, s ≠ [] ∧ y.segs = x.segs ++ s) ∨
  ∃ c a as b bs, x.segs = c ++ a :: as ∧ y.segs = c ++ b :: bs ∧
    Above tbl c a (as.isEmpty && x.isRoute) b (bs.isEmpty && y.isRoute)

/-- The drawing in front of a row: a bar for each enclosing row that is followed by another, blanks for the others, then a branch or
a corner. -/
inductive Drawn (tbl : List (Entry α)) (isRoute : Bool) : List Str → List Str → Str → Prop where
  | branch {c : List Str} {a : Str} : Followed tbl c a isRoute → Drawn tbl isRoute c [a] b!"├──"
  | corner {c : List Str} {a : Str} : ¬ Followed tbl c a isRoute → Drawn tbl isRoute c [a] b!"└──"
  | bar {c : List Str} {a b : Str} {l : List Str} {t : Str} : Followed tbl c a false → Drawn tbl isRoute (c ++ [a]) (b :: l) t →
      Drawn tbl isRoute c (a :: b :: l) (b!"│   " ++ t)
  | blank {c : List Str} {a b : Str} {l : List Str} {t : Str} : ¬ Followed tbl c a false → Drawn tbl isRoute (c ++ [a]) (b :: l) t →
      Drawn tbl isRoute c (a :: b :: l) (b!"    " ++ t)

/-- The line of a row: the drawing, the last segment and, for a route, the number of its handlers. -/
def RowLine (tbl : List (Entry α)) (x : Row) (line : Str) : Prop :=
  ∃ t, Drawn tbl x.isRoute [] x.segs t ∧
    (x.isRoute = false → line = t ++ b!" " ++ x.segs.getLastD []) ∧
    (x.isRoute = true → ∃ h, FirstHandlers tbl x.segs h ∧
      line = t ++ b!" " ++ x.segs.getLastD [] ++ b!" [" ++ number3 h.length ++ b!"]")

/-- the row of the path `/` -/
def topRow : Row := ⟨[[]], true⟩

end Water.Spec
