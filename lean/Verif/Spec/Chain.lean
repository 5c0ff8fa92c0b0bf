import Verif.Model.Context
/-
What the chain properties (C24-C28) mean, as properties of the list of events alone.
-/
namespace Water.Spec

/-- The handlers that start, in order. -/
def starts : List Event → List Nat
  | [] => []
  | .start i :: es => i :: starts es
  | _ :: es => starts es

/-- How often handler `i` calls `Next`. -/
def nexts (i : Nat) : List Event → Nat
  | [] => 0
  | .next j :: es => (if j = i then 1 else 0) + nexts i es
  | _ :: es => nexts i es

/-- How often handler `i` returns or panics. -/
def finishes (i : Nat) : List Event → Nat
  | [] => 0
  | .stop j _ :: es => (if j = i then 1 else 0) + finishes i es
  | .crash j :: es => (if j = i then 1 else 0) + finishes i es
  | _ :: es => finishes i es

/-- What can be open: handler `i`, or a call of `Next` by handler `i`. -/
inductive Frame where
  | handler (i : Nat)
  | call (i : Nat)
  deriving DecidableEq, Repr

/-- An onion, as a stack machine. The state is the stack of open frames and whether a panic is under way.
A handler may start only at the outside or inside a call of `Next`, may finish or call `Next` only when it is
innermost, and a call of `Next` may end only when it is innermost. A handler that panics ends the enclosing
call of `Next` at once (`thrown`), and only that ends a call by panic. -/
def onion : List Frame × Bool → List Event → Option (List Frame × Bool)
  | st, [] => some st
  | ([], false), .start i :: es => onion ([.handler i], false) es
  | (.call m :: st, false), .start i :: es => onion (.handler i :: .call m :: st, false) es
  | (.handler j :: st, false), .stop i _ :: es => if j = i then onion (st, false) es else none
  | (.handler j :: st, false), .crash i :: es => if j = i then onion (st, true) es else none
  | (.handler j :: st, false), .next i :: es => if j = i then onion (.call i :: .handler j :: st, false) es else none
  | (.call j :: st, false), .back i :: es => if j = i then onion (st, false) es else none
  | (.call j :: st, true), .thrown i :: es => if j = i then onion (st, false) es else none
  | _, _ => none

/-- The state is whether a handler has returned with a response written and nobody has called `Next` since; then
no handler may start. -/
def halting : Bool → List Event → Option Bool
  | b, [] => some b
  | _, .stop _ true :: es => halting true es
  | _, .next _ :: es => halting false es
  | b, .start _ :: es => if b then none else halting b es
  | b, _ :: es => halting b es

/-- Every call the code can make satisfies `A`, whatever the calls return. -/
def CallsIn {ω : Type} (A : Call ω → Prop) : Prog ω → Prop
  | .ret => True
  | .panic _ => True
  | .next k => CallsIn A k
  | .call c k => A c ∧ ∀ r, CallsIn A (k r)
  | .scope b f => CallsIn A b ∧ ∀ r, CallsIn A (f r)

end Water.Spec
