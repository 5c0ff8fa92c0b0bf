import Verif.Model.Router
/-
Specification for several applications in one process: the calls that belong to one of them, read off the
history of all calls. An application is a router made by `NewRouter` with all that was made below it.
-/
namespace Water.Spec
open Water
variable {α : Type}

/-- The place of `i` in a list, counted from 0. -/
def place : List Nat → Nat → Option Nat
  | [], _ => none
  | x :: g, i => if x = i then some 0 else (place g i).map (· + 1)

/-- The calls of a history that belong to the application of router `r`, with routers numbered as if no other
calls had been made. `n` counts what has been made so far and `g` lists what of it belongs to the application. -/
def mineFrom (r : Nat) : Nat → List Nat → List (Op α) → List (Op α)
  | _, _, [] => []
  | n, g, .newRouter :: ops =>
    if n = r then .newRouter :: mineFrom r (n + 1) (g ++ [n]) ops else mineFrom r (n + 1) g ops
  | n, g, .group q p :: ops =>
    match place g q with
    | some k => .group k p :: mineFrom r (n + 1) (g ++ [n]) ops
    | none => mineFrom r (n + 1) g ops
  | n, g, .handle q m p hs :: ops =>
    match place g q with
    | some k => .handle k m p hs :: mineFrom r (n + 1) (g ++ [n]) ops
    | none => mineFrom r (n + 1) g ops
  | n, g, .before q hs :: ops =>
    match place g q with
    | some k => .before k hs :: mineFrom r n g ops
    | none => mineFrom r n g ops
  | n, g, .use q hs :: ops =>
    match place g q with
    | some k => .use k hs :: mineFrom r n g ops
    | none => mineFrom r n g ops
  | n, g, .groupMw q h :: ops =>
    match place g q with
    | some k => .groupMw k h :: mineFrom r n g ops
    | none => mineFrom r n g ops
  | n, g, .groupBad :: ops => mineFrom r n g ops

/-- The calls of a history that belong to the application of router `r`, alone. -/
def mine (r : Nat) (ops : List (Op α)) : List (Op α) := mineFrom r 0 [] ops

end Water.Spec
