import Verif.Spec.Register
/- Specification for C160: which registration calls are accepted, read off what was made before them. -/
namespace Water.Spec
open Water
variable {α : Type}

/-- `i` is a router that a program can hold: made by `NewRouter` or `Group` -/
def IsRouter (ms : List (Made α)) (i : Nat) : Prop := ∃ c, ms[i]? = some c ∧ c.method = []

/-- `i` was made by `NewRouter` -/
def IsRootRouter (ms : List (Made α)) (i : Nat) : Prop := ∃ c, ms[i]? = some c ∧ c.method = [] ∧ c.parent = none

/-- A call is accepted after `ms` was made: its router exists; for `Before` it is a root; for `GET/POST/..` no handler is nil. -/
def Accepted (ms : List (Made α)) : Op α → Prop
  | .newRouter => True
  | .before r _ => IsRootRouter ms r
  | .group r _ => IsRouter ms r
  | .groupMw r _ => IsRouter ms r
  | .groupBad => False
  | .use r _ => IsRouter ms r
  | .handle r m _ hs => IsRouter ms r ∧ m ∈ methodNames ∧ .nil ∉ hs

/-- The call makes something; the others give a router middleware. -/
def makes (op : Op α) : Bool := (madeBy op).isSome

/-- The history with all calls that give middleware at its end. -/
def middlewareLast (ops : List (Op α)) : List (Op α) := ops.filter makes ++ ops.filter (fun op => !makes op)

end Water.Spec
