import Verif.Model.Router
import Verif.Model.Serve
import Verif.Model.Middleware
/- `Classic` and `Default` (router.go:345-365): a router with Logger and Recovery. -/
namespace Water
variable {α : Type}

/-- The calls `Classic` makes on a root router (router.go:350-351); `lg` and `rc` are the handlers made by `Logger()` and
`Recovery()`, which are `HandlerFunc`s. -/
def classicOps (lg rc : α) (r : Nat) : List (Op α) := [.use r [.handler lg], .use r [.handler rc]]

/-- `Classic` (router.go:345-352). -/
def classic (lg rc : α) (heap : Heap α) (r : Nat) : Except Panic (Heap α) :=
  match heap[r]? with
  | none => .error .noSuchRouter
  | some n =>
    if n.method ≠ [] then .error .noSuchRouter
    else if n.parent ≠ none then .error .subRouter
    else runOps heap (classicOps lg rc r)

/-- `Default` (router.go:355-360): the new router is at the address `heap.length`. -/
def newDefault (lg rc : α) (heap : Heap α) : Except Panic (Heap α) := do
  let heap' ← step heap .newRouter
  classic lg rc heap' heap.length

end Water
