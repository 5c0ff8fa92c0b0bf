import Verif.Model.Router
/-
A process that makes several routers and builds several engines: the registration calls and the calls of
`Handler` in the order they are made (router.go:116-214, 281-329), with the state they share: the heap of routers
and the package variables for multipart memory (content.go:324, binding/form.go:10-15, router.go:323-324).
-/
namespace Water
variable {α : Type}

/-- What a process does: a registration call, or `r.Handler(opts...)`. -/
inductive PEvent (α : Type) where
  | call (op : Op α)
  | build (r : Nat) (opts : List (Opt α))

/-- The state of the process. -/
structure Proc (α : Type) where
  /-- the routers -/
  heap : Heap α
  /-- `defaultMultipartMemory`, in both packages (content.go:324, binding/form.go:10) -/
  mem : Int
  /-- the engines built, in order, or how building them panicked -/
  engines : List (Except Panic (Engine α))

/-- One event (router.go:116-214, 281-329). A registration call that panics ends the run; a panic in `Handler` is
recovered by the caller. -/
def Proc.step (rx : Regex) (p : Proc α) : PEvent α → Except Panic (Proc α)
  | .call op =>
    match Water.step p.heap op with
    | .error e => .error e
    | .ok heap => .ok { p with heap }
  | .build r opts =>
    .ok { p with mem := handlerMem p.heap r opts p.mem, engines := p.engines ++ [handler rx p.heap r opts] }

/-- All events in order. -/
def Proc.run (rx : Regex) (p : Proc α) : List (PEvent α) → Except Panic (Proc α)
  | [] => .ok p
  | e :: es =>
    match p.step rx e with
    | .error e => .error e
    | .ok p' => p'.run rx es

/-- The start of the process: no routers, and the initial limit of 32 MB (content.go:324, binding/form.go:10). -/
def Proc.start : Proc α := { heap := [], mem := 33554432, engines := [] }

end Water
