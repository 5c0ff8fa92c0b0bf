import Verif.Model.Values
import Verif.Model.Router
/-
`Context.HandlerName`: content.go:307-311, util.go:106-108, and what `newHandler` (engine.go:22-39) puts into the interface. Routing never
looks into handlers (C112), so they can be values of the type `Dyn` here.
-/
namespace Water

/-- The dynamic value in a variable of type `Handler`, as far as `reflect.Value.Pointer` sees it. -/
inductive Dyn where
  /-- a function: a `HandlerFunc` or another function type with the method; the address of its code (0 for a nil function) -/
  | func (pc : Nat)
  /-- a pointer, map, channel or slice with the method; its address -/
  | addr (p : Nat)
  /-- a struct, string, number or array with the method -/
  | plain
  deriving DecidableEq, Repr

/-- What is known of the program: the name of the function whose code contains an address (`runtime.FuncForPC`; `none` is nil), and the code
of the two function literals in `newHandler` (engine.go:29-31, 33-35). -/
structure Code where
  name : Nat → Option Str
  wrapHandler : Nat
  wrapFunc : Nat

/-- What `newHandler` returns as a dynamic value (engine.go:22-39): a `Handler` itself, a `func(*Context)` converted, and a function literal
around the two kinds of net/http. -/
def newHandlerDyn (c : Code) : HVal Dyn → Except Panic Dyn
  | .handler d => .ok d
  | .ctxFunc d => .ok d
  | .httpHandler _ => .ok (.func c.wrapHandler)
  | .httpFunc _ => .ok (.func c.wrapFunc)
  | .nil => .error .unsupported
  | .other => .error .unsupported

/-- `nameOfFunction` (util.go:106-108): `reflect.Value.Pointer` panics for values without an address, and the name of a nil `*runtime.Func`
is empty. -/
def nameOfFunction (c : Code) : Dyn → Except PVal Str
  | .func pc => .ok ((c.name pc).getD [])
  | .addr p => .ok ((c.name p).getD [])
  | .plain => .error (.val b!"reflect: call of reflect.Value.Pointer")

/-- `HandlerName` (content.go:309-311) in a context with the handlers `hs`; with none the index is -1. -/
def handlerName (c : Code) (hs : List Dyn) : Except PVal Str :=
  match hs.getLast? with
  | none => .error indexPanic
  | some d => nameOfFunction c d

end Water
