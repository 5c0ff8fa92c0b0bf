import Verif.Model.Name
import Verif.Spec.Register
/- C118: the name of a handler, by the kind of value it was registered as. -/
namespace Water.Spec
open Water

/-- The payload of a registered value is what `newHandler` makes of it. -/
def MadeBy (c : Code) (v : HVal Dyn) : Prop := ∀ d, payload v = some d → newHandlerDyn c v = .ok d

/-- The name the comment at content.go:307-308 promises: that of the registered function. Values that are not functions of water have none. -/
def ownName (c : Code) : HVal Dyn → Option Str
  | .ctxFunc (.func pc) => c.name pc
  | .handler (.func pc) => c.name pc
  | _ => none

/-- The name a registered value is given. -/
inductive Called (c : Code) : HVal Dyn → Str → Prop where
  | own {v : HVal Dyn} {s : Str} : ownName c v = some s → Called c v s
  /-- a function without code, such as a nil function -/
  | ctxNone {pc : Nat} : c.name pc = none → Called c (.ctxFunc (.func pc)) []
  | none {pc : Nat} : c.name pc = none → Called c (.handler (.func pc)) []
  /-- a pointer: the name of the code at its address, usually none -/
  | addr {p : Nat} : Called c (.handler (.addr p)) ((c.name p).getD [])
  /-- net/http: always the same name -/
  | httpHandler {d : Dyn} : Called c (.httpHandler d) ((c.name c.wrapHandler).getD [])
  | httpFunc {d : Dyn} : Called c (.httpFunc d) ((c.name c.wrapFunc).getD [])

/-- A `func(*Context)` is a function. -/
def Typed : HVal Dyn → Prop
  | .ctxFunc d => ∃ pc, d = .func pc
  | _ => True

/-- the handlers a registration call is given; the middleware argument of `Group` is a `func(*Context)` -/
def handed : Op Dyn → List (HVal Dyn)
  | .before _ hs => hs
  | .groupMw _ h => [.ctxFunc h]
  | .use _ hs => hs
  | .handle _ _ _ hs => hs
  | _ => []

end Water.Spec
