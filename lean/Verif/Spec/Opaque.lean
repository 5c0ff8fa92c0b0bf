import Verif.Model.Router
import Verif.Model.Serve
/- What it means that two applications differ in their handlers only. -/
namespace Water.Spec
open Water
variable {α β : Type}

/-- lists of the same length that are related place by place -/
inductive Each {γ δ : Type} (R : γ → δ → Prop) : List γ → List δ → Prop where
  | nil : Each R [] []
  | cons {x : γ} {y : δ} {xs : List γ} {ys : List δ} : R x y → Each R xs ys → Each R (x :: xs) (y :: ys)

/-- `h` is the handler `a`, handed over as one of the four types that are supported -/
inductive HandsOver : HVal α → α → Prop where
  | handler (a : α) : HandsOver (.handler a) a
  | ctxFunc (a : α) : HandsOver (.ctxFunc a) a
  | httpHandler (a : α) : HandsOver (.httpHandler a) a
  | httpFunc (a : α) : HandsOver (.httpFunc a) a

/-- Two arguments: the second has the handler `f a` where the first has `a`. They may be of different types. -/
inductive SameArg (f : α → β) : HVal α → HVal β → Prop where
  | nil : SameArg f .nil .nil
  | other : SameArg f .other .other
  | val {h : HVal α} {h' : HVal β} {a : α} : HandsOver h a → HandsOver h' (f a) → SameArg f h h'

/-- Two registration calls that differ in the handlers only. -/
inductive SameCall (f : α → β) : Op α → Op β → Prop where
  | newRouter : SameCall f .newRouter .newRouter
  | before {r : Nat} {hs : List (HVal α)} {hs' : List (HVal β)} : Each (SameArg f) hs hs' → SameCall f (.before r hs) (.before r hs')
  | group {r : Nat} {p : Str} : SameCall f (.group r p) (.group r p)
  | groupMw {r : Nat} {a : α} : SameCall f (.groupMw r a) (.groupMw r (f a))
  | groupBad : SameCall f .groupBad .groupBad
  | use {r : Nat} {hs : List (HVal α)} {hs' : List (HVal β)} : Each (SameArg f) hs hs' → SameCall f (.use r hs) (.use r hs')
  | handle {r : Nat} {m p : Str} {hs : List (HVal α)} {hs' : List (HVal β)} :
      Each (SameArg f) hs hs' → SameCall f (.handle r m p hs) (.handle r m p hs')

/-- Two options that differ in the handlers only. -/
inductive SameOpt (f : α → β) : Opt α → Opt β → Prop where
  | staticRouter {b : Bool} : SameOpt f (.staticRouter b) (.staticRouter b)
  | noFound {hs : List (HVal α)} {hs' : List (HVal β)} : Each (SameArg f) hs hs' → SameOpt f (.noFound hs) (.noFound hs')
  | maxMultipart {n : Int} : SameOpt f (.maxMultipart n) (.maxMultipart n)

/-- Two engines dispatch alike: the same not-found handlers up to `f`, and for every method and path the same full path, the same
parameters and, up to `f`, the same handlers. -/
structure Alike (rx : Regex) (f : α → β) (e : Engine α) (e' : Engine β) : Prop where
  noFound : e'.noFound = e.noFound.map f
  handlers : ∀ m path, (routeOf rx e' m path).map (·.handlers) = (routeOf rx e m path).map (fun n => n.handlers.map f)
  fullPath : ∀ m path, (routeOf rx e' m path).map (·.uri) = (routeOf rx e m path).map (·.uri)
  params : ∀ i path, (lookup rx e' i path).2 = (lookup rx e i path).2

/-- An application: a program of registration calls, and `Handler` on the router `r`. -/
def app (rx : Regex) (ops : List (Op α)) (r : Nat) (opts : List (Opt α)) : Except Panic (Engine α) := do
  let heap ← runOps [] ops
  handler rx heap r opts

/-- the handlers that answer a request -/
def answering (rx : Regex) (e : Engine α) (req : Req) : List α :=
  match routeOf rx e req.method req.path with
  | some n => n.handlers
  | none => e.noFound

end Water.Spec
