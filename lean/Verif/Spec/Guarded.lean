import Verif.Spec.Register
import Verif.Spec.Guard
/- What is in front of a guard and what is behind it, read off the history of registration calls. -/
namespace Water.Spec
open Water
variable {α β ω : Type}

/-- two ways `f` and `g` to fill the places of these arguments put the same handlers there -/
def AgreeOn (f g : α → β) (hs : List (HVal α)) : Prop := ∀ h ∈ hs, ∀ a, payload h = some a → f a = g a

/-- the handlers `f` puts at the places of these arguments call `Next` at most once, and respond when they recover -/
def SingleOn (f : α → Prog ω) (hs : List (HVal α)) : Prop := ∀ h ∈ hs, ∀ a, payload h = some a → Single (f a)

/-- Two applications on the root `r` that differ only in what is behind the middleware `front` of the router `g`: in the rest of its
middleware, and in what was registered on endpoints and groups below it. -/
structure SameBut (f f' : α → β) (ops : List (Op α)) (r g : Nat) (front : List (HVal α)) (opts : List (Opt α)) : Prop where
  befores : AgreeOn f f' (beforesOf ops r)
  front : AgreeOn f f' front
  uses : ∀ j l, Under ops r j l → g ∉ l → AgreeOn f f' (usesOf ops j)
  endpoints : ∀ i l, Endpoint ops r i l → g ∉ l → AgreeOn f f' (handlersOf ops i)
  noFound : AgreeOn f f' (noFoundOf ops r opts)

/-- What a client and the handlers can tell of how a request was served: how it ended, the response, the effects, which forms were
parsed and which handlers ran. (Not: the object put back into the pool, which holds the handlers.) -/
structure SameServed (a b : Served ω) : Prop where
  out : a.out = b.out
  rw : a.rw = b.rw
  world : a.world = b.world
  forms : a.forms = b.forms
  trace : a.trace = b.trace
  took : a.took = b.took

end Water.Spec
