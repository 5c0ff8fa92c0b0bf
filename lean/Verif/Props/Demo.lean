import Verif.Lemmas.Static
/- Concrete data used by the examples and counterexamples beside the theorems. -/
namespace Water.Demo
open Water Spec

/-- A regexp oracle that agrees with Go's `regexp` on the inputs used in the examples:
`(a.)` and `(b.)` on short segments, everything else finds nothing. -/
def rx : Regex where
  compiles := fun _ => true
  find := fun re s =>
    if re = b!"(a.)" then
      match s with
      | [97, c] => [[97, c], [97, c]]
      | _ => []
    else if re = b!"(b.)" then
      match s with
      | [98, c] => [[98, c], [98, c]]
      | _ => []
    else []

/-- a GET registration; the handler chain is a list of numbers -/
def get (uri : Str) (hs : List Nat) : Route Nat := { method := mGET, uri := uri, variant := [], handlers := hs }

/-- a POST registration -/
def post (uri : Str) (hs : List Nat) : Route Nat := { method := mPOST, uri := uri, variant := [], handlers := hs }

/-- build an engine and test it -/
def withEngine (st : Bool) (rs : List (Route Nat)) (p : Engine Nat → Bool) : Bool :=
  match mkEngine rx st [] rs with
  | .ok e => p e
  | .error _ => false

theorem withEngine_spec {st : Bool} {rs : List (Route Nat)} {p : Engine Nat → Bool} (h : withEngine st rs p = true) :
    ∃ e, mkEngine rx st [] rs = .ok e ∧ p e = true := by
  unfold withEngine at h
  cases hm : mkEngine rx st [] rs with
  | ok e => rw [hm] at h; exact ⟨e, rfl, h⟩
  | error er => rw [hm] at h; cases h

/-- the handlers a request runs -/
def run (e : Engine Nat) (m path : Str) : Option (List Nat) := (routeOf rx e m path).map (·.handlers)

/-- the FullPath a request reports -/
def full (e : Engine Nat) (m path : Str) : Option Str := (routeOf rx e m path).map (·.uri)

/-- a parameter of a request -/
def param (e : Engine Nat) (m path x : Str) : Option Str := (paramsOf rx e m path).bind (fun ps => ps x)

end Water.Demo
