import Verif.Model.Engine
/-
C151: two applications that route alike, and the text of a listing.
-/
namespace Water
namespace Spec
variable {α β : Type}

/-- Every request is dispatched to the same path, with as many handlers and the same parameters, in both engines. -/
def RouteAlike (rx : Regex) (e : Engine α) (e' : Engine β) : Prop :=
  ∀ m path, (routeOf rx e m path).map (fun n => (n.uri, n.handlers.length)) = (routeOf rx e' m path).map (fun n => (n.uri, n.handlers.length)) ∧
    ∀ i, (lookup rx e i path).2 = (lookup rx e' i path).2

/-- What is written when each line is written with a line feed after it. -/
def written : List Str → Str
  | [] => []
  | l :: ls => l ++ 10 :: written ls

end Spec
end Water
