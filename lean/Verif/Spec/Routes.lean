import Verif.Model.Engine
import Verif.Spec.Table
/-
Specification side of the engine: the registrations made for one method, as a table of cut patterns.
-/
namespace Water.Spec
open Water
variable {α : Type}

/-- The registrations for a method, in registration order, cut into segments. -/
def tableFor (m : Str) (rs : List (Route α)) : List (Entry α) :=
  (rs.filter (fun v => v.method = m)).map (fun v => ⟨routeSegs v.uri, v.handlers, v.uri⟩)

/-- A registered route accepts a request path. -/
def RouteAccepts (rx : Regex) (v : Route α) (path : Str) : Prop :=
  Accepts rx (routeSegs v.uri) (pathSegs path)

/-- No two registrations with the same method and path. -/
def NoDouble (rs : List (Route α)) : Prop := rs.Pairwise (fun a b => ¬ (a.method = b.method ∧ a.uri = b.uri))

/-- A path is `/` or `/s1/../sn` with non-empty `si`. -/
def Plain (uri : Str) : Prop := uri = [slash] ∨ ∃ l : List Str, l ≠ [] ∧ splitB slash uri = [] :: l ∧ ∀ s ∈ l, s ≠ []

end Water.Spec
