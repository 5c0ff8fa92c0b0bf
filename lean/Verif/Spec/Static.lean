import Verif.Spec.Choice
/- Specification of the dispatch with the static-route option. -/
namespace Water.Spec
open Water
variable {α : Type}

/-- The path is registered for the method, letter by letter, and all its segments are literals. -/
def StaticAt (rs : List (Route α)) (m path : Str) : Prop :=
  ∃ v ∈ rs, v.method = m ∧ v.uri = path ∧ ∀ p ∈ routeSegs v.uri, kind p = .literal

/-- The handlers and the full path a request is served with under the option: at a literal registration, those of its pattern; elsewhere
those of the best pattern. -/
def StaticChosen (rx : Regex) (rs : List (Route α)) (m path : Str) (h : List α) (u : Str) : Prop :=
  (StaticAt rs m path ∧ FirstHandlers (tableFor m rs) (routeSegs path) h ∧ LastUri (tableFor m rs) (routeSegs path) u) ∨
  (¬ StaticAt rs m path ∧ Chosen rx (tableFor m rs) (pathSegs path) h u)

end Water.Spec
