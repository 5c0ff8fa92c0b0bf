import Verif.Spec.Link
import Verif.Spec.Values
/-
Structs in links.
-/
namespace Water.Spec
open Water

/-- The map with the parameters of a route that is given to `binding.Uri`: each parameter with its one value, in any order. -/
structure ParamsForm (ps : Map Str Str) (F : Form) : Prop where
  distinct : (F.map Prod.fst).Nodup
  each : ∀ k v, ps k = some v → (k, [v]) ∈ F
  only : ∀ e ∈ F, ∃ v, ps e.1 = some v ∧ e.2 = [v]

/-- In the link that is made of a pattern, `t` is the text in the place that is named `k`. -/
def LinkSays (p : LinkPattern) (env : Str → Str) (tail : List Str) (k t : Str) : Prop :=
  (k ∈ holesOf p.parts ∧ t = env k) ∨ ∃ x, p.rest = some x ∧ k = restKey x ∧ t = join [47] tail

end Water.Spec
