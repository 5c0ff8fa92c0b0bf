import Verif.Model.Mapping
/-
Binding the parameters of a route: /repo/binding/uri.go.
-/
namespace Water

/-- `binding.Uri.Bind` (binding/uri.go:16-21) -/
def uriBind (o : BOracle) (E : TyEnv) (fuel : Nat) (check : Target → Option Nat) (obj : Target) (m : Form) : BOut × Target :=
  bindForm o E fuel check obj m [] b!"uri"

/-- `binding.Uri.Bind2` (binding/uri.go:9-14) into a struct -/
def uriBind2 (o : BOracle) (E : TyEnv) (fuel : Nat) (check : Val → Option Nat) (m : Form) (n : Nat) (v : Val) : BOut × Val :=
  bind2 o E fuel check ⟨m, [], false⟩ b!"uri" n v

end Water
