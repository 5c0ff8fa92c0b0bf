import Verif.Model.Render
/- What an application in a process may expect of the others. -/
namespace Water.Spec
open Water
variable {ω δ : Type}

/-- the results for one application -/
def resultsOf (a : Nat) (rs : List (Nat × Out × St ω)) : List (Nat × Out × St ω) := rs.filter (fun r => r.1 == a)

/-- what one application does -/
def doneBy (a : Nat) (ops : List (ProcOp δ ω)) : List (ProcOp δ ω) := ops.filter (fun op => op.app == a)

/-- The render in use: the one that was set last, by whichever application, and the default one before that. -/
def InUse (before : List (ProcOp δ ω)) (g : Option (RenderCode δ ω)) : Prop :=
  (∃ b p q, before = p ++ .setRender b g :: q ∧ ∀ c r, .setRender c r ∉ q) ∨ ((∀ c r, .setRender c r ∉ before) ∧ g = some defaultRender)

end Water.Spec
