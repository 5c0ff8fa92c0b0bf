import Verif.Model.Body
/- What a body is to a reader. -/
namespace Water.Spec

/-- What a client sent, as far as it arrives, and how that ends: `none` means the text is complete. -/
def Arrives (b : Body) (text : Str) (fin : Option Str) : Prop :=
  b = .net text fin false ∨ b = .buf text ∧ fin = none

/-- The network always goes on some time. -/
def Live (q : Sched) : Prop := ∀ k, ∃ j, k ≤ j ∧ q.chunk j ≠ 0

end Water.Spec
