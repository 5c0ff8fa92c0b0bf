import Verif.Spec.Compose
/- Handlers that refuse a request: they answer it and do not call `Next`. -/
namespace Water.Spec
open Water
variable {ω : Type}

/-- `P` is about a state and not about its position in a chain, and no call of a handler changes it. -/
def Lasting (o : Oracle) (req : Req) (P : St ω → Prop) : Prop :=
  (∀ s s', unchained s = unchained s' → P s → P s') ∧ ∀ s c, P s → P (doCall o req s c).2

/-- From a state with `P`, whatever comes after it, the code does not call `Next`, and if it returns there is a response. -/
def Refuses (o : Oracle) (req : Req) (P : St ω → Prop) (g : Prog ω) : Prop :=
  ∀ (next : St ω → Out × St ω) (s : St ω), P s →
    (asFunction o req next g false s).2.1 = false ∧
    ((asFunction o req next g false s).1 = .ret → (asFunction o req next g false s).2.2.ctx.written = true)

end Water.Spec
