import Verif.Model.ServeFile
import Verif.Spec.Response
/-
`ctx.File` and `ctx.ServeFile`: what C136 is about. Nothing of this is in /repo.
-/
namespace Water.Spec
open Water
variable {ω : Type}

/-- What the client is clientGets: status, header and body. -/
def clientGets (log : List WEvent) : Option Int × Option Header × Str := (received log, receivedHeader log, receivedBody log)

/-- If the context says that something was written, or something was sent, then there is a status for the client. -/
def Orderly (s : St ω) : Prop := s.ctx.written = true ∨ s.rw.log ≠ [] → received s.rw.log ≠ none

/-- nothing was sent yet -/
def Unsent (s : St ω) : Prop := s.ctx.written = false ∧ s.rw.log = []

/-- net/http accepts the codes from 100 to 999 -/
def AcceptsCodes (o : Oracle) : Prop := ∀ c : Int, 100 ≤ c → c ≤ 999 → o.bad c = false

end Water.Spec
