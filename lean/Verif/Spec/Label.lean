import Verif.Spec.Response
/- What a response is shown as to the client (C115), as net/http of Go 1.15 finishes it. -/
namespace Water.Spec

/-- the codes whose responses have no body (net/http transfer.go, `bodyAllowedForStatus`) -/
def Bodiless (c : Int) : Prop := (100 ≤ c ∧ c ≤ 199) ∨ c = 204 ∨ c = 304

instance (c : Int) : Decidable (Bodiless c) := inferInstanceAs (Decidable (_ ∨ _))

/-- The Content-Type of the response (net/http server.go, `chunkWriter.writeHeader`): the one that was in the header when the status was
sent; if there was no such entry, and neither Content-Encoding nor Transfer-Encoding was set, what `detect` makes of the first 512 bytes
of the body, if there is one. -/
def label (detect : Str → Str) (log : List WEvent) : Option Str :=
  match received log, receivedHeader log with
  | some c, some h =>
    match h b!"Content-Type" with
    | some vs => vs.head?
    | none =>
      if Bodiless c ∨ h.get b!"Content-Encoding" ≠ [] ∨ h.get b!"Transfer-Encoding" ≠ [] ∨ receivedBody log = [] then none
      else some (detect ((receivedBody log).take 512))
  | _, _ => none

end Water.Spec
