import Verif.Spec.HeaderTrip
import Verif.Spec.Chain
import Verif.Spec.Util
import Verif.Spec.Register
import Verif.Model.Context
/-
How a client reads the head of an answer (RFC 7230), and the handlers that choose the names of header fields with care.
-/
namespace Water.Spec
open Water

/-- The end of a line; a client may do without the carriage return (RFC 7230 section 3.5). -/
def LineEnd (e : Str) : Prop := e = b!"\r\n" ∨ e = b!"\n"

/-- `ReadsFields t fs rest`: the text `t` can be read as header lines with the fields `fs`, an empty line, and `rest` behind it. The blanks
around a value, and a carriage return at the end of its line, do not belong to it. -/
inductive ReadsFields : Str → List (Str × Str) → Str → Prop where
  | done {e : Str} (rest : Str) : LineEnd e → ReadsFields (e ++ rest) [] rest
  | line {name v e t : Str} {fs : List (Str × Str)} {rest : Str} :
      Token name → 10 ∉ v → LineEnd e → ReadsFields t fs rest → ReadsFields (name ++ b!":" ++ v ++ e ++ t) ((name, stripped v) :: fs) rest

/-- `ReadsAnswer t code fs rest`: the text `t` can be read as an answer with this status and these fields, and `rest` behind its head. -/
def ReadsAnswer (t code : Str) (fs : List (Str × Str)) (rest : Str) : Prop :=
  ∃ reason e t', 10 ∉ reason ∧ LineEnd e ∧ t = b!"HTTP/1.1 " ++ code ++ b!" " ++ reason ++ e ++ t' ∧ 10 ∉ code ∧ 32 ∉ code ∧ ReadsFields t' fs rest

/-- All names in a header are names of fields. -/
def Named (h : Header) : Prop := ∀ k, h k ≠ none → Token k

/-- A call that puts into the header only names of fields; the values may be any text. -/
def NamesWell {ω : Type} : Call ω → Prop
  | .setHeader k _ => Token k
  | .header f => ∀ h, Named h → Named (f h).1
  | _ => True

/-- fields that net/http adds itself -/
def addedFields : List Str := [b!"Date", b!"Content-Length", b!"Content-Type", b!"Connection", b!"Transfer-Encoding"]

/-- Lines that net/http may send for a header: values of its fields, and fields that it adds, in any order. -/
def LinesOf (h : Header) (lines : List (Str × Str)) : Prop :=
  ∀ l ∈ lines, (∃ vs, h l.1 = some vs ∧ l.2 ∈ vs) ∨ l.1 ∈ addedFields

/-- A handler that was given to the application: with `Before`, `Use`, a registration, or as a not-found handler. -/
def HandedTo {ω : Type} (ops : List (Op (Prog ω))) (opts : List (Opt (Prog ω))) (v : HVal (Prog ω)) : Prop :=
  (∃ r, v ∈ beforesOf ops r) ∨ (∃ k, v ∈ usesOf ops k) ∨ (∃ k, v ∈ handlersOf ops k) ∨ ∃ given, noFoundGiven opts = some given ∧ v ∈ given

end Water.Spec
