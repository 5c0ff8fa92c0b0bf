import Verif.Spec.Response
/- Specification for C161: answers with at most one status line, and handlers that use `ctx.ResponseWriter` after a status line was sent. -/
namespace Water.Spec
open Water
variable {ω : Type}

/-- body bytes -/
def isBody : WEvent → Bool
  | .body _ => true
  | .status _ _ _ => false

/-- What was sent without the status lines after the first, which net/http ignores. -/
def firstStatus : List WEvent → List WEvent
  | [] => []
  | x :: xs => x :: xs.filter isBody

/-- After the call a status line has been sent. -/
def answers : Call ω → Bool
  | .writeHeader _ => true
  | .write _ => true
  | .rawWriteHeader _ => true
  | .rawWrite _ => true
  | _ => false

/-- Code that sends valid status codes only and writes to `ctx.ResponseWriter` only after it has sent a status line (`b`: it has). -/
def StatusFirst (bad : Int → Bool) : Bool → Prog ω → Prop
  | _, .ret => True
  | _, .panic _ => True
  | b, .next k => StatusFirst bad b k
  | b, .call c k => ValidCode bad c ∧ (b = true ∨ ∀ d, c ≠ .rawWrite d) ∧ ∀ r, StatusFirst bad (b || answers c) (k r)
  | b, .scope body fin => StatusFirst bad b body ∧ ∀ r, StatusFirst bad b (fin r)

end Water.Spec
