import Verif.Spec.Middleware
/- What Logger says about the body of a request. -/
namespace Water.Spec

/-- The text at the end of the log line: the first MiB of a JSON body on a line of its own, if bodies are logged. -/
def loggedText (withBody : Bool) (req : Req) (body : Option Str) : Str :=
  match body with
  | none => []
  | some d => if withBody && containsStr (req.header.get b!"Content-Type") b!"application/json" then b!"\n" ++ d.take (2 ^ 20) else []

end Water.Spec
