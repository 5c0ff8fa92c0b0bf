import Verif.Model.Context
/- The report that `Recovery` makes of a panic. -/
namespace Water

/-- The text `content` (m_recovery.go:17-29): `msg` is the panic value as `%v` shows it, `frames` are the files and lines that `runtime.Caller`
gives. -/
def crashReport (frames : List (Str × Nat)) (msg : Str) : Str :=
  b!"HandlerFunc crashed with error: " ++ msg ++ frames.flatMap (fun f => b!"\n" ++ (f.1 ++ b!" " ++ itoaNat f.2))

end Water
