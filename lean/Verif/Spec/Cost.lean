import Verif.Model.Engine
/-
How much there is to search, told from the registered patterns alone.
-/
namespace Water.Spec
variable {α : Type}

/-- How many slashes the patterns registered for a method have together. -/
def slashesOf (m : Str) (rs : List (Route α)) : Nat :=
  ((rs.filter (fun v => v.method = m)).map (fun v => v.uri.count 47)).sum

end Water.Spec
