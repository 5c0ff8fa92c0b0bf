import Verif.Spec.Files
/- Specification of cleaned paths: two paths that lead to the same place, from everywhere. -/
namespace Water.Spec
open Water

/-- A name a directory entry can have. -/
structure FileName (e : Str) : Prop where
  some : e ≠ []
  flat : slash ∉ e
  self : e ≠ b!"."
  up : e ≠ b!".."

/-- The two paths lead to the same place from every working directory (without symbolic links). -/
def SamePlace (p q : Str) : Prop := ∀ cwd : List Str, (∀ e ∈ cwd, FileName e) → walk cwd p = walk cwd q

end Water.Spec
