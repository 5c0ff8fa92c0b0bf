import Verif.Spec.Routes
/- Specification of the choice among the registrations that accept a path. -/
namespace Water.Spec
open Water
variable {α : Type}

/-- The pattern `r` is the best one for the path: it is registered, accepts the path, and wins against every other registered
pattern that does. -/
def Best (rx : Regex) (tbl : List (Entry α)) (ss r : List Str) : Prop :=
  (∃ x ∈ tbl, x.segs = r) ∧ Accepts rx r ss ∧ ∀ x ∈ tbl, Accepts rx x.segs ss → x.segs = r ∨ Wins tbl ss.length r x.segs

/-- The registered route a path is served by, if any: its handlers are those of the first registration of the best pattern, its path
the one written in the last. No tree is involved. -/
def Chosen (rx : Regex) (tbl : List (Entry α)) (ss : List Str) (h : List α) (u : Str) : Prop :=
  ∃ r, Best rx tbl ss r ∧ FirstHandlers tbl r h ∧ LastUri tbl r u

end Water.Spec
