import Verif.Spec.Mapping
/-
Specification: when binding a struct comes to an end.
-/
namespace Water.Spec
open Water

/-- `Bind` goes down from a struct (type and value) to another one: through a field that it walks into. -/
def Down (E : TyEnv) (b a : Nat × Val) : Prop :=
  ∃ (i : Nat) (fd : Field) (x : Val), (E a.1)[i]? = some fd ∧ (fieldVals (E a.1).length a.2)[i]? = some x ∧ Enters fd x b.1 b.2

/-- `Bind2` goes down from a struct type to another one: through a field that is visible, not hidden by a dash, a struct or
pointers to one, and embedded or not mentioned as a whole. -/
def Leads (E : TyEnv) (src : Source) (tag : Str) (m n : Nat) : Prop :=
  ∃ fd ∈ E n, Visible fd ∧ fd.tag tag ≠ b!"-" ∧ bare fd.ty = .struct m ∧ (fd.anonymous = true ∨ Silent src tag fd)

/-- A struct type is within another one, at any depth, through visible fields that are structs or pointers to structs. -/
inductive Within (E : TyEnv) (n : Nat) : Nat → Prop where
  | refl : Within E n n
  | field {m k : Nat} {fd : Field} : Within E n m → fd ∈ E m → Visible fd → (fd.ty = .struct k ∨ fd.ty = .ptr (.struct k)) → Within E n k

/-- Embedding that `Bind` does not panic on: of a struct, or exported and of a pointer to a struct. -/
def Sound (fd : Field) : Prop :=
  fd.anonymous = true → (∃ m, fd.ty = .struct m) ∨ (fd.exported = true ∧ ∃ m, fd.ty = .ptr (.struct m))

end Water.Spec
