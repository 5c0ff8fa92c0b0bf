import Verif.Model.Binding
/-
Specification of map targets and of validation.
-/
namespace Water.Spec
open Water

/-- A form is a map: no name occurs twice. -/
def Names (form : Form) : Prop := (form.map Prod.fst).Nodup

mutual
/-- valid for the validator: structs as `check` says, lists if all elements are; nil is not -/
def Valid (check : Nat → Option Nat) : VObj → Prop
  | .nil => False
  | .nilPtr => True
  | .ptr v => Valid check v
  | .struct id => check id = none
  | .list vs => AllValid check vs
  | .other => True
/-- all elements are valid -/
def AllValid (check : Nat → Option Nat) : List VObj → Prop
  | [] => True
  | v :: vs => Valid check v ∧ AllValid check vs
end

mutual
/-- no nil pointer anywhere -/
def NoNil : VObj → Prop
  | .nilPtr => False
  | .ptr v => NoNil v
  | .list vs => NoNils vs
  | _ => True
/-- no nil pointer in any element -/
def NoNils : List VObj → Prop
  | [] => True
  | v :: vs => NoNil v ∧ NoNils vs
end

/-- a line of a slice error: the index in brackets, then the text -/
def line (i : Nat) (text : Str) : Str := b!"[" ++ itoaNat i ++ b!"]: " ++ text

end Water.Spec
