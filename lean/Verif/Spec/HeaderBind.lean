import Verif.Spec.Text
import Verif.Model.Binding
/-
What binding the header of a request is about: the values that were sent under a name, in any spelling, and fields that differ in the
spelling of their tags.
-/
namespace Water.Spec
open Water

/-- the values sent under the name `n`, in any spelling, in the order of the lines -/
inductive SentAs (n : Str) : List (Str × Str) → List Str → Prop where
  | nil : SentAs n [] []
  | same {k v : Str} {ls : List (Str × Str)} {vs : List Str} : SameHeader k n → SentAs n ls vs → SentAs n ((k, v) :: ls) (v :: vs)
  | other {k v : Str} {ls : List (Str × Str)} {vs : List Str} : ¬ SameHeader k n → SentAs n ls vs → SentAs n ((k, v) :: ls) vs

/-- the same lines, with the names in another spelling -/
inductive SameLines : List (Str × Str) → List (Str × Str) → Prop where
  | nil : SameLines [] []
  | cons {k k' v : Str} {ls ls' : List (Str × Str)} : SameHeader k k' → SameLines ls ls' → SameLines ((k, v) :: ls) ((k', v) :: ls')

/-- the tag of a field is this name, maybe with options after a comma -/
def Tagged (t name : Str) : Prop := 44 ∉ name ∧ ∃ rest, t = name ++ rest ∧ (rest = [] ∨ rest.head? = some 44)

/-- the field names this header -/
def NamesHeader (fd : Field) (name : Str) : Prop := Tagged (fd.tag b!"header") name ∧ name ≠ [] ∧ name ≠ b!"-"

/-- the two fields are the same, but for the spelling of the name in the header tag -/
structure Respelled (f g : Field) : Prop where
  name : g.name = f.name
  exported : g.exported = f.exported
  anonymous : g.anonymous = f.anonymous
  ty : g.ty = f.ty
  other : ∀ t, t ≠ b!"header" → g.tag t = f.tag t
  header : ∃ a b rest, 44 ∉ a ∧ SameHeader a b ∧ (rest = [] ∨ rest.head? = some 44) ∧
    f.tag b!"header" = a ++ rest ∧ g.tag b!"header" = b ++ rest

/-- the struct types of two programs that differ in the spelling of header tags only -/
inductive RespelledAll : List Field → List Field → Prop where
  | nil : RespelledAll [] []
  | cons {f g : Field} {fs gs : List Field} : Respelled f g → RespelledAll fs gs → RespelledAll (f :: fs) (g :: gs)

end Water.Spec
