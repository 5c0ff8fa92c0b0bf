import Verif.Spec.RoundTrip
import Verif.Spec.Mapping
/-
Writing a struct for the older mapper (`Bind2`): every field has a name, that of its tag or its own; pointers of any depth and
arrays can be sent; what is behind a nil pointer is not sent. The names of a header are made canonical.
-/
namespace Water.Spec
open Water

/-- The name a field is sent under. -/
def sentName (header : Bool) (fd : Field) (tag : Str) : Option Str :=
  (lookupName fd tag).map (fun n => if header then canonKey n else n)

/-- What is sent for a value of type `t` in the field `fd`; `f` bounds the depth. -/
def sendOld (E : TyEnv) (header : Bool) (tag : Str) : Nat → Ty → Field → Val → List (Str × Str)
  | 0, _, _, _ => []
  | f + 1, t, fd, x =>
    if fd.tag tag = b!"-" then []
    else
      let name := (sentName header fd tag).getD []
      match t, x with
      | .ptr t, .ptr y => sendOld E header tag f t fd y
      | .ptr _, _ => []
      | .struct n, x => ((E n).zip (fieldVals (E n).length x)).flatMap (fun p =>
          if Hidden p.1 then [] else sendOld E header tag f p.1.ty p.1 p.2)
      | .slice t, x => (elemsIn x).map (fun a => (name, textFor t a))
      | .array k t, x => (List.range k).map (fun i => (name, textFor t (element x i)))
      | t, x => [(name, textFor t x)]

/-- The names looked up for a field of type `t`, with those of the structs in it. A struct that is not embedded can be given as a
whole, under its own name. -/
def namesOld (E : TyEnv) (header : Bool) (tag : Str) : Nat → Ty → Field → List Str
  | 0, _, _ => []
  | f + 1, t, fd =>
    if fd.tag tag = b!"-" then []
    else
      match t with
      | .ptr t => namesOld E header tag f t fd
      | .struct n => (if fd.anonymous then [] else (sentName header fd tag).toList) ++
          (E n).flatMap (fun fd => if Hidden fd then [] else namesOld E header tag f fd.ty fd)
      | _ => (sentName header fd tag).toList

/-- No field of type `t`, and none in it, has a default. -/
def NoDefaults (E : TyEnv) (tag : Str) : Nat → Ty → Field → Prop
  | 0, _, _ => False
  | f + 1, t, fd =>
    fd.tag tag = b!"-" ∨
    match t with
    | .ptr t => NoDefaults E tag f t fd
    | .struct n => (fd.anonymous = true ∨ bindDefault fd tag = none) ∧ ∀ fd' ∈ E n, Hidden fd' = true ∨ NoDefaults E tag f fd'.ty fd'
    | .time | .file => fd.anonymous = true ∨ bindDefault fd tag = none
    | _ => bindDefault fd tag = none

/-- A value of type `t` in the field `fd` can be sent. Fields that are hidden or have the tag `-` are zero. A nil pointer needs a type
without defaults; for another pointer something must be sent. -/
def SendableOld (E : TyEnv) (header : Bool) (tag : Str) : Nat → Ty → Field → Val → Prop
  | 0, _, _, _ => False
  | f + 1, t, fd, x =>
    (fd.tag tag = b!"-" ∧ x = .zero) ∨
    (fd.tag tag ≠ b!"-" ∧
      match t with
      | .ptr t => (x = .zero ∧ NoDefaults E tag f t fd) ∨
          (fd.exported = true ∧ ∃ y, x = .ptr y ∧ SendableOld E header tag f t fd y ∧ sendOld E header tag f t fd y ≠ [])
      | .struct n => (fd.anonymous = true ∨ bindDefault fd tag = none) ∧ Shaped (.struct n) x ∧
          (fieldVals (E n).length x).length = (E n).length ∧
          ∀ (i : Nat) fd' y, (E n)[i]? = some fd' → (fieldVals (E n).length x)[i]? = some y →
            (Hidden fd' = true ∧ y = .zero) ∨ (Hidden fd' = false ∧ SendableOld E header tag f fd'.ty fd' y)
      | .slice t => fd.exported = true ∧ lookupName fd tag ≠ none ∧ bindDefault fd tag = none ∧ Sized2 t ∧ Shaped (.slice t) x ∧
          ∀ a ∈ elemsIn x, PlainVal t a
      | .array k t => fd.exported = true ∧ lookupName fd tag ≠ none ∧ 0 < k ∧ Sized2 t ∧ ShapedArray k x ∧
          ∀ i < k, PlainVal t (element x i)
      | t => fd.exported = true ∧ lookupName fd tag ≠ none ∧ Sized2 t ∧ PlainVal t x)

end Water.Spec
