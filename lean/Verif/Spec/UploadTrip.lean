import Verif.Spec.RoundTrip
/-
Writing a struct with files as a multipart form: which structs can be sent, which values and which files a client sends for them.
-/
namespace Water.Spec
open Water

/-- types that hold files: `*multipart.FileHeader` and slices of it -/
def isUpload : Ty → Bool
  | .ptr .file => true
  | .slice (.ptr .file) => true
  | _ => false

/-- The value holds a file. -/
def IsFile (v : Val) : Prop := ∃ k, v = .ptr (.file k)

/-- the file in a value -/
def fileIn : Val → Option Nat
  | .ptr (.file k) => some k
  | _ => none

/-- the files in a value, in order -/
def filesIn : Ty → Val → List Nat
  | .ptr .file, v => (fileIn v).toList
  | .slice (.ptr .file), v => (elemsIn v).filterMap fileIn
  | _, _ => []

/-- A field can be sent in a multipart form: fields that hold files have a name and no default, and no nil among the files of a slice;
the others are as in a plain form (`FieldSendable`). -/
def FieldUpload (inner : Nat → Val → Prop) (tag : Str) (fd : Field) (x : Val) : Prop :=
  if isUpload fd.ty then
    (Hidden fd = true ∧ x = .zero) ∨
    (fd.exported = true ∧ fd.anonymous = false ∧ bindName fd tag ≠ none ∧ bindDefault fd tag = none ∧
      match fd.ty with
      | .ptr _ => x = .zero ∨ IsFile x
      | t => Shaped t x ∧ ∀ a ∈ elemsIn x, IsFile a)
  else FieldSendable inner tag fd x

/-- A struct value can be sent in a multipart form; `f` bounds the depth of nesting. -/
def Uploadable (E : TyEnv) (tag : Str) : Nat → Nat → Val → Prop
  | 0, _, _ => False
  | f + 1, n, v => Shaped (.struct n) v ∧ (fieldVals (E n).length v).length = (E n).length ∧
      ∀ (i : Nat) fd x, (E n)[i]? = some fd → (fieldVals (E n).length v)[i]? = some x → FieldUpload (Uploadable E tag f) tag fd x

/-- The texts sent for a field. -/
def textsField (inner : Nat → Val → List (Str × Str)) (tag : Str) (fd : Field) (x : Val) : List (Str × Str) :=
  if isUpload fd.ty then [] else sendField inner tag fd x

/-- The files sent for a field. -/
def filesField (inner : Nat → Val → List (Str × Nat)) (tag : Str) (fd : Field) (x : Val) : List (Str × Nat) :=
  if Hidden fd then []
  else
    match fd.ty, x with
    | .struct m, x => inner m x
    | .ptr (.struct m), .ptr y => inner m y
    | t, x => (filesIn t x).map (fun k => ((bindName fd tag).getD [], k))

/-- The texts sent for a struct, in order. -/
def texts (E : TyEnv) (tag : Str) : Nat → Nat → Val → List (Str × Str)
  | 0, _, _ => []
  | f + 1, n, v => ((E n).zip (fieldVals (E n).length v)).flatMap (fun p => textsField (texts E tag f) tag p.1 p.2)

/-- The files sent for a struct, in order. -/
def uploads (E : TyEnv) (tag : Str) : Nat → Nat → Val → List (Str × Nat)
  | 0, _, _ => []
  | f + 1, n, v => ((E n).zip (fieldVals (E n).length v)).flatMap (fun p => filesField (uploads E tag f) tag p.1 p.2)

end Water.Spec
