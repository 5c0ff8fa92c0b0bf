import Verif.Model.Mapping
import Verif.Spec.Binding
/-
Specification of the older mapper (`Bind2`): the name and the values of a field, the fields it comes to, what they hold after.
-/
namespace Water.Spec
open Water

/-- a type without the pointers in front of it -/
def bare : Ty → Ty
  | .ptr t => bare t
  | t => t

/-- what is behind all pointers -/
def under : Val → Val
  | .ptr v => under v
  | v => v

/-- The value at a path of field numbers; all pointers on the way are followed, what is behind a nil pointer is zero. -/
def reach : Val → List Nat → Val
  | v, [] => v
  | v, i :: p =>
    match under v with
    | .struct vs => reach ((vs[i]?).getD .zero) p
    | _ => .zero

/-- The name a field is looked up by: the first part of the tag, or the name of the field; a tag that is a dash hides it. -/
def lookupName (fd : Field) (tag : Str) : Option Str :=
  if fd.tag tag = b!"-" then none
  else
    match (tagParts fd tag).headD [] with
    | [] => if fd.name = [] then none else some fd.name
    | n => some n

/-- The uploaded files for a field. -/
def givenFiles (src : Source) (tag : Str) (fd : Field) : Option (List Nat) :=
  (lookupName fd tag).bind fun n => (src.files.at n).filter (fun fs => fs ≠ [])

/-- The texts for a field: those of its name in the form, or else its default; uploaded files go first. -/
def given (src : Source) (tag : Str) (fd : Field) : Option (List Str) :=
  if givenFiles src tag fd ≠ none then none
  else
    (lookupName fd tag).bind fun n =>
      match src.form.at (if src.header then canonKey n else n) with
      | some vs => some vs
      | none => (bindDefault fd tag).map (fun d => [d])

/-- Nothing is said about the field. -/
def Silent (src : Source) (tag : Str) (fd : Field) : Prop := given src tag fd = none ∧ givenFiles src tag fd = none

/-- The fields of struct type `n` with value `v` that the mapper comes to, directly or inside others, with the value before: it
walks into structs and through pointers to structs, if they are embedded or nothing is said about them as a whole. -/
inductive Reaches (E : TyEnv) (src : Source) (tag : Str) : Nat → Val → List Nat → Field → Val → Prop where
  | here {n : Nat} {v : Val} {i : Nat} {fd : Field} {x : Val} : (E n)[i]? = some fd →
      (fieldVals (E n).length v)[i]? = some x → Visible fd → fd.tag tag ≠ b!"-" → Reaches E src tag n v [i] fd x
  | inside {n : Nat} {v : Val} {i : Nat} {fd : Field} {x : Val} {m : Nat} {p : List Nat} {fd' : Field} {z : Val} :
      (E n)[i]? = some fd → (fieldVals (E n).length v)[i]? = some x → Visible fd → fd.tag tag ≠ b!"-" →
      bare fd.ty = .struct m → (fd.anonymous = true ∨ Silent src tag fd) →
      Reaches E src tag m (under x) p fd' z → Reaches E src tag n v (i :: p) fd' z

/-- The fields the mapper passes by, in the structs it comes to: unexported ones that are not embedded, and those hidden by a
dash. -/
inductive Passes (E : TyEnv) (src : Source) (tag : Str) : Nat → Val → List Nat → Field → Val → Prop where
  | here {n : Nat} {v : Val} {i : Nat} {fd : Field} {x : Val} : (E n)[i]? = some fd →
      (fieldVals (E n).length v)[i]? = some x → (¬ Visible fd ∨ fd.tag tag = b!"-") → Passes E src tag n v [i] fd x
  | inside {n : Nat} {v : Val} {i : Nat} {fd : Field} {x : Val} {m : Nat} {p : List Nat} {fd' : Field} {z : Val} :
      (E n)[i]? = some fd → (fieldVals (E n).length v)[i]? = some x → Visible fd → fd.tag tag ≠ b!"-" →
      bare fd.ty = .struct m → (fd.anonymous = true ∨ Silent src tag fd) →
      Passes E src tag m (under x) p fd' z → Passes E src tag n v (i :: p) fd' z

/-- A field that takes a value of its own: not an embedded struct. -/
def Valued (fd : Field) : Prop := fd.anonymous = true → (bare fd.ty).isStruct = false

/-- An exported field that takes a value of its own. -/
def Own (fd : Field) : Prop := fd.exported = true ∧ Valued fd

/-- Integer types of 2 to 64 bits; Go has 8, 16, 32 and 64. -/
def Sized2 : Ty → Prop
  | .int bits => 2 ≤ bits ∧ bits ≤ 64
  | .uint bits => bits ≤ 64
  | .ptr t => Sized2 t
  | .slice t => Sized2 t
  | .array _ t => Sized2 t
  | _ => True

/-- A text makes a value of type `t` out of an old one. Numbers are those written, and fit the type. -/
inductive Exact (o : BOracle) (fd : Field) : Ty → Str → Val → Val → Prop where
  | int {bits : Nat} {s : Str} {v : Val} {i : Int} : NumberOf s i → FitsInt bits i → Exact o fd (.int bits) s v (.int i)
  | uint {bits : Nat} {s : Str} {v : Val} {n : Nat} : NaturalOf s n → n < 2 ^ bits → Exact o fd (.uint bits) s v (.uint n)
  | bool {s : Str} {v : Val} {b : Bool} : BoolOf s b → Exact o fd .bool s v (.bool b)
  | duration {s : Str} {v : Val} {i : Int} : o.duration s = some i → Exact o fd .duration s v (.int i)
  | float {bits : Nat} {s : Str} {v : Val} {id : Nat} : o.float bits (if s = [] then b!"0.0" else s) = some id →
      Exact o fd (.float bits) s v (.opaque id)
  | string {s : Str} {v : Val} : Exact o fd .string s v (.string s)
  | time {s : Str} {v : Val} {t : TimeV} : TimeOf o fd s t → Exact o fd .time s v (.time t)
  | json {t : Ty} {s : Str} {v w : Val} : (t = .file ∨ (∃ n, t = .struct n) ∨ ∃ k e, t = .map k e) → o.json t s v = (none, w) →
      Exact o fd t s v w

/-- element `i` of an array -/
def element (v : Val) (i : Nat) : Val :=
  match v with
  | .slice vs => (vs[i]?).getD .zero
  | _ => .zero

/-- Texts make a value of type `t` out of an old one: a slice gets one element for each text, an array needs as many texts
as it has elements, and everything else takes the first text. -/
inductive Fills (o : BOracle) (fd : Field) : Ty → List Str → Val → Val → Prop where
  | one {t : Ty} {ss : List Str} {v w : Val} : (∀ el, t ≠ .slice el) → (∀ n el, t ≠ .array n el) →
      Exact o fd t (ss.headD []) v w → Fills o fd t ss v w
  | slice {el : Ty} {ss : List Str} {v : Val} {ws : List Val} : ws.length = ss.length →
      (∀ (i : Nat) s w, ss[i]? = some s → ws[i]? = some w → Exact o fd el s .zero w) → Fills o fd (.slice el) ss v (.slice ws)
  | array {n : Nat} {el : Ty} {ss : List Str} {v : Val} {ws : List Val} : ss.length = n → ws.length = n →
      (∀ (i : Nat) s w, ss[i]? = some s → ws[i]? = some w → Exact o fd el s (element v i) w) →
      Fills o fd (.array n el) ss v (.slice ws)

/-- Uploaded files make a value of type `t`. -/
inductive FilledBy : Ty → List Nat → Val → Prop where
  | pointer {f : Nat} {fs : List Nat} : FilledBy (.ptr .file) (f :: fs) (.ptr (.file f))
  | value {f : Nat} {fs : List Nat} : FilledBy .file (f :: fs) (.file f)
  | slice {el : Ty} {fs : List Nat} {ws : List Val} : ws.length = fs.length →
      (∀ (i : Nat) f w, fs[i]? = some f → ws[i]? = some w → FilledBy el [f] w) → FilledBy (.slice el) fs (.slice ws)
  | array {n : Nat} {el : Ty} {fs : List Nat} {ws : List Val} : fs.length = n → ws.length = n →
      (∀ (i : Nat) f w, fs[i]? = some f → ws[i]? = some w → FilledBy el [f] w) → FilledBy (.array n el) fs (.slice ws)

/-- What is said about a field makes a value of type `t` out of an old one: files, or else texts. -/
inductive Takes (o : BOracle) (src : Source) (tag : Str) (fd : Field) (t : Ty) (v : Val) : Val → Prop where
  | files {fs : List Nat} {w : Val} : givenFiles src tag fd = some fs → FilledBy t fs w → Takes o src tag fd t v w
  | texts {ss : List Str} {w : Val} : given src tag fd = some ss → Fills o fd t ss v w → Takes o src tag fd t v w

/-- A type whose value is replaced as a whole or not at all: neither decoded from JSON, nor an array that gets as many texts or
files as it has elements. -/
def Whole (src : Source) (tag : Str) (fd : Field) : Ty → Prop
  | .struct _ | .file | .map _ _ => False
  | .array k _ => (∀ ss, given src tag fd = some ss → ss.length ≠ k) ∧ ∀ fs, givenFiles src tag fd = some fs → fs.length ≠ k
  | _ => True

end Water.Spec
