import Verif.Model.Binding
import Verif.Spec.Number
import Verif.Spec.Text
/-
Specification of form binding: what a tag says, which fields of a nested struct binding visits, where their values are.
-/
namespace Water.Spec
open Water

/-! ### tags -/

/-- The comma separated parts of a tag. -/
def tagParts (fd : Field) (tag : Str) : List Str := splitB 44 (fd.tag tag)

/-- The name a field is bound to: the first part; nothing if that is empty or a dash. Header names are canonical. -/
def bindName (fd : Field) (tag : Str) : Option Str :=
  let n := (tagParts fd tag).headD []
  if n = [] ∨ n = b!"-" then none
  else if tag = b!"header" then some (canonKey n)
  else some n

/-- `default=x` -/
def defaultPart (p : Str) : Option Str :=
  if p.takeWhile (· != 61) = b!"default" then some ((p.dropWhile (· != 61)).drop 1) else none

/-- The default of a tag: its last option of the form `default=x`; the empty string is no default. -/
def bindDefault (fd : Field) (tag : Str) : Option Str :=
  match (((tagParts fd tag).tail.filterMap defaultPart).getLast?).getD [] with
  | [] => none
  | d => some d

/-- The values for a field: those of its name in the form, or else its default. -/
def input (form : Form) (tag : Str) (fd : Field) : Option (List Str) :=
  (bindName fd tag).bind fun n =>
    match form.at n with
    | some vs => some vs
    | none => (bindDefault fd tag).map (fun d => [d])

/-- Neither form nor files nor a default say anything about the field. -/
def Quiet (form : Form) (files : FormFiles) (tag : Str) (fd : Field) : Prop :=
  input form tag fd = none ∧ ∀ n, bindName fd tag = some n → files.at n = none

/-! ### nested fields -/

/-- follow a pointer -/
def deref : Val → Val
  | .ptr v => v
  | v => v

/-- The value at a path of field numbers; pointers to structs are followed, what is in a zero value is zero. -/
def get : Val → List Nat → Val
  | v, [] => v
  | v, i :: p =>
    match deref v with
    | .struct vs => get ((vs[i]?).getD .zero) p
    | _ => .zero

/-- Binding looks at a field if it is exported or embedded. -/
def Visible (fd : Field) : Prop := fd.exported = true ∨ fd.anonymous = true

/-- Binding walks through a field with value `x` into the struct type `m` with value `y`: a struct, a nil pointer to a
struct, or an embedded pointer to a struct. -/
inductive Enters (fd : Field) : Val → Nat → Val → Prop where
  | value {m : Nat} {x : Val} : Visible fd → fd.ty = .struct m → (∀ y, x ≠ .ptr y) → Enters fd x m x
  | alloc {m : Nat} : fd.exported = true → fd.ty = .ptr (.struct m) → Enters fd .zero m .zero
  | embedded {m : Nat} {y : Val} : fd.anonymous = true → fd.ty = .ptr (.struct m) → (∀ w, y ≠ .ptr w) → Enters fd (.ptr y) m y

/-- The fields of struct type `n` with value `v` that binding comes to, directly or inside other fields: path, field, and
value before. Each enclosing field satisfies `Q`. -/
inductive Occurs (E : TyEnv) (Q : Field → Prop) : Nat → Val → List Nat → Field → Val → Prop where
  | here {n : Nat} {v : Val} {i : Nat} {fd : Field} {x : Val} : (E n)[i]? = some fd →
      (fieldVals (E n).length v)[i]? = some x → Occurs E Q n v [i] fd x
  | inside {n : Nat} {v : Val} {i : Nat} {fd : Field} {x : Val} {m : Nat} {y : Val} {p : List Nat} {fd' : Field} {z : Val} :
      (E n)[i]? = some fd → (fieldVals (E n).length v)[i]? = some x → Q fd → Enters fd x m y →
      Occurs E Q m y p fd' z → Occurs E Q n v (i :: p) fd' z

/-- A value belongs to a type, as far as binding looks into it. -/
inductive HasTy (E : TyEnv) : Ty → Val → Prop where
  | zero {t : Ty} : HasTy E t .zero
  | struct {n : Nat} {vs : List Val} : vs.length = (E n).length →
      (∀ (i : Nat) (fd : Field) (x : Val), (E n)[i]? = some fd → vs[i]? = some x → HasTy E fd.ty x) → HasTy E (.struct n) (.struct vs)
  | ptr {t : Ty} {v : Val} : HasTy E t v → HasTy E (.ptr t) (.ptr v)
  | plain {t : Ty} {v : Val} : (∀ n, t ≠ .struct n) → (∀ t', t ≠ .ptr t') → (∀ w, v ≠ .ptr w) → HasTy E t v

/-- An exported field that is bound itself: not embedded, and not a struct that binding walks through. -/
def Scalar (fd : Field) : Prop :=
  fd.exported = true ∧ fd.anonymous = false ∧
  match fd.ty with
  | .struct _ | .file | .ptr (.struct _) | .ptr .time => False
  | _ => True

/-- An embedded field that binding can deal with: a struct, or an exported pointer to a struct or time. -/
def Embeddable (fd : Field) : Prop :=
  match fd.ty with
  | .struct _ | .time | .file => True
  | .ptr (.struct _) | .ptr .time => fd.exported = true
  | _ => False

/-- One path comes before another: at the first difference the field number is smaller. -/
def Sooner (p q : List Nat) : Prop := ∃ c i j p' q', p = c ++ i :: p' ∧ q = c ++ j :: q' ∧ i < j

/-- One field is treated before another: it precedes it, or is inside it. -/
def Earlier (p q : List Nat) : Prop := Sooner p q ∨ ∃ i r, p = q ++ i :: r

/-! ### numbers and booleans -/

/-- the number a text stands for; no text is 0 -/
def NumberOf (s : Str) (i : Int) : Prop := Signed s i ∨ (s = [] ∧ i = 0)
/-- an unsigned number; no text is 0 -/
def NaturalOf (s : Str) (n : Nat) : Prop := (Numeral s ∧ value s = n) ∨ (s = [] ∧ n = 0)
/-- the texts for true and false -/
def BoolOf (s : Str) (b : Bool) : Prop :=
  (b = true ∧ s ∈ [b!"1", b!"t", b!"T", b!"true", b!"TRUE", b!"True"]) ∨
  (b = false ∧ s ∈ [b!"0", b!"f", b!"F", b!"false", b!"FALSE", b!"False", []])
/-- fits a signed type of the given width -/
def FitsInt (bits : Nat) (i : Int) : Prop := - (2 ^ (bits - 1) : Int) ≤ i ∧ i < 2 ^ (bits - 1)
/-- the boolean in a field -/
def truth : Val → Bool
  | .bool b => b
  | _ => false

/-! ### one field -/

/-- the layout of a time field -/
def layout (fd : Field) : Str := if fd.tag b!"time_format" = [] then b!"2006-01-02T15:04:05Z07:00" else fd.tag b!"time_format"
/-- the place of a time field: a named one, or UTC (`true`), or local -/
inductive Place (fd : Field) : Option Bool × Str → Prop where
  | named : fd.tag b!"time_location" ≠ [] → Place fd (none, fd.tag b!"time_location")
  | utc : fd.tag b!"time_location" = [] → BoolOf (fd.tag b!"time_utc") true → Place fd (some true, [])
  | local : fd.tag b!"time_location" = [] → ¬ BoolOf (fd.tag b!"time_utc") true → Place fd (some false, [])

/-- The time a text stands for in a time field. -/
inductive TimeOf (o : BOracle) (fd : Field) : Str → TimeV → Prop where
  | unix {s : Str} {i : Int} : ReadsSmall b!"unix" (layout fd) → Signed s i → FitsInt 64 i → TimeOf o fd s (.unix i 0)
  | nano {s : Str} {i : Int} : ReadsSmall b!"unixnano" (layout fd) → Signed s i → FitsInt 64 i →
      TimeOf o fd s (.unix (i.tdiv 1000000000) (i.tmod 1000000000))
  | none : ¬ ReadsSmall b!"unix" (layout fd) → ¬ ReadsSmall b!"unixnano" (layout fd) → TimeOf o fd [] .zero
  | parsed {s : Str} {l : Option Bool × Str} {id : Nat} : ¬ ReadsSmall b!"unix" (layout fd) →
      ¬ ReadsSmall b!"unixnano" (layout fd) → s ≠ [] →
      Place fd l → (fd.tag b!"time_location" ≠ [] → o.location (fd.tag b!"time_location") = true) →
      o.parseTime (layout fd) s l = some id → TimeOf o fd s (.parsed id)

/-- A text makes a value of type `t` (not a pointer) out of an old one. Integers keep their low bits; a false boolean
leaves the old value. -/
inductive Conv (o : BOracle) (fd : Field) : Ty → Str → Val → Val → Prop where
  | int {bits : Nat} {s : Str} {v : Val} {i j : Int} : NumberOf s i → FitsInt 64 i → FitsInt bits j → (2 ^ bits : Int) ∣ i - j →
      Conv o fd (.int bits) s v (.int j)
  | uint {bits : Nat} {s : Str} {v : Val} {n : Nat} : NaturalOf s n → n < 2 ^ 64 → Conv o fd (.uint bits) s v (.uint (n % 2 ^ bits))
  | duration {s : Str} {v : Val} {i : Int} : NumberOf s i → FitsInt 64 i → Conv o fd .duration s v (.int i)
  | yes {s : Str} {v : Val} : BoolOf s true → Conv o fd .bool s v (.bool true)
  | no {s : Str} {v : Val} : BoolOf s false → Conv o fd .bool s v v
  | float {bits : Nat} {s : Str} {v : Val} {id : Nat} : o.float bits (if s = [] then b!"0.0" else s) = some id →
      Conv o fd (.float bits) s v (.opaque id)
  | string {s : Str} {v : Val} : Conv o fd .string s v (.string s)
  | time {s : Str} {v : Val} {t : TimeV} : TimeOf o fd s t → Conv o fd .time s v (.time t)
  | json {t : Ty} {s : Str} {v w : Val} : (t = .file ∨ (∃ n, t = .struct n) ∨ ∃ k e, t = .map k e) → o.json t s v = (none, w) →
      Conv o fd t s v w

/-- The same for any type: a pointer is allocated if it was nil. -/
inductive ConvP (o : BOracle) (fd : Field) : Ty → Str → Val → Val → Prop where
  | value {t : Ty} {s : Str} {v w : Val} : (∀ t', t ≠ .ptr t') → Conv o fd t s v w → ConvP o fd t s v w
  | ptr {t : Ty} {s : Str} {v w : Val} : Conv o fd t s v w → ConvP o fd (.ptr t) s (.ptr v) (.ptr w)
  | alloc {t : Ty} {s : Str} {v w : Val} : (∀ v', v ≠ .ptr v') → Conv o fd t s .zero w → ConvP o fd (.ptr t) s v (.ptr w)

/-- A field can be set, and to what. -/
inductive Sets (o : BOracle) (form : Form) (files : FormFiles) (tag : Str) (fd : Field) : Ty → Val → Val → Prop where
  | quiet {t : Ty} {v : Val} : Quiet form files tag fd → Sets o form files tag fd t v v
  | value {t : Ty} {v w : Val} {s : Str} {ss : List Str} : input form tag fd = some (s :: ss) → (∀ el, t ≠ .slice el) →
      ConvP o fd t s v w → Sets o form files tag fd t v w
  | slice {el : Ty} {v : Val} {ss : List Str} {ws : List Val} : input form tag fd = some ss → ss ≠ [] →
      ws.length = ss.length → (∀ (i : Nat) s w, ss[i]? = some s → ws[i]? = some w → ConvP o fd el s .zero w) → Sets o form files tag fd (.slice el) v (.slice ws)
  | files {v : Val} {n : Str} {fs : List Nat} : input form tag fd = none → bindName fd tag = some n → files.at n = some fs → fs ≠ [] →
      Sets o form files tag fd (.slice (.ptr .file)) v (.slice (fs.map (fun f => .ptr (.file f))))
  | file {v : Val} {n : Str} {f : Nat} {fs : List Nat} : input form tag fd = none → bindName fd tag = some n →
      files.at n = some (f :: fs) → Sets o form files tag fd (.ptr .file) v (.ptr (.file f))

/-- Integer types have at least one bit. -/
def Sized : Ty → Prop
  | .int bits => 1 ≤ bits
  | .ptr t => Sized t
  | .slice t => Sized t
  | _ => True

end Water.Spec
