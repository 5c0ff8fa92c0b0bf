import Verif.Spec.Binding
import Verif.Spec.Url
/-
Writing a struct as a form: which structs can be sent, what a client sends for them, and when two values are the same Go value.
-/
namespace Water.Spec
open Water

/-! ### plain values: numbers, booleans, strings -/

/-- types sent as one text -/
def PlainTy : Ty → Prop
  | .int bits => 1 ≤ bits ∧ bits ≤ 64
  | .uint bits => bits ≤ 64
  | .bool => True
  | .string => True
  | _ => False

/-- the number in an integer value -/
def intIn : Val → Int
  | .int i => i
  | _ => 0
/-- the number in an unsigned value -/
def natIn : Val → Nat
  | .uint n => n
  | _ => 0
/-- the text in a string value -/
def textIn : Val → Str
  | .string s => s
  | _ => []
/-- the elements of a slice; a nil slice has none -/
def elemsIn : Val → List Val
  | .slice vs => vs
  | _ => []

/-- The value is written like one of the type: zero, or with the constructor of the type. -/
def Shaped : Ty → Val → Prop
  | _, .zero => True
  | .int _, .int _ => True
  | .uint _, .uint _ => True
  | .bool, .bool _ => True
  | .string, .string _ => True
  | .slice _, .slice _ => True
  | .struct _, .struct _ => True
  | _, _ => False

/-- The value belongs to the plain type. -/
def PlainVal (t : Ty) (v : Val) : Prop :=
  PlainTy t ∧ Shaped t v ∧
  match t with
  | .int bits => FitsInt bits (intIn v)
  | .uint bits => natIn v < 2 ^ bits
  | _ => True

/-- The text a client sends for a plain value. -/
def textFor : Ty → Val → Str
  | .int _, v => itoa (intIn v)
  | .uint _, v => itoaNat (natIn v)
  | .bool, v => if truth v then b!"true" else b!"false"
  | .string, v => textIn v
  | _, _ => []

/-- the value of an array of length `k`: zero, or its elements -/
def ShapedArray (k : Nat) (v : Val) : Prop := v = .zero ∨ ∃ vs, v = .slice vs ∧ vs.length = k

/-- The same value of a type: zero values may be written in several ways. -/
inductive SameVal (E : TyEnv) : Ty → Val → Val → Prop where
  | refl {t : Ty} {v : Val} : SameVal E t v v
  | int {bits : Nat} {v w : Val} : Shaped (.int bits) v → Shaped (.int bits) w → intIn v = intIn w → SameVal E (.int bits) v w
  | uint {bits : Nat} {v w : Val} : Shaped (.uint bits) v → Shaped (.uint bits) w → natIn v = natIn w → SameVal E (.uint bits) v w
  | bool {v w : Val} : Shaped .bool v → Shaped .bool w → truth v = truth w → SameVal E .bool v w
  | string {v w : Val} : Shaped .string v → Shaped .string w → textIn v = textIn w → SameVal E .string v w
  | ptr {t : Ty} {v w : Val} : SameVal E t v w → SameVal E (.ptr t) (.ptr v) (.ptr w)
  | slice {t : Ty} {v w : Val} : Shaped (.slice t) v → Shaped (.slice t) w → (elemsIn v).length = (elemsIn w).length →
      (∀ (i : Nat) a b, (elemsIn v)[i]? = some a → (elemsIn w)[i]? = some b → SameVal E t a b) → SameVal E (.slice t) v w
  | array {k : Nat} {t : Ty} {v w : Val} : ShapedArray k v → ShapedArray k w →
      (∀ i < k, SameVal E t ((elemsIn v)[i]?.getD .zero) ((elemsIn w)[i]?.getD .zero)) → SameVal E (.array k t) v w
  | struct {n : Nat} {v w : Val} : Shaped (.struct n) v → Shaped (.struct n) w →
      (fieldVals (E n).length v).length = (E n).length → (fieldVals (E n).length w).length = (E n).length →
      (∀ (i : Nat) fd a b, (E n)[i]? = some fd → (fieldVals (E n).length v)[i]? = some a →
        (fieldVals (E n).length w)[i]? = some b → SameVal E fd.ty a b) → SameVal E (.struct n) v w

/-! ### structs -/

/-- The field is neither exported nor embedded: binding does not look at it. -/
def Hidden (fd : Field) : Bool := !fd.exported && !fd.anonymous

/-- A field can be sent: hidden fields are zero; structs and pointers to structs have no name of their own and are sent field by
field; the others have a name, and those that can be missing from the form have no default. `inner` is the same for structs. -/
def FieldSendable (inner : Nat → Val → Prop) (tag : Str) (fd : Field) (x : Val) : Prop :=
  (Hidden fd = true ∧ x = .zero) ∨
  (fd.exported = true ∧
    match fd.ty with
    | .struct m => bindName fd tag = none ∧ inner m x
    | .ptr (.struct m) => bindName fd tag = none ∧ ∃ y, x = .ptr y ∧ inner m y
    | .slice t => fd.anonymous = false ∧ bindName fd tag ≠ none ∧ bindDefault fd tag = none ∧ Shaped (.slice t) x ∧ ∀ a ∈ elemsIn x, PlainVal t a
    | .ptr t => fd.anonymous = false ∧ bindName fd tag ≠ none ∧ bindDefault fd tag = none ∧ PlainTy t ∧
        (x = .zero ∨ ∃ y, x = .ptr y ∧ PlainVal t y)
    | t => fd.anonymous = false ∧ bindName fd tag ≠ none ∧ PlainVal t x)

/-- A struct value can be sent; `f` bounds the depth of nesting. -/
def Sendable (E : TyEnv) (tag : Str) : Nat → Nat → Val → Prop
  | 0, _, _ => False
  | f + 1, n, v => Shaped (.struct n) v ∧ (fieldVals (E n).length v).length = (E n).length ∧
      ∀ (i : Nat) fd x, (E n)[i]? = some fd → (fieldVals (E n).length v)[i]? = some x → FieldSendable (Sendable E tag f) tag fd x

/-- What is sent for a field. -/
def sendField (inner : Nat → Val → List (Str × Str)) (tag : Str) (fd : Field) (x : Val) : List (Str × Str) :=
  if Hidden fd then []
  else
    let name := (bindName fd tag).getD []
    match fd.ty, x with
    | .struct m, x => inner m x
    | .ptr (.struct m), .ptr y => inner m y
    | .ptr (.struct _), _ => []
    | .slice t, x => (elemsIn x).map (fun a => (name, textFor t a))
    | .ptr t, .ptr y => [(name, textFor t y)]
    | .ptr _, _ => []
    | t, x => [(name, textFor t x)]

/-- What is sent for a struct: the pairs of its fields, in order. -/
def send (E : TyEnv) (tag : Str) : Nat → Nat → Val → List (Str × Str)
  | 0, _, _ => []
  | f + 1, n, v => ((E n).zip (fieldVals (E n).length v)).flatMap (fun p => sendField (send E tag f) tag p.1 p.2)

/-- the names of a field -/
def fieldNames (inner : Nat → List Str) (tag : Str) (fd : Field) : List Str :=
  if Hidden fd then []
  else
    match fd.ty with
    | .struct m => inner m
    | .ptr (.struct m) => inner m
    | _ => (bindName fd tag).toList

/-- the names of a struct type, with those of the structs in it -/
def namesOf (E : TyEnv) (tag : Str) : Nat → Nat → List Str
  | 0, _ => []
  | f + 1, n => (E n).flatMap (fieldNames (namesOf E tag f) tag)

end Water.Spec
