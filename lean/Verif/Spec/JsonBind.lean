import Verif.Model.JsonBind
import Verif.Spec.Binding
import Verif.Spec.BodyBind
/- Which values can be sent as JSON and read back into a variable. -/
namespace Water.Spec

/-- The field is never sent. -/
def NeverSent (fd : Field) : Prop := fd.exported = false ∨ fd.tag b!"json" = b!"-"

/-- The field is sent under the name; if `opt`, only with a value that is not empty. -/
def SentUnder (fd : Field) (k : Str) (opt : Bool) : Prop :=
  fd.exported = true ∧ fd.tag b!"json" ≠ b!"-" ∧
    ∃ name, (44 : UInt8) ∉ name ∧ fd.tag b!"json" = name ++ (if opt then b!",omitempty" else []) ∧ k = (if name = [] then fd.name else name)

/-- nil, 0, false, the empty string, a slice without elements -/
def EmptyV (v : Val) : Prop := v = .zero ∨ v = .int 0 ∨ v = .uint 0 ∨ v = .bool false ∨ v = .string [] ∨ v = .slice []

/-- No nil behind the pointers. -/
def Solid : Val → Prop
  | .zero => False
  | .ptr v => Solid v
  | _ => True

/-- The fields of a struct have different names in JSON, and tags without options other than `omitempty`; none is embedded. -/
def PlainFields (fds : List Field) : Prop :=
  (∀ fd ∈ fds, fd.anonymous = false ∧ (NeverSent fd ∨ ∃ k opt, SentUnder fd k opt)) ∧
  ∀ (i i' : Nat) fd fd' k b b', fds[i]? = some fd → fds[i']? = some fd' → SentUnder fd k b → SentUnder fd' k b' → i = i'

/-- The value of the type, in the second place, that can be sent and read back into a variable that holds the one in the first place:
numbers that fit, strings of characters, no pointers to nil; and what is not sent is there already. -/
inductive ReadBack (E : TyEnv) : Ty → Val → Val → Prop where
  | int {bits : Nat} {cur : Val} {i : Int} : 2 ≤ bits → bits ≤ 64 → FitsInt bits i → ReadBack E (.int bits) cur (.int i)
  | uint {bits : Nat} {cur : Val} {n : Nat} : bits ≤ 64 → n < 2 ^ bits → ReadBack E (.uint bits) cur (.uint n)
  | bool {cur : Val} {b : Bool} : ReadBack E .bool cur (.bool b)
  | string {cur : Val} {s : Str} : ValidUtf8 s → ReadBack E .string cur (.string s)
  | nilPtr {t : Ty} {cur : Val} : ReadBack E (.ptr t) cur .zero
  | ptr {t : Ty} {cur v : Val} : Solid v → ReadBack E t (behindPtr t cur) v → ReadBack E (.ptr t) cur (.ptr v)
  | nilSlice {t : Ty} {cur : Val} : ReadBack E (.slice t) cur .zero
  | slice {t : Ty} {cur : Val} {vs : List Val} : t ≠ .uint 8 →
      (∀ (i : Nat) v, vs[i]? = some v → ReadBack E t ((oldElems cur)[i]?.getD (blank t)) v) → ReadBack E (.slice t) cur (.slice vs)
  | struct {n : Nat} {cur : Val} {vs : List Val} : PlainFields (E n) → vs.length = (E n).length →
      (oldFields (E n) cur).length = (E n).length →
      (∀ (i : Nat) fd v, (E n)[i]? = some fd → vs[i]? = some v → (NeverSent fd ∨ ∃ k, SentUnder fd k true ∧ EmptyV v) →
        (oldFields (E n) cur)[i]? = some v) →
      (∀ (i : Nat) fd v w k opt, (E n)[i]? = some fd → vs[i]? = some v → (oldFields (E n) cur)[i]? = some w → SentUnder fd k opt →
        (opt = true → ¬ EmptyV v) → ReadBack E fd.ty w v) → ReadBack E (.struct n) cur (.struct vs)

/-- A value of a type; `zero` is the zero value of any. -/
inductive OfType (E : TyEnv) : Ty → Val → Prop where
  | zero {t : Ty} : OfType E t .zero
  | int {bits : Nat} {i : Int} : OfType E (.int bits) (.int i)
  | uint {bits n : Nat} : OfType E (.uint bits) (.uint n)
  | bool {b : Bool} : OfType E .bool (.bool b)
  | string {s : Str} : OfType E .string (.string s)
  | ptr {t : Ty} {v : Val} : OfType E t v → OfType E (.ptr t) (.ptr v)
  | slice {t : Ty} {vs : List Val} : (∀ (i : Nat) v, vs[i]? = some v → OfType E t v) → OfType E (.slice t) (.slice vs)
  | struct {n : Nat} {vs : List Val} : vs.length = (E n).length →
      (∀ (i : Nat) fd v, (E n)[i]? = some fd → vs[i]? = some v → OfType E fd.ty v) → OfType E (.struct n) (.struct vs)

/-- A value all of which is sent: every field has a name, and none is left out. -/
inductive AllSent (E : TyEnv) : Ty → Val → Prop where
  | int {bits : Nat} {i : Int} : 2 ≤ bits → bits ≤ 64 → FitsInt bits i → AllSent E (.int bits) (.int i)
  | uint {bits n : Nat} : bits ≤ 64 → n < 2 ^ bits → AllSent E (.uint bits) (.uint n)
  | bool {b : Bool} : AllSent E .bool (.bool b)
  | string {s : Str} : ValidUtf8 s → AllSent E .string (.string s)
  | nilPtr {t : Ty} : AllSent E (.ptr t) .zero
  | ptr {t : Ty} {v : Val} : Solid v → AllSent E t v → AllSent E (.ptr t) (.ptr v)
  | nilSlice {t : Ty} : AllSent E (.slice t) .zero
  | slice {t : Ty} {vs : List Val} : t ≠ .uint 8 → (∀ (i : Nat) v, vs[i]? = some v → AllSent E t v) → AllSent E (.slice t) (.slice vs)
  | struct {n : Nat} {vs : List Val} : PlainFields (E n) → vs.length = (E n).length →
      (∀ (i : Nat) fd v, (E n)[i]? = some fd → vs[i]? = some v → ¬ NeverSent fd ∧ ((∃ k, SentUnder fd k true) → ¬ EmptyV v)) →
      (∀ (i : Nat) fd v, (E n)[i]? = some fd → vs[i]? = some v → AllSent E fd.ty v) →
      AllSent E (.struct n) (.struct vs)

/-- A value of a type, written out: numbers fit, a struct shows all its fields, and nil is `zero`. -/
inductive ProperVal (E : TyEnv) : Ty → Val → Prop where
  | int {bits : Nat} {i : Int} : 2 ≤ bits → bits ≤ 64 → FitsInt bits i → ProperVal E (.int bits) (.int i)
  | uint {bits n : Nat} : bits ≤ 64 → n < 2 ^ bits → ProperVal E (.uint bits) (.uint n)
  | bool {b : Bool} : ProperVal E .bool (.bool b)
  | string {s : Str} : ProperVal E .string (.string s)
  | nilPtr {t : Ty} : ProperVal E (.ptr t) .zero
  | ptr {t : Ty} {v : Val} : ProperVal E t v → ProperVal E (.ptr t) (.ptr v)
  | nilSlice {t : Ty} : ProperVal E (.slice t) .zero
  | slice {t : Ty} {vs : List Val} : t ≠ .uint 8 → (∀ (i : Nat) v, vs[i]? = some v → ProperVal E t v) → ProperVal E (.slice t) (.slice vs)
  | struct {n : Nat} {vs : List Val} : PlainFields (E n) → vs.length = (E n).length →
      (∀ (i : Nat) fd v, (E n)[i]? = some fd → vs[i]? = some v → ProperVal E fd.ty v) → ProperVal E (.struct n) (.struct vs)

/-- A decoder of JSON into a struct: of a text that says a tree it makes what the tree does to the struct, or an error. -/
structure ReadsJson (E : TyEnv) (D : Decoding) : Prop where
  one : OneValue D
  says : ∀ text j n w, JsonDoc text j →
    match readJson E (.struct n) j w with
    | some v => decoded D text none (.struct n w) = (none, .struct n v)
    | none => ∃ e, (decoded D text none (.struct n w)).1 = some e

end Water.Spec
