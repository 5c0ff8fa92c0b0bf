import Verif.Model.Xml
import Verif.Spec.JsonBind
/- XML 1.0: texts without declarations, comments, attributes and CDATA sections, and what they say; and which values can be sent as XML and
read back into a new variable. -/
namespace Water.Spec

/-- the characters of XML (production 2) -/
def XmlChar (n : Nat) : Prop := CodePoint n ∧ (n = 9 ∨ n = 10 ∨ n = 13 ∨ 32 ≤ n) ∧ n ≠ 0xFFFE ∧ n ≠ 0xFFFF

/-- the letters that a name can begin with; XML has more -/
def nameStarts : Str := b!"ABCDEFGHIJKLMNOPQRSTUVWXYZ_abcdefghijklmnopqrstuvwxyz"

/-- A name (production 5), of ASCII and without a prefix. -/
def XName (k : Str) : Prop := ∃ c r, k = c :: r ∧ c ∈ nameStarts ∧ ∀ d ∈ r, d ∈ nameStarts ++ b!"-.0123456789"

/-- the entities that every reader knows -/
def entities : List (Str × Nat) := [(b!"lt", 60), (b!"gt", 62), (b!"amp", 38), (b!"apos", 39), (b!"quot", 34)]

/-- A number written in a base. -/
inductive InBase (base : Nat) : Str → Nat → Prop where
  | one {c : UInt8} {d : Nat} : digitOf c = some d → d < base → InBase base [c] d
  | more {s : Str} {n : Nat} {c : UInt8} {d : Nat} : InBase base s n → digitOf c = some d → d < base → InBase base (s ++ [c]) (base * n + d)

/-- What stands between `&` and `;`, and the character that it is for (productions 66 and 68). -/
def RefTo (x : Str) (n : Nat) : Prop := (x, n) ∈ entities ∨ (∃ s, x = 35 :: s ∧ InBase 10 s n) ∨ ∃ s, x = 35 :: 120 :: s ∧ InBase 16 s n

/-- The content of an element and what it says. A carriage return must not stand for itself, as readers change it, nor `>`, as it could end `]]>`. -/
inductive XSays : Str → List XItem → Prop where
  | nil : XSays [] []
  | chr {n : Nat} {t : Str} {l : List XItem} : XmlChar n → n ∉ [13, 38, 60, 62] → XSays t l → XSays (charBytes n ++ t) (.chr n :: l)
  | ref {x t : Str} {n : Nat} {l : List XItem} : RefTo x n → XmlChar n → XSays t l → XSays (38 :: (x ++ 59 :: t)) (.chr n :: l)
  | elem {k c t : Str} {kids l : List XItem} : XName k → XSays c kids → XSays t l →
      XSays (60 :: (k ++ 62 :: (c ++ 60 :: 47 :: (k ++ 62 :: t)))) (.elem k kids :: l)

/-- A text that is one element. -/
def XmlDoc (t : Str) (x : XItem) : Prop :=
  ∃ k c kids, x = .elem k kids ∧ XName k ∧ XSays c kids ∧ t = 60 :: (k ++ 62 :: (c ++ 60 :: 47 :: (k ++ [62])))

/-- The field with its tag `xml` in the place of its tag `json`. -/
def forXml (fd : Field) : Field := { fd with tag := fun _ => fd.tag b!"xml" }

/-- The fields have different names, which are names in XML; no options other than `omitempty`; none is embedded or called `XMLName`. -/
def XmlFields (fds : List Field) : Prop :=
  PlainFields (fds.map forXml) ∧ ∀ fd ∈ fds, fd.name ≠ b!"XMLName" ∧ ∀ k opt, SentUnder (forXml fd) k opt → XName k

/-- a string of characters of XML -/
def XmlString (s : Str) : Prop := ∃ l : List Nat, (∀ n ∈ l, XmlChar n) ∧ s = l.flatMap charBytes

/-- The characters are those of the string, with U+FFFD for what XML does not allow and for every byte that does not belong to a character. -/
inductive XmlCleaned : Str → List Nat → Prop where
  | nil : XmlCleaned [] []
  | good {n : Nat} {s : Str} {l : List Nat} : XmlChar n → XmlCleaned s l → XmlCleaned (charBytes n ++ s) (n :: l)
  | never {n : Nat} {s : Str} {l : List Nat} : CodePoint n → ¬ XmlChar n → XmlCleaned s l → XmlCleaned (charBytes n ++ s) (0xFFFD :: l)
  | bad {c : UInt8} {s : Str} {l : List Nat} : (∀ n, CodePoint n → ¬ charBytes n <+: c :: s) → XmlCleaned s l → XmlCleaned (c :: s) (0xFFFD :: l)

/-- A value of a type, written out: numbers fit, a struct shows all its fields, and nil is `zero`. -/
inductive XmlVal (E : TyEnv) : Ty → Val → Prop where
  | int {bits : Nat} {i : Int} : 2 ≤ bits → bits ≤ 64 → FitsInt bits i → XmlVal E (.int bits) (.int i)
  | uint {bits n : Nat} : bits ≤ 64 → n < 2 ^ bits → XmlVal E (.uint bits) (.uint n)
  | bool {b : Bool} : XmlVal E .bool (.bool b)
  | string {s : Str} : XmlVal E .string (.string s)
  | nilPtr {t : Ty} : XmlVal E (.ptr t) .zero
  | ptr {t : Ty} {v : Val} : XmlVal E t v → XmlVal E (.ptr t) (.ptr v)
  | nilSlice {t : Ty} : XmlVal E (.slice t) .zero
  | slice {t : Ty} {vs : List Val} : t ≠ .uint 8 → (∀ (i : Nat) v, vs[i]? = some v → XmlVal E t v) → XmlVal E (.slice t) (.slice vs)
  | struct {n : Nat} {vs : List Val} : XmlFields (E n) → vs.length = (E n).length →
      (∀ (i : Nat) fd v, (E n)[i]? = some fd → vs[i]? = some v → XmlVal E fd.ty v) → XmlVal E (.struct n) (.struct vs)

/-- The value that can be sent and read back into a new variable, and the number of elements that it takes; `opt`: it is in a field with
`omitempty`. Strings are of characters of XML, there is no pointer to a pointer, none to nil or to a slice without elements; no slice
that is not nil is without elements; what is in a slice takes one element each, and is not empty in a field with `omitempty`; and what is
not sent of a struct is as it is in a new one. -/
inductive XmlBack (E : TyEnv) : Bool → Ty → Nat → Val → Prop where
  | int {opt : Bool} {bits : Nat} {i : Int} : 2 ≤ bits → bits ≤ 64 → FitsInt bits i → XmlBack E opt (.int bits) 1 (.int i)
  | uint {opt : Bool} {bits n : Nat} : bits ≤ 64 → n < 2 ^ bits → XmlBack E opt (.uint bits) 1 (.uint n)
  | bool {opt : Bool} {b : Bool} : XmlBack E opt .bool 1 (.bool b)
  | string {opt : Bool} {s : Str} : XmlString s → XmlBack E opt .string 1 (.string s)
  | nilPtr {opt : Bool} {t : Ty} : XmlBack E opt (.ptr t) 0 .zero
  | ptr {opt : Bool} {t : Ty} {m : Nat} {v : Val} : (∀ t', t ≠ .ptr t') → m ≠ 0 → XmlBack E opt t m v → XmlBack E opt (.ptr t) m (.ptr v)
  | nilSlice {opt : Bool} {t : Ty} : XmlBack E opt (.slice t) 0 .zero
  | slice {opt : Bool} {t : Ty} {vs : List Val} : t ≠ .uint 8 → vs ≠ [] →
      (∀ (i : Nat) v, vs[i]? = some v → opt = true → ¬ EmptyV v) → (∀ (i : Nat) v, vs[i]? = some v → XmlBack E opt t 1 v) →
      XmlBack E opt (.slice t) vs.length (.slice vs)
  | struct {opt : Bool} {n : Nat} {vs : List Val} {m : Nat → Nat} : XmlFields (E n) → vs.length = (E n).length →
      (∀ (i : Nat) fd v, (E n)[i]? = some fd → vs[i]? = some v → (NeverSent (forXml fd) ∨ ∃ k, SentUnder (forXml fd) k true ∧ EmptyV v) →
        v = blank fd.ty) →
      (∀ (i : Nat) fd v k o, (E n)[i]? = some fd → vs[i]? = some v → SentUnder (forXml fd) k o → (o = true → ¬ EmptyV v) →
        XmlBack E o fd.ty (m i) v) → XmlBack E opt (.struct n) 1 (.struct vs)

/-- A decoder of XML into a struct: of a text that says an element it makes what the element does to the struct, or an error. -/
structure ReadsXml (E : TyEnv) (D : Decoding) : Prop where
  one : OneValue D
  says : ∀ text x n w, XmlDoc text x →
    match readXml E n x w with
    | some v => decoded D text none (.struct n w) = (none, .struct n v)
    | none => ∃ e, (decoded D text none (.struct n w)).1 = some e

end Water.Spec
