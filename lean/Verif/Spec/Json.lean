import Verif.Model.Json
import Verif.Spec.Text
import Verif.Spec.Redirect
/- JSON (RFC 8259): which texts there are, and what they say. -/
namespace Water.Spec

/-- What a JSON text says. A number is kept as it is written. -/
inductive JTree where
  | null
  | bool (b : Bool)
  | num (text : Str)
  | str (s : Str)
  | arr (l : List JTree)
  | obj (l : List (Str × JTree))

/-- a Unicode scalar value -/
def CodePoint (n : Nat) : Prop := n < 0xD800 ∨ 0xE000 ≤ n ∧ n < 0x110000

/-- UTF-8 -/
def charBytes (n : Nat) : Str :=
  if n < 0x80 then [UInt8.ofNat n]
  else if n < 0x800 then [UInt8.ofNat (0xC0 + n / 64), UInt8.ofNat (0x80 + n % 64)]
  else if n < 0x10000 then [UInt8.ofNat (0xE0 + n / 4096), UInt8.ofNat (0x80 + n / 64 % 64), UInt8.ofNat (0x80 + n % 64)]
  else [UInt8.ofNat (0xF0 + n / 262144), UInt8.ofNat (0x80 + n / 4096 % 64), UInt8.ofNat (0x80 + n / 64 % 64), UInt8.ofNat (0x80 + n % 64)]

/-- The second string is the first one with U+FFFD for every byte that does not belong to a character. -/
inductive Cleaned : Str → Str → Prop where
  | nil : Cleaned [] []
  | good {n : Nat} {s t : Str} : CodePoint n → Cleaned s t → Cleaned (charBytes n ++ s) (charBytes n ++ t)
  | bad {c : UInt8} {s t : Str} : (∀ n, CodePoint n → ¬ charBytes n <+: c :: s) → Cleaned s t → Cleaned (c :: s) (charBytes 0xFFFD ++ t)

/-- a string of characters -/
def ValidUtf8 (s : Str) : Prop := ∃ l : List Nat, (∀ n ∈ l, CodePoint n) ∧ s = l.flatMap charBytes

/-- white space -/
def JsonBlank (w : Str) : Prop := ∀ c ∈ w, c ∈ b!" \t\n\r"

/-- a sequence of digits, not empty -/
def SomeDigits (s : Str) : Prop := s ≠ [] ∧ ∀ c ∈ s, c ∈ decimals

/-- the integral part of a number -/
def IntPart (s : Str) : Prop := s = b!"0" ∨ SomeDigits s ∧ s.head? ≠ some 48

/-- A number: an integral part, perhaps with a minus sign, a fraction and an exponent. -/
def NumText (t : Str) : Prop :=
  ∃ sign i frac exp : Str, t = sign ++ i ++ frac ++ exp ∧ (sign = [] ∨ sign = b!"-") ∧ IntPart i ∧
    (frac = [] ∨ ∃ d, SomeDigits d ∧ frac = 46 :: d) ∧
    (exp = [] ∨ ∃ e s d, (e = 101 ∨ e = 69) ∧ (s = [] ∨ s = b!"+" ∨ s = b!"-") ∧ SomeDigits d ∧ exp = e :: s ++ d)

/-- Four hexadecimal digits. -/
def Hex4 (h : Str) (n : Nat) : Prop :=
  ∃ a b c d w x y z, h = [a, b, c, d] ∧ digitOf a = some w ∧ digitOf b = some x ∧ digitOf c = some y ∧ digitOf d = some z ∧
    n = 4096 * w + 256 * x + 16 * y + z

/-- the letters after a backslash, and what they stand for -/
def escapes : List (UInt8 × UInt8) := [(34, 34), (92, 92), (47, 47), (98, 8), (102, 12), (110, 10), (114, 13), (116, 9)]

/-- What stands between the quotes, and the string that it says. -/
inductive StrText : Str → Str → Prop where
  | nil : StrText [] []
  | plain {c : UInt8} {t s : Str} : 32 ≤ c → c ≠ 34 → c ≠ 92 → StrText t s → StrText (c :: t) (c :: s)
  | esc {e c : UInt8} {t s : Str} : (e, c) ∈ escapes → StrText t s → StrText (92 :: e :: t) (c :: s)
  | uni {h t s : Str} {n : Nat} : Hex4 h n → CodePoint n → StrText t s → StrText (92 :: 117 :: h ++ t) (charBytes n ++ s)
  | pair {h l t s : Str} {m n : Nat} : Hex4 h m → Hex4 l n → 0xD800 ≤ m → m < 0xDC00 → 0xDC00 ≤ n → n < 0xE000 → StrText t s →
      StrText (92 :: 117 :: h ++ (92 :: 117 :: l ++ t)) (charBytes (0x10000 + 1024 * (m - 0xD800) + (n - 0xDC00)) ++ s)

/-- the parts of a text -/
inductive JPart where
  | value
  | elements
  | members

/-- What a text says: a value; the elements of an array, if there are any; the members of an object, if there are any. -/
inductive Denotes : JPart → Str → JTree → Prop where
  | null : Denotes .value b!"null" .null
  | true : Denotes .value b!"true" (.bool true)
  | false : Denotes .value b!"false" (.bool false)
  | num {t : Str} : NumText t → Denotes .value t (.num t)
  | str {t s : Str} : StrText t s → Denotes .value (34 :: t ++ [34]) (.str s)
  | arr0 {w : Str} : JsonBlank w → Denotes .value (91 :: w ++ [93]) (.arr [])
  | arr {t : Str} {l : List JTree} : Denotes .elements t (.arr l) → Denotes .value (91 :: t ++ [93]) (.arr l)
  | obj0 {w : Str} : JsonBlank w → Denotes .value (123 :: w ++ [125]) (.obj [])
  | obj {t : Str} {l : List (Str × JTree)} : Denotes .members t (.obj l) → Denotes .value (123 :: t ++ [125]) (.obj l)
  | element {a t b : Str} {j : JTree} : JsonBlank a → Denotes .value t j → JsonBlank b → Denotes .elements (a ++ t ++ b) (.arr [j])
  | elements {a t b r : Str} {j : JTree} {l : List JTree} : JsonBlank a → Denotes .value t j → JsonBlank b → Denotes .elements r (.arr l) →
      Denotes .elements (a ++ t ++ b ++ 44 :: r) (.arr (j :: l))
  | member {a k b c t d s : Str} {j : JTree} : JsonBlank a → StrText k s → JsonBlank b → JsonBlank c → Denotes .value t j → JsonBlank d →
      Denotes .members (a ++ (34 :: k ++ 34 :: (b ++ 58 :: (c ++ t ++ d)))) (.obj [(s, j)])
  | members {a k b c t d s r : Str} {j : JTree} {l : List (Str × JTree)} : JsonBlank a → StrText k s → JsonBlank b → JsonBlank c → Denotes .value t j →
      JsonBlank d → Denotes .members r (.obj l) →
      Denotes .members (a ++ (34 :: k ++ 34 :: (b ++ 58 :: (c ++ t ++ (d ++ 44 :: r))))) (.obj ((s, j) :: l))

/-- A JSON text is a value, perhaps with white space around it. -/
def JsonDoc (t : Str) (j : JTree) : Prop := ∃ a u b, JsonBlank a ∧ Denotes .value u j ∧ JsonBlank b ∧ t = a ++ u ++ b

/-- What a Go value is to be in JSON: integers as decimal numbers, strings without what is not UTF-8, slices as arrays, structs and maps
as objects. -/
inductive Shows : GVal → JTree → Prop where
  | nil : Shows .nil .null
  | bool (b : Bool) : Shows (.bool b) (.bool b)
  | int {i : Int} {t : Str} : SignedDigits decimals i t → Shows (.int i) (.num t)
  | float {t : Str} : NumText t → Shows (.float t) (.num t)
  | string {s t : Str} : Cleaned s t → Shows (.string s) (.str t)
  | list0 : Shows (.list []) (.arr [])
  | list {v : GVal} {j : JTree} {l : List GVal} {js : List JTree} : Shows v j → Shows (.list l) (.arr js) → Shows (.list (v :: l)) (.arr (j :: js))
  | fields0 : Shows (.fields []) (.obj [])
  | fields {k : Str} {v : GVal} {j : JTree} {l : List (Str × GVal)} {js : List (Str × JTree)} : Shows v j → Shows (.fields l) (.obj js) →
      Shows (.fields ((k, v) :: l)) (.obj ((k, j) :: js))
  | map0 : Shows (.map []) (.obj [])
  | map {k k' : Str} {v : GVal} {j : JTree} {l : List (Str × GVal)} {js : List (Str × JTree)} : Cleaned k k' → Shows v j →
      Shows (.map l) (.obj js) → Shows (.map ((k, v) :: l)) (.obj ((k', j) :: js))

/-- All the names of fields in a value are as `N` says, and all its floating-point numbers as `F` says. -/
inductive GMade (N F : Str → Prop) : GVal → Prop where
  | nil : GMade N F .nil
  | bool (b : Bool) : GMade N F (.bool b)
  | int (i : Int) : GMade N F (.int i)
  | float {t : Str} : F t → GMade N F (.float t)
  | string (s : Str) : GMade N F (.string s)
  | list0 : GMade N F (.list [])
  | list {v : GVal} {l : List GVal} : GMade N F v → GMade N F (.list l) → GMade N F (.list (v :: l))
  | fields0 : GMade N F (.fields [])
  | fields {k : Str} {v : GVal} {l : List (Str × GVal)} : N k → GMade N F v → GMade N F (.fields l) → GMade N F (.fields ((k, v) :: l))
  | map0 : GMade N F (.map [])
  | map {k : Str} {v : GVal} {l : List (Str × GVal)} : GMade N F v → GMade N F (.map l) → GMade N F (.map ((k, v) :: l))

/-- A text of characters that can stand in a page: no control characters, no `&`, `<` or `>`, no line or paragraph separators. -/
def PageSafe (s : Str) : Prop := ∃ l : List Nat, (∀ n ∈ l, CodePoint n ∧ 32 ≤ n ∧ n ∉ [38, 60, 62, 0x2028, 0x2029]) ∧ s = l.flatMap charBytes

end Water.Spec
