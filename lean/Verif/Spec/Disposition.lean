import Verif.Spec.Util
import Verif.Spec.Json
import Verif.Spec.Url
/-
How a browser reads Content-Disposition: the grammar of RFC 6266 with that of RFC 5987 for the parameters with a star. White space is
allowed behind the semicolons; the only charset is UTF-8, in one of its usual spellings.
-/
namespace Water.Spec
open Water

/-- `attr-char` of RFC 5987 -/
def attrBytes : Str := smallLetters ++ capitalLetters ++ decimals ++ b!"!#$&+-.^_`|~"

/-- `value-chars` of RFC 5987: the text and what it stands for -/
inductive ExtChars : Str → Str → Prop where
  | nil : ExtChars [] []
  | keep {c : UInt8} {v t : Str} : c ∈ attrBytes → ExtChars v t → ExtChars (c :: v) (c :: t)
  | code {x y : UInt8} {a b : Nat} {v t : Str} : hexOf x = some a → hexOf y = some b → ExtChars v t →
      ExtChars (UInt8.ofNat (16 * a + b) :: v) (37 :: x :: y :: t)

/-- `ext-value` of RFC 5987: charset, language and text between apostrophes -/
def ExtValue (v t : Str) : Prop :=
  ∃ charset lang chars, t = charset ++ 39 :: (lang ++ 39 :: chars) ∧ charset ∈ [b!"UTF-8", b!"utf-8", b!"Utf-8"] ∧
    (∀ c ∈ lang, c ∈ smallLetters ++ capitalLetters ++ decimals ++ b!"-") ∧ ExtChars v chars ∧ ValidUtf8 v

/-- the inside of a `quoted-string` (RFC 7230) and what it stands for -/
inductive QuotedChars : Str → Str → Prop where
  | nil : QuotedChars [] []
  | char {c : UInt8} {v t : Str} : c ≠ 34 → c ≠ 92 → (c = 9 ∨ 32 ≤ c) → c ≠ 127 → QuotedChars v t → QuotedChars (c :: v) (c :: t)
  | pair {c : UInt8} {v t : Str} : (c = 9 ∨ 32 ≤ c) → c ≠ 127 → QuotedChars v t → QuotedChars (c :: v) (92 :: c :: t)

/-- a `value` (RFC 6266): a token or a quoted string -/
inductive PlainValue : Str → Str → Prop where
  | token {t : Str} : Token t → PlainValue t t
  | quoted {v t : Str} : QuotedChars v t → PlainValue v (34 :: (t ++ [34]))

/-- the parameters behind the type, with their values -/
inductive DispParms : Str → List (Str × Str) → Prop where
  | nil : DispParms [] []
  | plain {blank name v t rest : Str} {ps : List (Str × Str)} : (∀ c ∈ blank, c = 32 ∨ c = 9) → Token name → name.getLast? ≠ some 42 →
      PlainValue v t → DispParms rest ps → DispParms (59 :: (blank ++ (name ++ 61 :: (t ++ rest)))) ((name, v) :: ps)
  | ext {blank name v t rest : Str} {ps : List (Str × Str)} : (∀ c ∈ blank, c = 32 ∨ c = 9) → Token name → name.getLast? = some 42 →
      ExtValue v t → DispParms rest ps → DispParms (59 :: (blank ++ (name ++ 61 :: (t ++ rest)))) ((name, v) :: ps)

/-- a value of Content-Disposition, its type and its parameters -/
def DispText (text type : Str) (ps : List (Str × Str)) : Prop := ∃ rest, text = type ++ rest ∧ Token type ∧ DispParms rest ps

/-- the name a file is saved under: `filename*` before `filename` (RFC 6266, section 4.3) -/
def savedName (ps : List (Str × Str)) : Option Str :=
  match valuesIn ps b!"filename*" with
  | v :: _ => some v
  | [] => (valuesIn ps b!"filename").head?

end Water.Spec
