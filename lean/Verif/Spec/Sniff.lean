import Verif.Spec.HttpDate
/- What the beginning of a response is taken for (C130), and the texts of JSON (RFC 8259) as encoding/json writes them. -/
namespace Water.Spec

/-- the white space that may come before a tag -/
def TagSpace (c : UInt8) : Prop := c ∈ [9, 10, 12, 13, 32]

/-- the beginnings of pages -/
def pageTags : List Str := [b!"<!--", b!"<!DOCTYPE HTML", b!"<A", b!"<B", b!"<BODY", b!"<BR", b!"<DIV", b!"<FONT", b!"<H1", b!"<HEAD", b!"<HTML",
  b!"<IFRAME", b!"<P", b!"<SCRIPT", b!"<STYLE", b!"<TABLE", b!"<TITLE"]

/-- A text that begins like a page: white space, one of the tags in small or capital letters, and a space or a `>`. -/
inductive Page : Str → Prop where
  | mk {ws t tag rest : Str} {c : UInt8} : (∀ x ∈ ws, TagSpace x) → tag ∈ pageTags → AnyCase t tag → (c = 32 ∨ c = 62) →
      Page (ws ++ t ++ c :: rest)

/-- a text that begins like an XML document -/
inductive XmlBegin : Str → Prop where
  | mk {ws rest : Str} : (∀ x ∈ ws, TagSpace x) → XmlBegin (ws ++ b!"<?xml" ++ rest)

/-- a byte that no text has -/
def Control (c : UInt8) : Prop := c.toNat ≤ 8 ∨ c.toNat = 11 ∨ (14 ≤ c.toNat ∧ c.toNat ≤ 26) ∨ (28 ≤ c.toNat ∧ c.toNat ≤ 31)

/-- `s` begins with the bytes of `p`, those that are `none` being any -/
inductive Fits : List (Option UInt8) → Str → Prop where
  | nil {s : Str} : Fits [] s
  | this {c : UInt8} {p : List (Option UInt8)} {s : Str} : Fits p s → Fits (some c :: p) (c :: s)
  | any {c : UInt8} {p : List (Option UInt8)} {s : Str} : Fits p s → Fits (none :: p) (c :: s)

/-- these bytes -/
def these (s : Str) : List (Option UInt8) := s.map some
/-- any four bytes -/
def anyFour : List (Option UInt8) := [none, none, none, none]

/-- The beginnings without control characters that are taken for something else than text: documents, two marks of the byte order, pictures,
sounds, films and fonts; of one kind of font only the bytes 34 and 35 are looked at. -/
def otherKinds : List (List (Option UInt8)) := [
  these b!"%PDF-", these b!"%!PS-Adobe-", [some 0xFE, some 0xFF, none, none], [some 0xFF, some 0xFE, none, none], these b!"BM", these b!"GIF87a", these b!"GIF89a",
  these b!"RIFF" ++ anyFour ++ these b!"WEBPVP", these b!"RIFF" ++ anyFour ++ these b!"AVI ", these b!"RIFF" ++ anyFour ++ these b!"WAVE",
  [some 0xFF, some 0xD8, some 0xFF], these b!".snd", these b!"FORM" ++ anyFour ++ these b!"AIFF", these b!"ID3", these b!"OTTO", these b!"ttcf", these b!"wOFF", these b!"wOF2",
  List.replicate 34 none ++ these b!"LP"]

/-- a text that begins like one of those -/
def OtherKind (s : Str) : Prop := ∃ p ∈ otherKinds, Fits p s

/-- decimal digits -/
inductive DigitRun : Str → Prop where
  | one {c : UInt8} : 48 ≤ c.toNat → c.toNat ≤ 57 → DigitRun [c]
  | more {c : UInt8} {s : Str} : 48 ≤ c.toNat → c.toNat ≤ 57 → DigitRun s → DigitRun (c :: s)

/-- what is inside the quotes of a text in JSON -/
inductive JsonInner : Str → Prop where
  | nil : JsonInner []
  | char {c : UInt8} {s : Str} : 32 ≤ c.toNat → c ≠ 34 → c ≠ 92 → JsonInner s → JsonInner (c :: s)
  | short {c : UInt8} {s : Str} : c ∈ b!"\"\\/bfnrt" → JsonInner s → JsonInner (92 :: c :: s)
  | long {x y z w : UInt8} {s : Str} : (∀ c ∈ [x, y, z, w], c ∈ b!"0123456789abcdefABCDEF") → JsonInner s →
      JsonInner (92 :: 117 :: x :: y :: z :: w :: s)

/-- a text in JSON -/
inductive JsonText : Str → Prop where
  | mk {s : Str} : JsonInner s → JsonText (b!"\"" ++ s ++ b!"\"")

/-- a number in JSON -/
inductive JsonNumber : Str → Prop where
  | mk {sign whole frac exp : Str} : (sign = [] ∨ sign = b!"-") → DigitRun whole → (whole.head? = some 48 → whole = b!"0") →
      (frac = [] ∨ ∃ ds, DigitRun ds ∧ frac = b!"." ++ ds) →
      (exp = [] ∨ ∃ e, e ∈ [b!"e", b!"E"] ∧ ∃ sg, sg ∈ [b!"", b!"+", b!"-"] ∧ ∃ ds, DigitRun ds ∧ exp = e ++ sg ++ ds) →
      JsonNumber (sign ++ whole ++ frac ++ exp)

/-- `xs` with commas between them -/
def commas : List Str → Str
  | [] => []
  | [x] => x
  | x :: xs => x ++ b!"," ++ commas xs

/-- a value in JSON, without white space between its parts, which is how `json.Encoder` writes it -/
inductive Json : Str → Prop where
  | null : Json b!"null"
  | yes : Json b!"true"
  | no : Json b!"false"
  | number {s : Str} : JsonNumber s → Json s
  | text {s : Str} : JsonText s → Json s
  | array {xs : List Str} : (∀ x ∈ xs, Json x) → Json (b!"[" ++ commas xs ++ b!"]")
  | object {kvs : List (Str × Str)} : (∀ p ∈ kvs, JsonText p.1) → (∀ p ∈ kvs, Json p.2) →
      Json (b!"{" ++ commas (kvs.map (fun p => p.1 ++ b!":" ++ p.2)) ++ b!"}")

end Water.Spec
