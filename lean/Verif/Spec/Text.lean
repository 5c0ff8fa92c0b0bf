import Verif.Model.Str
/-
Tables of characters: letters of both cases, the characters of a token, white space, hexadecimal digits. They are written
out here independently of the arithmetic on bytes in the model.
-/
namespace Water.Spec
open Water

/-- the small letters -/
def smallLetters : Str := b!"abcdefghijklmnopqrstuvwxyz"
/-- the capital letters -/
def capitalLetters : Str := b!"ABCDEFGHIJKLMNOPQRSTUVWXYZ"
/-- the decimal digits -/
def decimals : Str := b!"0123456789"

/-- Two bytes are the same up to the case of ASCII letters. -/
def SameLetter (a b : UInt8) : Prop :=
  a = b ∨ (a, b) ∈ smallLetters.zip capitalLetters ∨ (b, a) ∈ smallLetters.zip capitalLetters

/-- Two texts are the same up to the case of ASCII letters. -/
inductive SameName : Str → Str → Prop where
  | nil : SameName [] []
  | cons {a b : UInt8} {s t : Str} : SameLetter a b → SameName s t → SameName (a :: s) (b :: t)

/-- A token (RFC 7230): letters, digits and some punctuation. -/
def tokenBytes : Str := smallLetters ++ capitalLetters ++ decimals ++ b!"!#$%&'*+-.^_`|~"

/-- The ways to write a small letter: itself, its capital, and for two of them one character more (U+0130, U+212A). Other
bytes stand for themselves. -/
def smallSpellings (c : UInt8) : List Str :=
  [c] :: ((smallLetters.zip capitalLetters).filter (fun p => p.1 == c)).map (fun p => [p.2]) ++
    (if c = 105 then [[0xC4, 0xB0]] else []) ++ (if c = 107 then [[0xE2, 0x84, 0xAA]] else [])

/-- The ways to write a capital letter: itself, its small one, and for two of them one character more (U+0131, U+017F). -/
def capitalSpellings (c : UInt8) : List Str :=
  [c] :: ((smallLetters.zip capitalLetters).filter (fun p => p.2 == c)).map (fun p => [p.1]) ++
    (if c = 73 then [[0xC4, 0xB1]] else []) ++ (if c = 83 then [[0xC5, 0xBF]] else [])

/-- The second text writes the first, byte by byte. -/
inductive Spells (sp : UInt8 → List Str) : Str → Str → Prop where
  | nil : Spells sp [] []
  | cons {c : UInt8} {x w s : Str} : x ∈ sp c → Spells sp w s → Spells sp (c :: w) (x ++ s)

/-- `s` reads as the word `w` of small letters, whatever the case of its own letters -/
abbrev ReadsSmall (w s : Str) : Prop := Spells smallSpellings w s
/-- `s` reads as the word `w` of capital letters, whatever the case of its own letters -/
abbrev ReadsCapital (w s : Str) : Prop := Spells capitalSpellings w s

/-- Two header names are the same: literally, or as tokens up to case. -/
def SameHeader (a b : Str) : Prop :=
  a = b ∨ ((∀ c ∈ a, c ∈ tokenBytes) ∧ (∀ c ∈ b, c ∈ tokenBytes) ∧ SameName a b)

/-- What a program does to a header: set a name to one value, or add a value to a name. -/
inductive HeaderOp where
  | set (name value : Str)
  | add (name value : Str)

/-- The values a name has after these steps, from the values it had: no canonical names are involved. -/
inductive HeldAfter (name : Str) : List HeaderOp → List Str → List Str → Prop where
  | nil {vs : List Str} : HeldAfter name [] vs vs
  | set {n v : Str} {ops : List HeaderOp} {vs ws : List Str} : SameHeader n name → HeldAfter name ops [v] ws →
      HeldAfter name (.set n v :: ops) vs ws
  | add {n v : Str} {ops : List HeaderOp} {vs ws : List Str} : SameHeader n name → HeldAfter name ops (vs ++ [v]) ws →
      HeldAfter name (.add n v :: ops) vs ws
  | otherSet {n v : Str} {ops : List HeaderOp} {vs ws : List Str} : ¬ SameHeader n name → HeldAfter name ops vs ws →
      HeldAfter name (.set n v :: ops) vs ws
  | otherAdd {n v : Str} {ops : List HeaderOp} {vs ws : List Str} : ¬ SameHeader n name → HeldAfter name ops vs ws →
      HeldAfter name (.add n v :: ops) vs ws

/-- The capitals of a canonical name: at the start and after a dash, and nowhere else. -/
def Capitals (k : Str) : Prop :=
  ∀ a c b, k = a ++ c :: b → (a = [] ∨ a.getLast? = some 45 → c ∉ smallLetters) ∧
    (a ≠ [] → a.getLast? ≠ some 45 → c ∉ capitalLetters)

/-- The word stands somewhere in the text, in any case. -/
def Mentions (word text : Str) : Prop := ∃ a m b, text = a ++ m ++ b ∧ ReadsSmall word m

/-! ### digits -/

/-- The numeral of a number without leading zeros, with the given digits. -/
inductive Digits (table : Str) : Nat → Str → Prop where
  | one {d : Nat} {c : UInt8} : table[d]? = some c → Digits table d [c]
  | more {n d : Nat} {s : Str} {c : UInt8} : n ≠ 0 → Digits table n s → table[d]? = some c →
      Digits table (table.length * n + d) (s ++ [c])

/-- The numeral of an integer: a minus sign if it is negative. -/
inductive SignedDigits (table : Str) : Int → Str → Prop where
  | natural {n : Nat} {s : Str} : Digits table n s → SignedDigits table n s
  | negative {n : Nat} {s : Str} : n ≠ 0 → Digits table n s → SignedDigits table (-n) (45 :: s)

/-- the hexadecimal digits -/
def smallHex : Str := b!"0123456789abcdef"
/-- the hexadecimal digits, with capital letters -/
def capitalHex : Str := b!"0123456789ABCDEF"

/-- Every byte as two hexadecimal digits. -/
inductive HexBytes : Str → Str → Prop where
  | nil : HexBytes [] []
  | cons {c x y : UInt8} {s t : Str} : smallHex[c.toNat / 16]? = some x → smallHex[c.toNat % 16]? = some y → HexBytes s t →
      HexBytes (c :: s) (x :: y :: t)

/-- `t` is `s` with every byte outside `kept` written as a percent sign and two hexadecimal digits. -/
inductive Percent (kept : Str) : Str → Str → Prop where
  | nil : Percent kept [] []
  | keep {c : UInt8} {s t : Str} : c ∈ kept → Percent kept s t → Percent kept (c :: s) (c :: t)
  | code {c x y : UInt8} {s t : Str} : c ∉ kept → capitalHex[c.toNat / 16]? = some x → capitalHex[c.toNat % 16]? = some y →
      Percent kept s t → Percent kept (c :: s) (37 :: x :: y :: t)

/-- the bytes kept in a segment of a path (RFC 3986, and the Go library) -/
def segmentBytes : Str := smallLetters ++ capitalLetters ++ decimals ++ b!"-_.~$&+:=@"

/-! ### white space -/

/-- The UTF-8 encoding of a code point below 65536. -/
def utf8 (n : Nat) : Str :=
  if n < 128 then [UInt8.ofNat n]
  else if n < 2048 then [UInt8.ofNat (192 + n / 64), UInt8.ofNat (128 + n % 64)]
  else [UInt8.ofNat (224 + n / 4096), UInt8.ofNat (128 + n / 64 % 64), UInt8.ofNat (128 + n % 64)]

/-- The white space of Unicode: tab, line feed, vertical tab, form feed, carriage return, space, next line, no-break space,
ogham space, the spaces from en quad to hair space, the line and paragraph separators, narrow no-break space, mathematical
space, ideographic space. -/
def spaces : List Str :=
  ([9, 10, 11, 12, 13, 32, 133, 160, 5760] ++ List.range' 8192 11 ++ [8232, 8233, 8239, 8287, 12288]).map utf8

end Water.Spec
