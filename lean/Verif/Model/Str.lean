/-
Go strings as byte lists, and the functions of Go's `strings` package that the repository calls.
These model the Go standard library (not /repo itself); the call sites in /repo are cited.
-/
namespace Water

/-- A Go `string`: a sequence of bytes, not necessarily valid UTF-8. -/
abbrev Str := List UInt8

/-- `b!"abc"` is the byte list of the literal. -/
macro:max "b!" s:str : term => do
  let bs := s.getString.toUTF8.toList
  let ts ← bs.mapM fun b => `(($(Lean.quote b.toNat) : UInt8))
  `(([$(ts.toArray),*] : List UInt8))

/-- `'/'` -/ abbrev slash : UInt8 := 47
/-- `'*'` -/ abbrev star : UInt8 := 42
/-- `'<'` -/ abbrev lt : UInt8 := 60
/-- `'>'` -/ abbrev gt : UInt8 := 62
/-- `':'` -/ abbrev colon : UInt8 := 58
/-- `'~'` -/ abbrev tilde : UInt8 := 126
/-- `','` -/ abbrev comma : UInt8 := 44
/-- `'('` -/ abbrev lparen : UInt8 := 40
/-- `')'` -/ abbrev rparen : UInt8 := 41
/-- `'['` -/ abbrev lbrack : UInt8 := 91
/-- `']'` -/ abbrev rbrack : UInt8 := 93

/-- `strings.HasPrefix` (tree.go:61, 112; router.go:339, 342). -/
def hasPrefix (s p : Str) : Bool := p.isPrefixOf s

/-- `strings.HasSuffix` (m_static.go:79, 83). -/
def hasSuffix (s p : Str) : Bool := p.isSuffixOf s

/-- `strings.TrimPrefix` (tree.go:114, 150, 218). -/
def trimPrefix (s p : Str) : Str := if hasPrefix s p then s.drop p.length else s

/-- `strings.TrimSuffix` (tree.go:145, 219). -/
def trimSuffix (s p : Str) : Str := if hasSuffix s p then s.take (s.length - p.length) else s

/-- `strings.Index(s, c)` / `strings.IndexByte` for a one-byte needle; `none` is `-1`
(tree.go:69, 76, 80, 94, 95, 152, 227; query.go:95, 96). -/
def indexByte (s : Str) (c : UInt8) : Option Nat := s.findIdx? (· == c)

/-- `strings.LastIndex(s, c)` for a one-byte needle; `none` is `-1` (tree.go:70; util.go:52). -/
def lastIndexByte (s : Str) (c : UInt8) : Option Nat :=
  (indexByte s.reverse c).map (fun i => s.length - 1 - i)

/-- `strings.Count(s, c)` for a one-byte needle (tree.go:98). -/
def countByte (s : Str) (c : UInt8) : Nat := s.countP (· == c)

/-- `strings.ContainsAny(s, cs)` for ASCII `cs` (tree.go:65, 98). -/
def containsAny (s cs : Str) : Bool := s.any (fun x => cs.contains x)

/-- `strings.Contains` (router.go:332; tree.go:115, 118; content.go:102, 335; m_logger.go:62). -/
def containsStr : Str → Str → Bool
  | [], sub => sub.isEmpty
  | c :: cs, sub => sub.isPrefixOf (c :: cs) || containsStr cs sub

/-- `strings.Split(s, sep)` for a one-byte separator (tree.go:134; router.go:336). -/
def splitB (c : UInt8) : Str → List Str
  | [] => [[]]
  | x :: xs =>
    if x == c then [] :: splitB c xs
    else match splitB c xs with
      | [] => [[x]]
      | y :: ys => (x :: y) :: ys

/-- `strings.Index(s, sub)` for a general needle; `none` is `-1` (binding/mapping.go:31). -/
def indexStr : Str → Str → Option Nat
  | [], sub => if sub.isEmpty then some 0 else none
  | c :: cs, sub => if sub.isPrefixOf (c :: cs) then some 0 else (indexStr cs sub).map (· + 1)

/-- `strings.Split(s, sep)` for a non-empty separator; `fuel` bounds the number of cuts
(util.go:36 with sep `", "`). -/
def splitStrF : Nat → Str → Str → List Str
  | 0, _, s => [s]
  | n + 1, sep, s =>
    match indexStr s sep with
    | none => [s]
    | some i => s.take i :: splitStrF n sep (s.drop (i + sep.length))

/-- `strings.Split(s, sep)` for a non-empty separator (util.go:36): at most `len(s)` cuts. -/
def splitStr (sep s : Str) : List Str := splitStrF s.length sep s

/-- `strings.Join(ls, sep)` (router.go:264, 347; m_cors.go:77-79). -/
def join (sep : Str) : List Str → Str
  | [] => []
  | [s] => s
  | s :: t :: r => s ++ sep ++ join sep (t :: r)

/-- UTF-8 encodings of the code points for which `unicode.IsSpace` holds. -/
def spaceEnc : List Str :=
  [[9], [10], [11], [12], [13], [32], [0xC2, 0x85], [0xC2, 0xA0], [0xE1, 0x9A, 0x80],
   [0xE2, 0x80, 0x80], [0xE2, 0x80, 0x81], [0xE2, 0x80, 0x82], [0xE2, 0x80, 0x83],
   [0xE2, 0x80, 0x84], [0xE2, 0x80, 0x85], [0xE2, 0x80, 0x86], [0xE2, 0x80, 0x87],
   [0xE2, 0x80, 0x88], [0xE2, 0x80, 0x89], [0xE2, 0x80, 0x8A], [0xE2, 0x80, 0xA8],
   [0xE2, 0x80, 0xA9], [0xE2, 0x80, 0xAF], [0xE2, 0x81, 0x9F], [0xE3, 0x80, 0x80]]

/-- Repeatedly strip a prefix that is one of `encs` (fuel: number of strips). -/
def stripF (encs : List Str) : Nat → Str → Str
  | 0, s => s
  | n + 1, s =>
    match encs.find? (fun e => e.isPrefixOf s) with
    | none => s
    | some e => stripF encs n (s.drop e.length)

/-- `strings.TrimLeftFunc(s, unicode.IsSpace)`. -/
def trimLeft (s : Str) : Str := stripF spaceEnc s.length s

/-- `strings.TrimRightFunc(s, unicode.IsSpace)`: the last rune of a string is a white space rune
exactly when the string ends with its encoding. -/
def trimRight (s : Str) : Str :=
  (stripF (spaceEnc.map List.reverse) s.length s.reverse).reverse

/-- `strings.TrimSpace` (tree.go:85, 97, 106, 136; router.go:234, 340, 343; query.go:29, 80, 97). -/
def trimSpace (s : Str) : Str := trimRight (trimLeft s)

/-- `strings.TrimRight(s, "/")` (m_static.go:49): drop all trailing slashes. -/
def trimRightSlashes (s : Str) : Str := (s.reverse.dropWhile (· == slash)).reverse

/-- One step of `strings.ToUpper` in front of the mapped rest: ASCII letters, and the two other characters whose upper
case is an ASCII letter, U+0131 (dotless i) and U+017F (long s). -/
def upperStep (c : UInt8) (rest : Str) : Str :=
  if c = 0xC4 ∧ rest.head? = some 0xB1 then 73 :: rest.tail
  else if c = 0xC5 ∧ rest.head? = some 0xBF then 83 :: rest.tail
  else (if 97 ≤ c ∧ c ≤ 122 then c - 32 else c) :: rest

/-- `strings.ToUpper` (util.go:88). Simplification: characters whose upper case is not ASCII are left alone; the result is
only compared with ASCII texts. -/
def toUpper (s : Str) : Str := s.foldr upperStep []

/-- One step of `strings.ToLower` in front of the mapped rest: ASCII letters, and the two other characters whose lower
case is an ASCII letter, U+0130 (dotted I) and U+212A (Kelvin sign). -/
def lowerStep (c : UInt8) (rest : Str) : Str :=
  if c = 0xC4 ∧ rest.head? = some 0xB0 then 105 :: rest.tail
  else if c = 0xE2 ∧ rest.take 2 = [0x84, 0xAA] then 107 :: rest.drop 2
  else (if 65 ≤ c ∧ c ≤ 90 then c + 32 else c) :: rest

/-- `strings.ToLower` (content.go:102, 103; binding/mapping.go:399, 450). Simplification: characters whose lower case is
not ASCII are left alone; the result is only compared with ASCII texts. -/
def toLower (s : Str) : Str := s.foldr lowerStep []

/-- Decimal digits of a natural number; `fuel` bounds the number of digits. -/
def decDigitsF : Nat → Nat → Str
  | 0, _ => []
  | f + 1, n =>
    if n < 10 then [UInt8.ofNat (48 + n)] else decDigitsF f (n / 10) ++ [UInt8.ofNat (48 + n % 10)]

/-- `strconv.Itoa` on a non-negative argument (tree.go:263, 308, 323). -/
def itoaNat (n : Nat) : Str := decDigitsF (n + 1) n

/-- `strconv.Itoa` (m_cors.go:80). -/
def itoa (i : Int) : Str := if i < 0 then 45 :: itoaNat i.natAbs else itoaNat i.toNat

/-- A Go map used only through lookup and assignment. -/
abbrev Map (κ ν : Type) := κ → Option ν

/-- The empty map, `make(map[..]..)`. -/
def Map.empty {κ ν : Type} : Map κ ν := fun _ => none

/-- Map assignment `m[k] = v`. -/
def Map.set {κ ν : Type} [DecidableEq κ] (m : Map κ ν) (k : κ) (v : ν) : Map κ ν :=
  fun k' => if k' = k then some v else m k'

/-- Why a construction panicked. -/
inductive Panic where
  | spaces            -- tree.go:107
  | badFormat         -- tree.go:72
  | badRegexp         -- tree.go:123, 125 and the slice panic of tree.go:97
  | doubleUri         -- router.go:94
  | nilHandler        -- router.go:158
  | unsupported       -- engine.go:37, router.go:144
  | emptyHandlers     -- router.go:269
  | invalidRoute      -- router.go:311
  | subRouter         -- router.go:123, 283, 352; m_static.go:38, 132
  | noSuchRouter      -- model only: an operation on a router handle that does not exist
  | noFileSystem      -- m_static.go:52
  | noNoFound         -- option.go:23
  deriving DecidableEq, Repr

end Water
