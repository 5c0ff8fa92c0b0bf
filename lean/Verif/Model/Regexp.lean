import Verif.Model.Util
import Verif.Model.Pattern
/-
Go's package regexp, as far as expressions of a route need it: what `regexp.MustCompile` (tree.go:123) makes of an expression and what
`FindStringSubmatch` (tree.go:242, 283) returns. The theorems about routing hold for every `Regex`; this is the one of the standard library,
for expressions written in ASCII with `.`, `\d`, `\w`, `\s`, classes, groups, `(?:`, `|`, `*`, `+`, `?`, the same with `?` behind, `^` and `$`.
The body of `*` and `+` must not match the empty text. Not modelled: `{n,m}`, flags, named groups, `\b`, POSIX and Unicode classes.
-/
namespace Water

/-- What stands for one character: a character, `.`, `\d`, `\w`, `\s`, or a class given by ranges. -/
inductive CharSet where
  | char (c : UInt8)
  | any
  | digit
  | word
  | space
  | set (neg : Bool) (ranges : List (UInt8 × UInt8))
  deriving DecidableEq, Repr

/-- the operators of repetition -/
inductive RepOp where
  | star
  | plus
  | quest
  deriving DecidableEq, Repr

/-- An expression: the empty one, one character, `(a)`, `(?:a)`, `a*` (and so on, with `?` behind if `lazy`), `^`, `$`, `ab`, `a|b`. -/
inductive Re where
  | eps
  | one (c : CharSet)
  | group (a : Re)
  | nc (a : Re)
  | rep (k : RepOp) (lazy : Bool) (a : Re)
  | bot
  | eot
  | cat (a b : Re)
  | alt (a b : Re)
  deriving DecidableEq, Repr

/-! ### how an expression is written -/

/-- a character of an expression; those with a meaning of their own have a backslash -/
def showChar (c : UInt8) : Str := if b!"\\.+*?()|[]{}^$".contains c then [92, c] else [c]

/-- a character in a class -/
def showInClass (c : UInt8) : Str := if b!"[]\\^-".contains c then [92, c] else [c]

/-- a range in a class -/
def showRange (r : UInt8 × UInt8) : Str := if r.1 = r.2 then showInClass r.1 else showInClass r.1 ++ [45] ++ showInClass r.2

/-- what stands for one character -/
def CharSet.text : CharSet → Str
  | .char c => showChar c
  | .any => b!"."
  | .digit => b!"\\d"
  | .word => b!"\\w"
  | .space => b!"\\s"
  | .set neg rs => b!"[" ++ (if neg then b!"^" else []) ++ rs.flatMap showRange ++ b!"]"

/-- an operator -/
def RepOp.text : RepOp → Str
  | .star => b!"*"
  | .plus => b!"+"
  | .quest => b!"?"

/-- an expression -/
def Re.text : Re → Str
  | .eps => []
  | .one c => c.text
  | .group a => b!"(" ++ a.text ++ b!")"
  | .nc a => b!"(?:" ++ a.text ++ b!")"
  | .rep k lazy a => a.text ++ k.text ++ (if lazy then b!"?" else [])
  | .bot => b!"^"
  | .eot => b!"$"
  | .cat a b => a.text ++ b.text
  | .alt a b => a.text ++ b!"|" ++ b.text

/-! ### which expressions are meant -/

/-- characters that can be typedByte -/
def typedByte (c : UInt8) : Bool := 32 ≤ c && c ≤ 126

/-- classes have ranges, from a smaller to a larger character -/
def CharSet.ok : CharSet → Bool
  | .char c => typedByte c
  | .set _ rs => rs != [] && rs.all (fun r => typedByte r.1 && typedByte r.2 && r.1 ≤ r.2)
  | _ => true

/-- what an operator of repetition can follow -/
def Re.isAtom : Re → Bool
  | .one _ | .group _ | .nc _ => true
  | _ => false

/-- what can be the left part of a sequence -/
def Re.isItem : Re → Bool
  | .eps | .cat _ _ | .alt _ _ => false
  | _ => true

/-- whether the expression may match the empty text -/
def Re.nullable : Re → Bool
  | .eps | .bot | .eot => true
  | .one _ => false
  | .group a | .nc a => a.nullable
  | .rep .plus _ a => a.nullable
  | .rep _ _ _ => true
  | .cat a b => a.nullable && b.nullable
  | .alt a b => a.nullable || b.nullable

/-- `|` binds weaker than a sequence, a sequence weaker than repetition; what is repeated does not match the empty text. -/
def Re.ok : Re → Bool
  | .eps | .bot | .eot => true
  | .one c => c.ok
  | .group a | .nc a => a.ok
  | .rep k _ a => a.isAtom && a.ok && (k == .quest || !a.nullable)
  | .cat a b => a.isItem && a.ok && b.ok && (match b with | .alt _ _ | .eps => false | _ => true)
  | .alt a b => a.ok && b.ok && (match a with | .alt _ _ => false | _ => true)

/-- the number of groups -/
def Re.groups : Re → Nat
  | .group a => a.groups + 1
  | .nc a | .rep _ _ a => a.groups
  | .cat a b | .alt a b => a.groups + b.groups
  | _ => 0

/-! ### what is found -/

/-- A text as the package reads it: characters, each with its bytes; a byte that is not part of one stands for U+FFFD. `fuel` bounds the
number of characters. -/
def runesF : Nat → Str → List (Nat × Str)
  | 0, _ => []
  | _ + 1, [] => []
  | f + 1, s => ((decodeRune s).1, s.take (max 1 (decodeRune s).2)) :: runesF f (s.drop (max 1 (decodeRune s).2))

/-- see `runesF` -/
def runesOf (s : Str) : List (Nat × Str) := runesF s.length s

/-- whether a character is meant -/
def CharSet.has : CharSet → Nat → Bool
  | .char c, r => r == c.toNat
  | .any, r => r != 10
  | .digit, r => 48 ≤ r && r ≤ 57
  | .word, r => (48 ≤ r && r ≤ 57) || (65 ≤ r && r ≤ 90) || (97 ≤ r && r ≤ 122) || r == 95
  | .space, r => r == 9 || r == 10 || r == 12 || r == 13 || r == 32
  | .set neg rs, r => rs.any (fun x => x.1.toNat ≤ r && r ≤ x.2.toNat) != neg

/-- What groups matched: number of the group, and from where to where. Later entries count. -/
abbrev Caps := List (Nat × Nat × Nat)

/-- `a*` from position `i`, given the matches of `a`; the rounds that the operator prefers come first. Each round moves on; `fuel` bounds
their number. -/
def rounds (body : Nat → List (Nat × Caps)) (lazy : Bool) : Nat → Nat → List (Nat × Caps)
  | 0, i => [(i, [])]
  | f + 1, i =>
    let more := (body i).flatMap (fun x => if i < x.1 then (rounds body lazy f x.1).map (fun y => (y.1, x.2 ++ y.2)) else [])
    if lazy then (i, []) :: more else more ++ [(i, [])]

/-- The matches of an expression from position `i` of a text, in the order in which the package prefers them; the first group has number
`k`. -/
def runs (t : List (Nat × Str)) : Re → Nat → Nat → List (Nat × Caps)
  | .eps, _, i => [(i, [])]
  | .one c, _, i =>
    match t[i]? with
    | some x => if c.has x.1 then [(i + 1, [])] else []
    | none => []
  | .group a, k, i => (runs t a (k + 1) i).map (fun x => (x.1, x.2 ++ [(k, i, x.1)]))
  | .nc a, k, i => runs t a k i
  | .rep .star lazy a, k, i => rounds (runs t a k) lazy (t.length - i) i
  | .rep .plus lazy a, k, i =>
    (runs t a k i).flatMap (fun x => (rounds (runs t a k) lazy (t.length - x.1) x.1).map (fun y => (y.1, x.2 ++ y.2)))
  | .rep .quest lazy a, k, i => if lazy then (i, []) :: runs t a k i else runs t a k i ++ [(i, [])]
  | .bot, _, i => if i = 0 then [(i, [])] else []
  | .eot, _, i => if i = t.length then [(i, [])] else []
  | .cat a b, k, i => (runs t a k i).flatMap (fun x => (runs t b (k + a.groups) x.1).map (fun y => (y.1, x.2 ++ y.2)))
  | .alt a b, k, i => runs t a k i ++ runs t b (k + a.groups) i

/-- the text from one position to another -/
def cutRunes (t : List (Nat × Str)) (i j : Nat) : Str := ((t.take j).drop i).flatMap Prod.snd

/-- what group `k` matched: its last entry, or nothing -/
def groupText (t : List (Nat × Str)) (caps : Caps) (k : Nat) : Str :=
  match caps.reverse.find? (fun e => e.1 == k) with
  | some (_, i, j) => cutRunes t i j
  | none => []

/-- `FindStringSubmatch`, starting at position `i` or later: the first position from which something matches, and there the match that is
preferred; the whole match first, then the groups. `n` is how many positions there are. -/
def findFrom (t : List (Nat × Str)) (r : Re) : Nat → Nat → List Str
  | 0, _ => []
  | n + 1, i =>
    match runs t r 1 i with
    | (j, caps) :: _ => cutRunes t i j :: (List.range r.groups).map (fun k => groupText t caps (k + 1))
    | [] => findFrom t r n (i + 1)

/-- `FindStringSubmatch` -/
def Re.find (r : Re) (s : Str) : List Str := findFrom (runesOf s) r ((runesOf s).length + 1) 0

/-! ### how an expression is read -/

/-- one character of a class, perhaps with a backslash -/
def readInClass : Str → Option (UInt8 × Str)
  | [] => none
  | a :: s =>
    if a = 92 then
      match s with
      | c :: s => if b!"[]\\^-".contains c then some (c, s) else none
      | [] => none
    else if b!"[]\\^-".contains a then none else some (a, s)

/-- the ranges of a class up to its `]` -/
def readRanges : Nat → Str → Option (List (UInt8 × UInt8) × Str)
  | 0, _ => none
  | f + 1, s =>
    if s.head? = some 93 then some ([], s.tail)
    else
      match readInClass s with
      | none => none
      | some (a, s) =>
        if s.head? = some 45 then
          match readInClass s.tail with
          | none => none
          | some (b, s) => if a = b then none else (readRanges f s).map (fun x => ((a, b) :: x.1, x.2))
        else (readRanges f s).map (fun x => ((a, a) :: x.1, x.2))

/-- what stands for one character -/
def readSet (f : Nat) : Str → Option (CharSet × Str)
  | [] => none
  | a :: s =>
    if a = 46 then some (.any, s)
    else if a = 92 then
      match s with
      | c :: s =>
        if c = 100 then some (.digit, s) else if c = 119 then some (.word, s) else if c = 115 then some (.space, s)
        else if b!"\\.+*?()|[]{}^$".contains c then some (.char c, s) else none
      | [] => none
    else if a = 91 then
      if s.head? = some 94 then (readRanges f s.tail).map (fun x => (.set true x.1, x.2))
      else (readRanges f s).map (fun x => (.set false x.1, x.2))
    else if b!"\\.+*?()|[]{}^$".contains a then none else some (.char a, s)

/-- `?` behind an operator -/
def readLazy (k : RepOp) (a : Re) (s : Str) : Re × Str := if s.head? = some 63 then (.rep k true a, s.tail) else (.rep k false a, s)

/-- an operator behind an atom -/
def readOp (a : Re) : Str → Re × Str
  | [] => (a, [])
  | c :: s =>
    if c = 42 then readLazy .star a s else if c = 43 then readLazy .plus a s else if c = 63 then readLazy .quest a s else (a, c :: s)

mutual

/-- alternatives -/
def readAlt : Nat → Str → Option (Re × Str)
  | 0, _ => none
  | f + 1, s =>
    match readCat f s with
    | none => none
    | some (a, s) => if s.head? = some 124 then (readAlt f s.tail).map (fun x => (.alt a x.1, x.2)) else some (a, s)

/-- a sequence -/
def readCat : Nat → Str → Option (Re × Str)
  | 0, _ => none
  | f + 1, s =>
    if s = [] ∨ s.head? = some 124 ∨ s.head? = some 41 then some (.eps, s)
    else
      match readItem f s with
      | none => none
      | some (a, s) => (readCat f s).map (fun x => (if x.1 = .eps then a else .cat a x.1, x.2))

/-- an item of a sequence -/
def readItem : Nat → Str → Option (Re × Str)
  | 0, _ => none
  | f + 1, s =>
    if s.head? = some 94 then some (.bot, s.tail)
    else if s.head? = some 36 then some (.eot, s.tail)
    else if s.head? = some 40 then
      let nc := s.take 3 = b!"(?:"
      match readAlt f (if nc then s.drop 3 else s.drop 1) with
      | none => none
      | some (a, s) => if s.head? = some 41 then some (readOp (if nc then .nc a else .group a) s.tail) else none
    else (readSet f s).map (fun x => readOp (.one x.1) x.2)

end

/-- `regexp.MustCompile` on the subset: nothing if the text is none of its expressions -/
def Re.read (s : Str) : Option Re :=
  match readAlt (3 * s.length + 3) s with
  | some (r, []) => if r.ok then some r else none
  | _ => none

/-- The package on the subset; texts that are not in the subset do not compile here. -/
def goRegex : Regex where
  compiles := fun e => (Re.read e).isSome
  find := fun e s => match Re.read e with | some r => r.find s | none => []

end Water
