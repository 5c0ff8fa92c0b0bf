import Verif.Model.Str
/-
Route pattern segments: tree.go:10-140, router.go:331-348, util.go:74-85.
-/
namespace Water

/-- Segment kinds, in the order of the constants of tree.go:10-15. -/
inductive PTyp where
  | static | regexp | holder | matchAll
  deriving DecidableEq, Repr

/-- The byte value of the constant (tree.go:11-14); `typ` comparisons at tree.go:172, 197 use it. -/
def PTyp.ord : PTyp → Nat
  | .static => 0 | .regexp => 1 | .holder => 2 | .matchAll => 3

/-- Go's `regexp` package as an arbitrary oracle (trusted base): `compiles re` says whether
`regexp.MustCompile` succeeds, `find re s` is `FindStringSubmatch(s)` (`[]` is the nil result). -/
structure Regex where
  compiles : Str → Bool
  find : Str → Str → List Str

/-- The parts of `node` computed from the pattern (tree.go:22-26). `reg` is the source text of the
compiled regexp (`[]` when `node.reg` is nil); it is only consulted for regexp segments. -/
structure Seg where
  typ : PTyp
  pattern : Str
  parsed : Str
  wildcards : List Str
  reg : Str
  deriving DecidableEq, Repr

/-- `getparsedPattern` (tree.go:60-86). -/
def getparsedPattern (pattern : Str) : Except Panic Str :=
  if hasPrefix pattern [star] then .ok pattern
  else if !containsAny pattern [lt, gt] then .ok pattern
  else
    let startIdx := indexByte pattern lt
    let endIdx := lastIndexByte pattern gt
    if !(startIdx == some 0 && endIdx == some (pattern.length - 1)) then .error .badFormat
    else
      let closeIdx :=
        match indexByte pattern colon with
        | some t => t
        | none =>
          match indexByte pattern tilde with
          | some r => r
          | none => pattern.length - 1
      .ok (trimSpace ((pattern.take closeIdx).drop 1))

/-- `getWildcards` (tree.go:133-140). -/
def getWildcards (pattern : Str) : List Str := (splitB comma pattern).map trimSpace

/-- `partternRegexp` (tree.go:89-103); the error return and the out-of-range slice both become the
panic that `analyzePattern` raises. -/
def partternRegexp (pattern : Str) (want : Nat) : Except Panic Str :=
  if want = 0 then .error .badRegexp
  else
    match indexByte pattern tilde, indexByte pattern gt with
    | some startIdx, some closeIdx =>
      if closeIdx < startIdx + 1 then .error .badRegexp
      else
        let regExp := trimSpace ((pattern.take closeIdx).drop (startIdx + 1))
        if containsAny pattern [lparen, rparen] &&
            !(countByte regExp lparen == want && countByte regExp lparen == countByte regExp rparen) then
          .error .badRegexp
        else .ok regExp
    | _, _ => .error .badRegexp

/-- `analyzePattern` + `newNode` (tree.go:42-53, 105-131). -/
def analyzePattern (rx : Regex) (pattern : Str) : Except Panic Seg :=
  if pattern ≠ trimSpace pattern then .error .spaces
  else do
    let parsed ← getparsedPattern pattern
    if hasPrefix parsed [star] then
      return { typ := .matchAll, pattern, parsed := trimPrefix parsed [star], wildcards := [], reg := [] }
    else if containsStr pattern [lt] then
      let wildcards := getWildcards parsed
      if containsStr pattern [tilde] then
        let regExp ← partternRegexp pattern wildcards.length
        if rx.compiles regExp then
          return { typ := .regexp, pattern, parsed, wildcards, reg := regExp }
        else .error .badRegexp
      else
        return { typ := .holder, pattern, parsed, wildcards, reg := [] }
    else
      return { typ := .static, pattern, parsed, wildcards := [], reg := [] }

/-- One segment of `_VariantUri` (router.go:338-345). -/
def variantSeg (v : Str) : Str :=
  if hasPrefix v [colon] then [lt] ++ trimSpace (v.drop 1) ++ [gt]
  else if hasPrefix v [star] then trimSpace v
  else v

/-- `_VariantUri` (router.go:331-348). -/
def variantUri (raw : Str) : Str :=
  if !containsStr raw [slash, colon] && !containsStr raw [slash, star] then raw
  else join [slash] ((splitB slash raw).map variantSeg)

/-- `checkSplitPattern` (util.go:74-77). -/
def checkSplitPattern (pattern : Str) : Bool :=
  match pattern.head?, pattern.getLast? with
  | some h, some l => h == slash && l != slash
  | _, _ => false

/-- The loop of `reverseStrings` (util.go:80-82): swap positions `i` and `j` while `i < j`. -/
def reverseLoop : Nat → List Str → Nat → Nat → List Str
  | 0, s, _, _ => s
  | f + 1, s, i, j =>
    if i < j then
      reverseLoop f ((s.set i (s.getD j [])).set j (s.getD i [])) (i + 1) (j - 1)
    else s

/-- `reverseStrings` (util.go:79-85). -/
def reverseStrings (s : List Str) : List Str := reverseLoop s.length s 0 (s.length - 1)

end Water
