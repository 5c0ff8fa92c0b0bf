import Verif.Model.Str
/-
The parts of Go's `strconv` that /repo calls, for base 10, on a platform where `int` has 64 bits. These model
the standard library (go 1.15 `strconv/atoi.go`, `atob.go`); the call sites are cited.
-/
namespace Water

/-- `strconv.NumError.Err`: `ErrSyntax` or `ErrRange`. -/
inductive NumErr where
  | syntax
  | range
  deriving DecidableEq, Repr

/-- The loop of `strconv.ParseUint` in base 10: `n` is the `uint64` accumulator. The additions are modulo 2^64, as in
Go; the range error is returned as soon as it occurs, without looking at the rest. -/
def parseUintLoop (maxVal : Nat) : Nat → Str → Nat × Option NumErr
  | n, [] => (n, none)
  | n, c :: cs =>
    if 48 ≤ c ∧ c ≤ 57 then
      if n ≥ (2 ^ 64 - 1) / 10 + 1 then (maxVal, some .range)
      else
        let n10 := n * 10 % 2 ^ 64
        let n1 := (n10 + (c.toNat - 48)) % 2 ^ 64
        if n1 < n10 ∨ n1 > maxVal then (maxVal, some .range)
        else parseUintLoop maxVal n1 cs
    else (0, some .syntax)

/-- `strconv.ParseUint(s, 10, bits)` (params.go:45, 51; query.go:52, 58, 138, 144; cookie.go:38, 43;
binding/map_form.go, mapping.go:272). -/
def parseUint (bits : Nat) (s : Str) : Nat × Option NumErr :=
  if s = [] then (0, some .syntax) else parseUintLoop (2 ^ bits - 1) 0 s

/-- `strconv.ParseInt(s, 10, bits)` (params.go:40; query.go:46, 132; cookie.go:33; binding/map_form.go,
mapping.go:261). -/
def parseInt (bits : Nat) (s : Str) : Int × Option NumErr :=
  match s with
  | [] => (0, some .syntax)
  | c :: cs =>
    let neg := c == 45
    let s := if c == 43 || c == 45 then cs else s
    match parseUint bits s with
    | (_, some .syntax) => (0, some .syntax)
    | (un, _) =>
      let cutoff := 2 ^ (bits - 1)
      if !neg && un ≥ cutoff then (cutoff - 1, some .range)
      else if neg && un > cutoff then (- cutoff, some .range)
      else (if neg then - un else un, none)

/-- The fast loop of `strconv.Atoi`. -/
def atoiLoop : Int → Str → Option Int
  | n, [] => some n
  | n, c :: cs => if 48 ≤ c ∧ c ≤ 57 then atoiLoop (n * 10 + (c.toNat - 48 : Nat)) cs else none

/-- `strconv.Atoi` (params.go:35; query.go:40, 126; cookie.go:28). -/
def atoi (s : Str) : Int × Option NumErr :=
  if 0 < s.length ∧ s.length < 19 then
    let t := if s.head? = some 45 ∨ s.head? = some 43 then s.drop 1 else s
    if t = [] then (0, some .syntax)
    else
      match atoiLoop 0 t with
      | none => (0, some .syntax)
      | some n => (if s.head? = some 45 then - n else n, none)
  else parseInt 64 s

/-- `strconv.ParseBool` (params.go:30; query.go:34, 120; cookie.go:23; binding/map_form.go, mapping.go:283). -/
def parseBool (s : Str) : Bool × Option NumErr :=
  if s = b!"1" ∨ s = b!"t" ∨ s = b!"T" ∨ s = b!"true" ∨ s = b!"TRUE" ∨ s = b!"True" then (true, none)
  else if s = b!"0" ∨ s = b!"f" ∨ s = b!"F" ∨ s = b!"false" ∨ s = b!"FALSE" ∨ s = b!"False" then (false, none)
  else (false, some .syntax)

end Water
