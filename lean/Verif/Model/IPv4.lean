import Verif.Model.Cookie
/- `net.ParseIP` (Go 1.15 net/ip.go, net/parse.go) for texts without a colon, as `http.validCookieDomain` calls it for the domain of a
cookie (cookie.go:109: `Cookie.String`). Without a colon `ParseIP` is `parseIPv4`, and a text with a colon is none. -/
namespace Water

/-- The limit of `dtoi` (net/parse.go). -/
def dtoiBig : Nat := 0xFFFFFF

/-- `dtoi`: the number at the beginning and what is behind it; `n`: the number so far, `i`: a digit was seen. -/
def dtoi : Nat → Bool → Str → Option (Nat × Str)
  | n, i, [] => if i then some (n, []) else none
  | n, i, c :: cs =>
    if 48 ≤ c && c ≤ 57 then
      let n := n * 10 + (c.toNat - 48)
      if n ≥ dtoiBig then none else dtoi n true cs
    else if i then some (n, c :: cs) else none

/-- The loop of `parseIPv4`, with `k` bytes to come. -/
def parseIPv4Loop : Nat → Bool → Str → Option Str
  | 0, _, s => some s
  | k + 1, first, s =>
    match s with
    | [] => none
    | c :: cs =>
      if !first && c != 46 then none
      else
        match dtoi 0 false (if first then c :: cs else cs) with
        | none => none
        | some (n, r) => if n > 0xFF then none else parseIPv4Loop k false r

/-- `parseIPv4`, whether it returns an address -/
def parseIPv4 (s : Str) : Bool := parseIPv4Loop 4 true s = some []

end Water
