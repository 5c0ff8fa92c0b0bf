import Verif.Model.Util
import Verif.Model.Cookie
import Verif.Spec.Text
/-
Specification of the header helpers and cookies: percent decoding, prefixes without separators, the attributes of a
Set-Cookie line.
-/
namespace Water.Spec
open Water

/-- The value of a hexadecimal digit of either case. -/
def hexOf (c : UInt8) : Option Nat :=
  if 48 ≤ c ∧ c ≤ 57 then some (c.toNat - 48)
  else if 65 ≤ c ∧ c ≤ 70 then some (c.toNat - 55)
  else if 97 ≤ c ∧ c ≤ 102 then some (c.toNat - 87)
  else none

/-- Percent decoding (RFC 3986). -/
def unescape : Str → Option Str
  | [] => some []
  | c :: rest =>
    if c = 37 then
      match rest with
      | a :: b :: rest => do
        let x ← hexOf a
        let y ← hexOf b
        let r ← unescape rest
        return UInt8.ofNat (16 * x + y) :: r
      | _ => none
    else do
      let r ← unescape rest
      return c :: r

/-- What stands between the first two double quotes. -/
def quoted (s : Str) : Str := ((s.dropWhile (· != 34)).drop 1).takeWhile (· != 34)

/-- `p` is the longest beginning of `s` with the property. -/
def Longest (P : Str → Prop) (s p : Str) : Prop := p <+: s ∧ P p ∧ ∀ q, q <+: s → P q → q <+: p

/-- `e` is the first entry of the list `s`, separated by comma and space. -/
def FirstEntry (s e : Str) : Prop :=
  (¬ ∃ a b, e = a ++ b!", " ++ b) ∧ (s = e ∨ ∃ rest, s = e ++ b!", " ++ rest)

/-- A token of RFC 7230. -/
def Token (s : Str) : Prop := s ≠ [] ∧ ∀ c ∈ s, c ∈ tokenBytes

/-- A byte that can stand in a cookie value: printable ASCII other than double quote, semicolon and backslash. -/
def ValueByte (c : UInt8) : Prop := 32 ≤ c ∧ c ≤ 126 ∧ c ≠ 34 ∧ c ≠ 59 ∧ c ≠ 92

/-- A byte that can stand in a cookie path: printable ASCII other than semicolon. -/
def PathByte (c : UInt8) : Prop := 32 ≤ c ∧ c ≤ 126 ∧ c ≠ 59

/-- A label of a host name: at most 63 letters, digits and dashes, no dash at either end. -/
def HostLabel (l : Str) : Prop :=
  l.length ≤ 63 ∧ (∀ c ∈ l, c ∈ smallLetters ++ capitalLetters ++ decimals ++ b!"-") ∧ l.head? ≠ some 45 ∧ l.getLast? ≠ some 45

/-- Labels between dots; only the last may be empty. -/
inductive Labels : Str → Prop where
  | last {l : Str} : HostLabel l → Labels l
  | cons {l rest : Str} : HostLabel l → l ≠ [] → Labels rest → Labels (l ++ 46 :: rest)

/-- A domain name for a cookie: at most 255 bytes, after an optional dot labels between dots, among them a letter. -/
def DomainName (d : Str) : Prop :=
  d ≠ [] ∧ d.length ≤ 255 ∧ ∃ e, (d = 46 :: e ∨ (d = e ∧ e.head? ≠ some 46)) ∧ Labels e ∧ ∃ c ∈ e, c ∈ smallLetters ++ capitalLetters

/-- A value with a space or a comma is sent in quotes. -/
def wire (v : Str) : Str := if 32 ∈ v ∨ 44 ∈ v then [34] ++ v ++ [34] else v

/-! The extra arguments of `SetCookie` -/

/-- an integer argument -/
def intArg : CArg → Option Int
  | .int v => some v
  | .int32 v => some v
  | .int64 v => some v
  | _ => none
/-- a non-empty string argument -/
def textArg : CArg → Option Str
  | .string [] => none
  | .string v => some v
  | _ => none
/-- the second argument, or `/` -/
def pathArg (others : List CArg) : Str := ((others[1]?).bind textArg).getD b!"/"
/-- the first argument, or 0 -/
def ageArg (others : List CArg) : Int := ((others[0]?).bind intArg).getD 0
/-- the third argument, if any -/
def domainArg (others : List CArg) : Option Str := (others[2]?).bind textArg
/-- whether the fourth argument is given, other than as nil or false -/
def secureArg (others : List CArg) : Bool :=
  match (others[3]? : Option CArg) with
  | none => false
  | some .nil => false
  | some a => a ≠ .bool false
/-- whether the fifth argument is true -/
def httpOnlyArg (others : List CArg) : Bool := others[4]? = some (.bool true)
/-- the sixth argument, if it is a SameSite mode that is printed -/
def siteArg (others : List CArg) : List Str :=
  if others[5]? = some (.sameSite 1) then [b!" SameSite"]
  else if others[5]? = some (.sameSite 2) then [b!" SameSite=Lax"]
  else if others[5]? = some (.sameSite 3) then [b!" SameSite=Strict"]
  else if others[5]? = some (.sameSite 4) then [b!" SameSite=None"]
  else []

/-- The attributes a Set-Cookie line must have, between semicolons. `ok` tells which domains are valid. -/
def attributes (ok : Str → Bool) (others : List CArg) : List Str :=
  [b!" Path=" ++ pathArg others] ++
  (match domainArg others with
    | some d => if ok d then [b!" Domain=" ++ (if d.head? = some 46 then d.tail else d)] else []
    | none => []) ++
  (if ageArg others > 0 then [b!" Max-Age=" ++ itoa (ageArg others)]
    else if ageArg others < 0 then [b!" Max-Age=0"] else []) ++
  (if httpOnlyArg others then [b!" HttpOnly"] else []) ++
  (if secureArg others then [b!" Secure"] else []) ++
  siteArg others

end Water.Spec
