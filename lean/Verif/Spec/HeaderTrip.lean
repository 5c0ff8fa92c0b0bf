import Verif.Spec.HeaderBind
import Verif.Spec.RoundTripOld
import Verif.Model.Content
/-
Header lines on the wire.
-/
namespace Water.Spec
open Water

/-- blanks and line breaks -/
def spaceBytes : Str := [32, 9, 10, 13]

/-- a text without the blanks and line breaks at its ends -/
def stripped (s : Str) : Str := ((s.dropWhile (· ∈ spaceBytes)).reverse.dropWhile (· ∈ spaceBytes)).reverse

/-- How a value is written in a header line: line breaks within it are made spaces, and its ends are stripped. This is what `Header.Write` of
net/http does; browsers strip the ends as well, and refuse line breaks. -/
def fieldText (v : Str) : Str := stripped (v.map (fun c => if c = 10 ∨ c = 13 then 32 else c))

/-- the header lines of a request and the empty line behind them -/
def wireHeader (lines : List (Str × Str)) : Str := lines.flatMap (fun l => l.1 ++ b!": " ++ fieldText l.2 ++ b!"\r\n") ++ b!"\r\n"

/-- A text that a header line can hold: no line breaks, no blanks at its ends. -/
def FieldSafe (t : Str) : Prop := 10 ∉ t ∧ 13 ∉ t ∧ (∀ c, t.head? = some c → c ≠ 32 ∧ c ≠ 9) ∧ (∀ c, t.getLast? = some c → c ≠ 32 ∧ c ≠ 9)

/-- names that can be written in front of the colon -/
def TokenNames (lines : List (Str × Str)) : Prop := ∀ l ∈ lines, l.1 ≠ [] ∧ ∀ c ∈ l.1, c ∈ tokenBytes

/-- fields that net/http takes out of the header, or puts into it: see `serverHeader` -/
def reservedFields : List Str := [b!"Host", b!"Transfer-Encoding", b!"Trailer", b!"Content-Length", b!"Cache-Control"]

/-- a header as a list, in any order of the names -/
structure ListsHeader (h : Header) (F : Form) : Prop where
  distinct : (F.map Prod.fst).Nodup
  filled : ∀ e ∈ F, e.2 ≠ []
  same : ∀ k, F.at k = h k

mutual
/-- the value with each of its strings as a header line holds it -/
def stripVal : Val → Val
  | .string s => .string (fieldText s)
  | .ptr v => .ptr (stripVal v)
  | .struct fs => .struct (stripVals fs)
  | .slice vs => .slice (stripVals vs)
  | v => v
/-- the same of each value -/
def stripVals : List Val → List Val
  | [] => []
  | v :: vs => stripVal v :: stripVals vs
end

end Water.Spec
