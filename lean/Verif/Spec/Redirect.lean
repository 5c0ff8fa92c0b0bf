import Verif.Spec.Clean
import Verif.Model.Util
/- Specification of redirects: what a client makes of a location (RFC 3986), and of the text of a link. -/
namespace Water.Spec
open Water

/-- the value of a hexadecimal digit -/
def digitOf (c : UInt8) : Option Nat :=
  if 48 ≤ c.toNat ∧ c.toNat ≤ 57 then some (c.toNat - 48)
  else if 97 ≤ c.toNat ∧ c.toNat ≤ 102 then some (c.toNat - 87)
  else if 65 ≤ c.toNat ∧ c.toNat ≤ 70 then some (c.toNat - 55)
  else none

/-- Percent-decoding; a percent sign without two digits stands for itself. -/
def pctDecode : Str → Str
  | [] => []
  | c :: s =>
    if c = 37 then
      match s with
      | a :: b :: r =>
        match digitOf a, digitOf b with
        | some x, some y => UInt8.ofNat (16 * x + y) :: pctDecode r
        | _, _ => c :: pctDecode (a :: b :: r)
      | [a] => [c, a]
      | [] => [c]
    else c :: pctDecode s

/-- The path a client asks for when it follows a location without host: it ends at `?` or `#`, and is decoded by the server. -/
def locPath (loc : Str) : Str := pctDecode (loc.takeWhile (fun c => c != 63 && c != 35))

/-- The location names a path on the same host: it starts with one slash, not two. -/
def OnHost (loc : Str) : Prop := loc.head? = some slash ∧ loc.tail.head? ≠ some slash

/-- A byte that browsers drop from an address (tab, line feed, carriage return) or take for a slash (backslash). -/
def WebByte (c : UInt8) : Prop := c = 9 ∨ c = 10 ∨ c = 13 ∨ c = 92

/-- How a browser reads the beginning of a location (the URL standard of the web, unlike RFC 3986): tabs and line ends are dropped, and
a backslash is a slash. -/
def webReads (loc : Str) : Str :=
  (loc.filter (fun c => c != 9 && c != 10 && c != 13)).map (fun c => if c = 92 then slash else c)

/-- The directory a path is in: the way its elements lead, without the last. -/
def dirOf (p : Str) : List Str := (splitB slash p).dropLast.foldl walkStep []

/-- What a browser reads for a text with the five entities. -/
def htmlRead : Str → Str
  | [] => []
  | c :: s =>
    if c = 38 then
      if b!"amp;".isPrefixOf s then 38 :: htmlRead (s.drop 4)
      else if b!"lt;".isPrefixOf s then 60 :: htmlRead (s.drop 3)
      else if b!"gt;".isPrefixOf s then 62 :: htmlRead (s.drop 3)
      else if b!"#34;".isPrefixOf s then 34 :: htmlRead (s.drop 4)
      else if b!"#39;".isPrefixOf s then 39 :: htmlRead (s.drop 4)
      else c :: htmlRead s
    else c :: htmlRead s
termination_by s => s.length
decreasing_by all_goals simp <;> omega

end Water.Spec
