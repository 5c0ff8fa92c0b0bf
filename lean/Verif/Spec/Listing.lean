import Verif.Spec.Address
import Verif.Spec.Escape
/-
Listings of directories: what C137 is about. Nothing of this is in /repo.
-/
namespace Water.Spec
open Water

/-- The character references the examples need: those of Spec/Escape, and the colon. -/
def attrReferences : List (Str × UInt8) := references ++ [(b!"&colon;", 58)]

/-- A reader of HTML takes the first text, in the quotes of an attribute, for the second. -/
inductive AttrReads : Str → Str → Prop where
  | nil : AttrReads [] []
  | plain {c : UInt8} {t s : Str} : c ∉ markup → AttrReads t s → AttrReads (c :: t) (c :: s)
  | reference {e : Str} {c : UInt8} {t s : Str} : (e, c) ∈ attrReferences → AttrReads t s → AttrReads (e ++ t) (c :: s)

/-- RFC 3986, 5.2.4: segments that are one dot go away, two dots take the segment before with them. As in browsers, the dots may be
percent-encoded. -/
def removeDots : List Str → List Str → List Str
  | done, [] => done
  | done, s :: rest =>
    if pctDecode s = b!"." then (if rest = [] then done ++ [[]] else removeDots done rest)
    else if pctDecode s = b!".." then (if rest = [] then done.dropLast ++ [[]] else removeDots done.dropLast rest)
    else removeDots (done ++ [s]) rest

/-- a path without dot segments, from its segments -/
def rebuilt (segs : List Str) : Str := slash :: join [slash] (removeDots [] segs)

/-- RFC 3986, 5.2.2: the path where a reference without scheme and host leads from the path `base`. -/
def follow (base ref : Str) : Str :=
  let p := ref.takeWhile (fun c => c != 63 && c != 35)
  if p = [] then base
  else if p.head? = some slash then rebuilt (splitB slash p.tail)
  else rebuilt (splitB slash ((base.reverse.dropWhile (· != slash)).reverse.tail ++ p))

/-- The path of an address, as a client sends it for a directory: it begins and ends with a slash, and has no dot segments. -/
structure DirAddress (u : Str) : Prop where
  rooted : u.head? = some slash
  closed : u.getLast? = some slash
  nodots : ∀ s ∈ splitB slash u, pctDecode s ≠ b!"." ∧ pctDecode s ≠ b!".."

/-- The line shows the name and links to it: it is a link of HTML, its text means the name, and who follows it from the address `u` stays
on the site and asks for the name in the directory. -/
def Links (u line name : Str) : Prop :=
  ∃ h t, line = b!"<a href=\"" ++ h ++ b!"\">" ++ t ++ b!"</a>\n" ∧ 34 ∉ h ∧ Means t name ∧ (∃ a, AttrReads h a) ∧
    ∀ a, AttrReads h a → ¬ Elsewhere a ∧ pctDecode (follow u a) = pctDecode u ++ name

/-- What is shown of an entry: its name, with a slash behind it if it is a directory. -/
def shownName (e : Str × Bool) : Str := if e.2 then e.1 ++ b!"/" else e.1

end Water.Spec
