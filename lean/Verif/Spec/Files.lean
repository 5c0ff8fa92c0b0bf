import Verif.Model.Files
/-
Specification of static file serving: paths below a prefix, and the description of a file version.
-/
namespace Water.Spec
open Water

/-- The elements of a prefix: the texts between slashes, without empty ones and `.`. -/
def elems (p : Str) : List Str := (splitB slash p).filter (fun s => s ≠ [] && s ≠ b!".")

/-- An ordinary element: not `..`, and without meaning in a pattern. -/
structure Ordinary (s : Str) : Prop where
  noParent : s ≠ b!".."
  noColon : s.head? ≠ some colon
  noStar : s.head? ≠ some star
  noBracket : lt ∉ s

/-- The path of `name` below the directory with these elements. -/
def pathBelow (es : List Str) (name : Str) : Str := es.flatMap (fun s => slash :: s) ++ slash :: name

/-- Two descriptions of the same version of a file, as far as a kind of tag can tell: modified in the same second,
equal size and, for the second kind, equal name. -/
def SameVersion (etag : ETagType) (i j : FileInfo) : Prop :=
  i.modTime / 1000000000 = j.modTime / 1000000000 ∧ i.size = j.size ∧ (etag ≠ 1 → i.name = j.name)

/-- Hexadecimal digits (lowercase). -/
def hexVal (c : UInt8) : Nat := if c.toNat < 58 then c.toNat - 48 else c.toNat - 87

/-- The number a digit string stands for. -/
def hexRead (s : Str) : Nat := s.foldl (fun n c => 16 * n + hexVal c) 0

/-- One step from a directory, given by its elements from the root: stay, go up, or go down. -/
def walkStep (dir : List Str) (e : Str) : List Str :=
  if e = [] ∨ e = b!"." then dir else if e = b!".." then dir.dropLast else dir ++ [e]

/-- Where a path leads from the working directory `cwd`, if there are no symbolic links. -/
def walk (cwd : List Str) (p : Str) : List Str :=
  (splitB slash p).foldl walkStep (if p.head? = some slash then [] else cwd)

/-- `p` leads to the directory `root` or to something inside it. -/
def Inside (cwd : List Str) (root p : Str) : Prop := walk cwd root <+: walk cwd p

end Water.Spec
