import Verif.Spec.Bind
import Verif.Spec.Text
import Verif.Spec.Util
/-
Links: a pattern as its author writes it, filled with values.
-/
namespace Water.Spec
open Water

/-- A part of a pattern: text that stands for itself, or a parameter, written `:x` or `<x>`. -/
inductive LinkPart where
  | text (s : Str)
  | hole (gin : Bool) (x : Str)

/-- how the part is written -/
def LinkPart.written : LinkPart → Str
  | .text s => s
  | .hole true x => [58] ++ x
  | .hole false x => [60] ++ x ++ [62]

/-- Parts between slashes, perhaps with a catch-all `*x` at the end; its name may be empty. -/
structure LinkPattern where
  parts : List LinkPart
  rest : Option Str

/-- how the pattern is written -/
def LinkPattern.written (p : LinkPattern) : Str :=
  [47] ++ join [47] (p.parts.map LinkPart.written ++ (p.rest.map (fun x => [42] ++ x)).toList)

/-- a name of a parameter: letters, digits, underscores and dashes; not just an underscore -/
def LinkName (x : Str) : Prop := x ≠ [] ∧ x ≠ [95] ∧ ∀ c ∈ x, c ∈ smallLetters ++ capitalLetters ++ decimals ++ b!"_-"

/-- text that stands for itself: not empty, no slash, no bracket, no colon or star in front -/
def LinkText (s : Str) : Prop := s ≠ [] ∧ 47 ∉ s ∧ 60 ∉ s ∧ s.head? ≠ some 58 ∧ s.head? ≠ some 42

/-- the names of the parameters of the parts -/
def holesOf : List LinkPart → List Str
  | [] => []
  | .text _ :: ps => holesOf ps
  | .hole _ x :: ps => x :: holesOf ps

/-- A pattern that means what it looks like; all names are different. -/
structure LinkPattern.Sound (p : LinkPattern) : Prop where
  some_part : p.parts ≠ [] ∨ p.rest ≠ none
  text : ∀ s, LinkPart.text s ∈ p.parts → LinkText s
  hole : ∀ x ∈ holesOf p.parts, LinkName x
  rest : ∀ x, p.rest = some x → x = [] ∨ LinkName x
  distinct : (holesOf p.parts ++ p.rest.toList).Nodup

/-- the part with its value -/
def LinkPart.filled (env : Str → Str) : LinkPart → Str
  | .text s => s
  | .hole _ x => env x

/-- The segments of the link: the parts with their values, and for the catch-all the segments `tail`. -/
def LinkPattern.filled (p : LinkPattern) (env : Str → Str) (tail : List Str) : List Str :=
  p.parts.map (LinkPart.filled env) ++ (if p.rest = none then [] else tail)

/-- The link: every segment is escaped as `url.PathEscape` does. -/
def LinkPattern.link (p : LinkPattern) (env : Str → Str) (tail : List Str) : Str :=
  (p.filled env tail).flatMap (fun s => [47] ++ pathEscape s)

/-- Values that can stand between slashes: not empty, no slash; for the catch-all some segments, the last of which is not empty. -/
structure LinkPattern.Fits (p : LinkPattern) (env : Str → Str) (tail : List Str) : Prop where
  value : ∀ x ∈ holesOf p.parts, env x ≠ [] ∧ 47 ∉ env x
  tail : p.rest ≠ none → tail ≠ [] ∧ tail.getLast? ≠ some [] ∧ ∀ s ∈ tail, 47 ∉ s

/-- the key under which the catch-all is found: its name, or `*0` -/
def restKey (x : Str) : Str := if x = [] then b!"*0" else x

end Water.Spec
