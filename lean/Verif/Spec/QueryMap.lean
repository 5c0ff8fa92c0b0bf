import Verif.Spec.Values
import Verif.Spec.Url
/-
A client that writes a map into a query string, as the comment of QueryMap shows it (query.go:85-88): `name[key]=value` for each entry.
-/
namespace Water.Spec
open Water

/-- the pairs that are sent for the entries of a map -/
def mapPairs (name : Str) (entries : List (Str × Str)) : List (Str × Str) :=
  entries.map (fun e => (name ++ b!"[" ++ e.1 ++ b!"]", e.2))

/-- the map with these entries, the first of a key first -/
def asMap : List (Str × Str) → Map Str Str
  | [] => fun _ => none
  | (k, v) :: es => fun x => if x = k then some v else asMap es x

/-- an entry that `name[key]=value` can hold: the name and the key are not empty, the brackets that end them are not in them, and there is
no white space around the value -/
def EntrySafe (name : Str) (e : Str × Str) : Prop :=
  name ≠ [] ∧ e.1 ≠ [] ∧ lbrack ∉ name ∧ rbrack ∉ e.1 ∧ Trimmed e.2 e.2

/-- a pair that is not of the shape `name[key]...` -/
def OffMap (name : Str) (p : Str × Str) : Prop := ∀ key, ¬ Files name key p.1

end Water.Spec
