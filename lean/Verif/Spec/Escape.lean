import Verif.Model.Str
/-
Specification: what a reader of HTML makes of a text.
-/
namespace Water.Spec
open Water

/-- The character references used, and what they stand for. -/
def references : List (Str × UInt8) := [(b!"&lt;", 60), (b!"&gt;", 62), (b!"&amp;", 38), (b!"&#34;", 34), (b!"&#39;", 39)]

/-- The bytes with a meaning in HTML: they start a tag or a reference, or end a tag or an attribute. NUL is not allowed. -/
def markup : List UInt8 := [0, 34, 38, 39, 60, 62]

/-- A reader of HTML takes the first text for the second: every byte for itself, references for what they stand for. -/
inductive Means : Str → Str → Prop where
  | nil : Means [] []
  | plain {c : UInt8} {t s : Str} : c ∉ markup → Means t s → Means (c :: t) (c :: s)
  | reference {e : Str} {c : UInt8} {t s : Str} : (e, c) ∈ references → Means t s → Means (e ++ t) (c :: s)

end Water.Spec
