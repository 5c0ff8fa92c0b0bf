import Verif.Spec.Fetch
/-
What a cache between browsers and a server does with the header field Vary: RFC 9111, section 4.1. Nothing of this is in /repo.
-/
namespace Water.Spec
open Water
variable {ω : Type}

/-- The response with the header `h` names the field `n` of the request in Vary: in one of its lines, as one of the pieces between commas. -/
def VaryNames (h : Header) (n : Str) : Prop :=
  ∃ v ∈ (h b!"Vary").getD [], ∃ ps p e, (∀ p ∈ ps, (44 : UInt8) ∉ p) ∧ v = join b!"," ps ∧ p ∈ ps ∧ Padded p e ∧ EqualFold e n

/-- A cache that has the response with the header `h` to the request `q` may answer the request `q'` with it: the method and the address are
the same, and so is every field that the response names in Vary. -/
structure MayReuse (h : Header) (q q' : Req) : Prop where
  method : q'.method = q.method
  address : q'.path = q.path ∧ q'.rawQuery = q.rawQuery
  fields : ∀ n, VaryNames h n → q'.header (canonKey n) = q.header (canonKey n)

/-- The call takes nothing away from the response header `key`. -/
def Grows (key : Str) : Call ω → Prop
  | .setHeader k _ => canonKey k ≠ key
  | .header f => ∀ h v, v ∈ (h key).getD [] → v ∈ ((f h).1 key).getD []
  | _ => True

/-- The handler takes nothing away from Vary: it may add to it. -/
def LeavesVary (p : Prog ω) : Prop := CallsIn (Grows b!"Vary") p

end Water.Spec
