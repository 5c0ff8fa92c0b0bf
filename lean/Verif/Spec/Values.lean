import Verif.Model.Values
import Verif.Spec.Number
import Verif.Spec.Text
/- What the accessors of a request are meant to return. -/
namespace Water.Spec
open Water

/-! ### `Environ`: a history of operations -/

/-- An operation on the store. -/
inductive EnvOp where
  | set (k : Str) (v : EVal)
  | read (k : Str)

/-- The value a name got: that of the first `Set` of the name. -/
def firstSet (k : Str) : List EnvOp → Option EVal
  | [] => none
  | .set k' v :: ops => if k' = k then some v else firstSet k ops
  | .read _ :: ops => firstSet k ops

/-- The store after some operations; panics are recovered from. -/
def envAfter : Environ → List EnvOp → Environ
  | m, [] => m
  | m, .set k v :: ops => envAfter (m.set k v).2 ops
  | m, .read _ :: ops => envAfter m ops

/-! ### Numbers -/

/-- `v` is a right reading of `s` as a signed integer of 64 bits: the value, or the nearest bound; anything that is
not a number is 0 - unless its leading digits alone are out of range (`over`): then it is a bound, whatever follows. -/
structure ReadInt (s : Str) (v : Int) : Prop where
  number : ∀ n, Signed s n → v = clamp (-(2 ^ 63)) (2 ^ 63 - 1) n
  other : (∀ n, ¬ Signed s n) → value (lead (unsigned s)) < 2 ^ 64 → v = 0
  over : (∀ n, ¬ Signed s n) → 2 ^ 64 ≤ value (lead (unsigned s)) →
    v = if s.head? = some 45 then -(2 ^ 63) else 2 ^ 63 - 1

/-- the same for unsigned integers, which have no sign, not even `+` -/
structure ReadUint (s : Str) (v : Nat) : Prop where
  number : Numeral s → (v : Int) = clamp 0 (2 ^ 64 - 1) (value s)
  other : ¬ Numeral s → value (lead s) < 2 ^ 64 → v = 0
  over : ¬ Numeral s → 2 ^ 64 ≤ value (lead s) → v = 2 ^ 64 - 1

/-- the spellings of true -/
def trues : List Str := [b!"1", b!"t", b!"T", b!"true", b!"TRUE", b!"True"]
/-- the spellings of false -/
def falses : List Str := [b!"0", b!"f", b!"F", b!"false", b!"FALSE", b!"False"]

/-! ### White space -/

/-- white space only: a sequence of encodings of white space characters -/
inductive Blanks : Str → Prop where
  | nil : Blanks []
  | cons {e s : Str} : e ∈ spaces → Blanks s → Blanks (e ++ s)

/-- `t` is `s` without surrounding white space -/
def Trimmed (s t : Str) : Prop :=
  ∃ a b, Blanks a ∧ Blanks b ∧ s = a ++ t ++ b ∧ ∀ e ∈ spaces, ¬ e <+: t ∧ ¬ e <:+ t

/-! ### Forms -/

/-- the values of a name in a form -/
def values (f : Form) (k : Str) : List Str := (f.filter (fun e => e.1 == k)).flatMap Prod.snd

/-- The form name `k` has the shape `name[key]...`. -/
def Files (name key k : Str) : Prop :=
  ∃ rest, k = name ++ lbrack :: key ++ rbrack :: rest ∧ name ≠ [] ∧ key ≠ [] ∧ lbrack ∉ name ∧ rbrack ∉ key

/-- the request carries a multipart form -/
def Multipart (req : Req) : Prop :=
  req.method ∈ [b!"POST", b!"PUT", b!"PATCH"] ∧
    ∃ a b, req.header.get b!"Content-Type" = a ++ b!"multipart/form-data" ++ b

end Water.Spec
