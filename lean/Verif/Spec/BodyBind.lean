import Verif.Model.BodyBind
import Verif.Spec.Body
/- Decoding a text at once. -/
namespace Water.Spec

/-- What holds of a decoder of one value: it does not decide before it has read something, it does not look at what comes after the
value, it makes nothing of no text, and it gives an error if the connection fails before the end of the value. -/
structure OneValue (D : Decoding) : Prop where
  room : 0 < D.size
  start : ∀ obj, D.early [] obj = none
  stable : ∀ p x obj r, D.early p obj = some r → D.early (p ++ x) obj = some r
  empty : ∀ e obj, ∃ n, (D.late [] e obj).1 = some n
  broken : ∀ p e obj, ∃ n, (D.late p (.failed e) obj).1 = some n

/-- What the decoder makes of a text that ends as `fin` says. -/
def decoded (D : Decoding) (text : Str) (fin : Option Str) (obj : Target) : Option Nat × Target :=
  match D.early text obj with
  | some r => r
  | none => D.late text (match fin with | none => .eof | some e => .failed e) obj

/-- What `Bind` is to return: the error of the decoder; or else that of the validator. -/
def bound (check : Target → Option Nat) : Option Nat × Target → Option JErr × Target
  | (some e, obj) => (some (.decode e), obj)
  | (none, obj) => match check obj with
    | some e => (some (.invalid e), obj)
    | none => (none, obj)

end Water.Spec
