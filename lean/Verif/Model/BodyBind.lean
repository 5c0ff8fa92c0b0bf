import Verif.Model.Body
import Verif.Model.Binding
/- `Bind` of JSON and XML bodies: binding/json.go and binding/xml.go, over the bodies of `Model/Body.lean`. The decoders themselves
(jsoniter and encoding/xml) are parameters. -/
namespace Water

/-- A decoder of one value, for a given type: the size of its buffer (512 bytes in jsoniter, 4096 in encoding/xml); what it makes of the
bytes read so far, if it needs no more; and what it makes of them if reading ends with an error. It gives an error, if any, and what the
target is then. -/
structure Decoding where
  size : Nat
  early : Str → Target → Option (Option Nat × Target)
  late : Str → RdErr → Target → Option Nat × Target

/-- `Decoder.Decode`: read until the decoder needs no more, or nothing comes and there is an error. `none`: still reading after `fuel`
reads. -/
def decodeF (D : Decoding) (q : Sched) (obj : Target) : Nat → Nat → Body → Str → Option ((Option Nat × Target) × Body)
  | 0, _, _, _ => none
  | f + 1, k, b, acc =>
    match D.early acc obj with
    | some r => some (r, b)
    | none =>
      match b.read q k D.size with
      | (([], none), b') => decodeF D q obj f (k + 1) b' acc
      | (([], some e), b') => some (D.late acc e obj, b')
      | ((d, _), b') => decodeF D q obj f (k + 1) b' (acc ++ d)

/-- Errors of `jsonBinding.Bind` and `xmlBinding.Bind`: there is no body; the decoder's; the validator's. -/
inductive JErr where
  | noBody
  | decode (e : Nat)
  | invalid (e : Nat)
  deriving DecidableEq, Repr

/-- `jsonBinding.Bind` (binding/json.go:20-32) and `xmlBinding.Bind` (binding/xml.go:15-27). The deferred `Close` comes last. -/
def bindBodyF (D : Decoding) (q : Sched) (fuel : Nat) (check : Target → Option Nat) (obj : Target) :
    Option Body → Option ((Option JErr × Target) × Option Body)
  | none => some ((some .noBody, obj), none)
  | some b =>
    match decodeF D q obj fuel 0 b [] with
    | none => none
    | some ((some e, obj), b') => some ((some (.decode e), obj), some b'.close)
    | some ((none, obj), b') => some (((check obj).map .invalid, obj), some b'.close)

/-- Logger at the start of a request with a JSON body (m_logger.go:62-71), then `Bind`. -/
def loggedBindF (D : Decoding) (q q' : Sched) (fuel : Nat) (check : Target → Option Nat) (obj : Target) (b : Body) :
    Option ((Option JErr × Target) × Option Body) :=
  match logBodyF q fuel b with
  | none => none
  | some (_, b') => bindBodyF D q' fuel check obj (some b')

end Water
