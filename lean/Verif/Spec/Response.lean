import Verif.Spec.Chain
/- What the response properties (C29-C33) mean, in terms of what the underlying response writer was told. -/
namespace Water.Spec

/-- The status code the client receives: the first one sent. -/
def received : List WEvent → Option Int
  | [] => none
  | .status _ c _ :: _ => some c
  | .body _ :: es => received es

/-- The headers the client receives. -/
def receivedHeader : List WEvent → Option Header
  | [] => none
  | .status _ _ h :: _ => some h
  | .body _ :: es => receivedHeader es

/-- The body the client receives. -/
def receivedBody : List WEvent → Str
  | [] => []
  | .status _ _ _ :: es => receivedBody es
  | .body d :: es => d ++ receivedBody es

/-- How many status lines were handed to the writer, and how many of them by `WriteHeader` calls. -/
def statusLines (explicitOnly : Bool) : List WEvent → Nat
  | [] => 0
  | .status x _ _ :: es => (if x || !explicitOnly then 1 else 0) + statusLines explicitOnly es
  | .body _ :: es => statusLines explicitOnly es

/-- The call goes around the context, to `ctx.ResponseWriter`. -/
def Bypass {ω : Type} : Call ω → Prop
  | .rawWriteHeader _ => True
  | .rawWrite _ => True
  | _ => False

/-- If the call sends an explicit status code, it is a valid one. -/
def ValidCode {ω : Type} (bad : Int → Bool) : Call ω → Prop
  | .writeHeader c => bad c = false
  | .rawWriteHeader c => bad c = false
  | _ => True

/-- Code that does not panic by itself and calls `Next` at most once (`b`: may still call it). -/
def Decent {ω : Type} (o : Oracle) (req : Req) : Bool → Prog ω → Prop
  | _, .ret => True
  | _, .panic _ => False
  | b, .next k => b = true ∧ Decent o req false k
  | b, .call c k => (∀ s, ∃ r, (doCall o req s c).1 = .ok r) ∧ ∀ r, Decent o req b (k r)
  | b, .scope body fin =>
    (Decent o req b body ∧ Decent o req false (fin none)) ∨ (Decent o req false body ∧ Decent o req b (fin none))

end Water.Spec
