import Verif.Model.Serve
import Verif.Spec.Middleware
/-
Handlers as functions: a chain is the composition of its handlers, each a function of what comes after it. There is no index and no
list of handlers in the state.
-/
namespace Water.Spec
open Water
variable {ω : Type}

/-- If the code returns, a response was started. -/
def Responds (p : Prog ω) : Prop :=
  ∀ o req nx i (s s' : St ω), exec o req nx i p s = (.ret, s') → s'.ctx.written = true

/-- The code calls `Next` at most once, whatever the calls return; and a deferred function around a call of `Next` that recovers from a
panic sees to it that there is a response. -/
def Single : Prog ω → Prop
  | .ret => True
  | .panic _ => True
  | .next k => NoNext k
  | .call _ k => ∀ r, Single (k r)
  | .scope b f => (NoNext b ∧ ∀ r, Single (f r)) ∨ (Single b ∧ (∀ r, NoNext (f r)) ∧ ∀ v, Responds (f (some v)))

/-- The code as a function of what `Next` does. It also tells whether `Next` was called. -/
def asFunction (o : Oracle) (req : Req) (next : St ω → Out × St ω) : Prog ω → Bool → St ω → Out × Bool × St ω
  | .ret, b, s => (.ret, b, s)
  | .panic v, b, s => (.panic v, b, s)
  | .next k, _, s =>
    match next s with
    | (.ret, s) => asFunction o req next k true s
    | (out, s) => (out, true, s)
  | .call c k, b, s =>
    match doCall o req s c with
    | (.ok r, s) => asFunction o req next (k r) b s
    | (.error v, s) => (.panic v, b, s)
  | .scope body fin, b, s =>
    match asFunction o req next body b s with
    | (.ret, b, s) => asFunction o req next (fin none) b s
    | (.panic v, b, s) => asFunction o req next (fin (some v)) b s
    | (.fuel, b, s) => (.fuel, b, s)

/-- The composition of handlers: the first is called with the composition of the others as its `Next`; the others come after it if it
neither called them nor responded. -/
def compose (o : Oracle) (req : Req) : List (Prog ω) → St ω → Out × St ω
  | [], s => (.ret, s)
  | h :: t, s =>
    match asFunction o req (compose o req t) h false s with
    | (.ret, called, s) => if called || s.ctx.written then (.ret, s) else compose o req t s
    | (out, _, s) => (out, s)

/-- A state without the position in the chain, the chain and the record. -/
def unchained (s : St ω) : St ω := { s with trace := [], ctx := { s.ctx with index := 0, handlers := [] } }

/-- The state in which the first handler of a request starts: nothing written or stored, no form parsed. -/
def fresh (full : Option Str) (ps : Params) (rw : Writer) (body : Option Str) (w : ω) : St ω where
  ctx := { environ := Map.empty, params := ps, handlers := [], index := 0, written := false, status := 0, fullPath := full,
           parsedParams := false }
  rw := rw
  body := body
  forms := []
  world := w
  trace := []

/-- The parameters given by a list of bindings. -/
def boundBy (l : List (Str × Str)) : Params := fun x => (l.find? (fun b => b.1 = x)).map (·.2)

/-- Serving ended like the composition of `hs` from the state `s`: the same end, the same response, the same effects. -/
def Composed (sv : Served ω) (o : Oracle) (req : Req) (hs : List (Prog ω)) (s : St ω) : Prop :=
  sv.out = (compose o req hs s).1 ∧ sv.rw = (compose o req hs s).2.rw ∧ sv.world = (compose o req hs s).2.world ∧
    sv.forms = (compose o req hs s).2.forms

end Water.Spec
