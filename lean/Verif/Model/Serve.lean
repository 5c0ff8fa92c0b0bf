import Verif.Model.Context
/- `Engine.ServeHTTP` (engine.go:84-132). -/
namespace Water
variable {ω : Type}

/-- The outcome of `ServeHTTP`: how it ended, what was sent, the world, what happened in the chain, whether a
context was taken from the pool, and the contexts put back. -/
structure Served (ω : Type) where
  out : Out
  rw : Writer
  world : ω
  forms : List Bool
  trace : List Event
  took : Bool
  puts : List (Ctx ω)

/-- `req.ProtoAtLeast(1, 1)` (engine.go:85, net/http). -/
def protoAtLeast11 (req : Req) : Bool := req.protoMajor > 1 || (req.protoMajor == 1 && req.protoMinor ≥ 1)

/-- The context handed to the chain (engine.go:96-127): `c` is the context from the pool. -/
def prepare (c : Ctx ω) (handlers : List (Prog ω)) (fullPath : Option Str) (params : Option (Option Params)) : Ctx ω :=
  let c := c.reset
  { c with
    fullPath
    params := match params with
      | none => c.params                      -- static hit: `Params` is not assigned
      | some none => Map.empty                -- nil map
      | some (some ps) => ps
    handlers
    environ := Map.empty }

/-- The handlers to run, if any (engine.go:113-123). -/
def chainFor (e : Engine (Prog ω)) : Option (EndNode (Prog ω)) → Option (List (Prog ω))
  | some n => some n.handlers
  | none => if e.noFound.length ≠ 0 then some e.noFound else none

/-- The end of `ServeHTTP` once the route has been looked up (engine.go:112-131). -/
def serveRouted (o : Oracle) (e : Engine (Prog ω)) (c : Ctx ω) (req : Req) (rw : Writer) (body : Option Str) (w : ω)
    (n : Option (EndNode (Prog ω))) (params : Option (Option Params)) : Served ω :=
  match chainFor e n with
  | none =>
    let c := { prepare c c.handlers none params with environ := c.environ }
    let (p, s) := ({ ctx := c, rw, body, forms := [], world := w, trace := [] } : St ω).writeHeader o 404
    { out := if p then .panic callPanic else .ret, rw := s.rw, world := w, forms := [], trace := [], took := true,
      puts := if p then [] else [s.ctx] }
  | some hs =>
    let c := prepare c hs (n.map (·.uri)) params
    let (out, s) := runAll o req { ctx := c, rw, body, forms := [], world := w, trace := [] }
    { out, rw := s.rw, world := s.world, forms := s.forms, trace := s.trace, took := true,
      puts := if out = .ret then [s.ctx] else [] }

/-- `ServeHTTP` (engine.go:84-132). `c` is what the pool returns: any earlier context, or a new one. The type
assertion `rw.(ResponseWriter)` always succeeds in the default build (response.go). -/
def serve (rx : Regex) (o : Oracle) (e : Engine (Prog ω)) (c : Ctx ω) (req : Req) (rw : Writer) (body : Option Str)
    (w : ω) : Served ω :=
  if !protoAtLeast11 req || req.requestURI == b!"*" || req.method == b!"CONNECT" then
    let (p, rw) := rw.writeHeader o.bad 406
    { out := if p then .panic callPanic else .ret, rw, world := w, forms := [], trace := [], took := false, puts := [] }
  else
    match methodIndex req.method with
    | none =>
      let (p, rw) := rw.writeHeader o.bad 405
      { out := if p then .panic callPanic else .ret, rw, world := w, forms := [], trace := [], took := false, puts := [] }
    | some i => serveRouted o e c req rw body w (lookup rx e i req.path).1 (lookup rx e i req.path).2

end Water
