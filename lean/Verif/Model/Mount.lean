import Verif.Model.Serve
/-
An application as a handler of another. `*Engine` has `ServeHTTP`, so it is an `http.Handler`, and `newHandler` (engine.go:28-31) calls its
`ServeHTTP` with the outer context as the response writer: what the inner contexts hand to their `ResponseWriter` goes through `WriteHeader` and
`Write` of the outer context (context.go:71-90). `Header()` of both is the map of the connection's writer.

Simplified: the outer handlers have not parsed the form of the request (its `Form` is empty, as for a request that has just come), and a form that
the mounted handlers parse, which is in the request that both share, is not carried over to the handlers of the outer application that come after.
-/
namespace Water
variable {ω : Type}

/-- the fields of the outer context that its `WriteHeader` and `Write` use (context.go:22-23) -/
structure OuterCtx where
  written : Bool
  status : Int

/-- The state of serving a request by a mounted application: `inn` is its own state, where `rw` is the writer of the connection. -/
structure InSt (ω : Type) where
  inn : St ω
  outer : OuterCtx

/-- `WriteHeader` of the outer context (context.go:71-79) -/
def InSt.outerWriteHeader (o : Oracle) (m : InSt ω) (code : Int) : Bool × InSt ω :=
  if m.outer.written then (false, m)
  else
    let (p, rw) := m.inn.rw.writeHeader o.bad code
    (p, { inn := { m.inn with rw }, outer := { written := true, status := code } })

/-- `Write` of the outer context (context.go:81-90) -/
def InSt.outerWrite (o : Oracle) (m : InSt ω) (data : Str) : Bool × InSt ω :=
  if m.outer.written then (false, { m with inn := { m.inn with rw := m.inn.rw.write data } })
  else
    let m := if data.length > 0 ∧ m.inn.rw.header.get kContentType = [] then
        { m with inn := { m.inn with rw := { m.inn.rw with header := m.inn.rw.header.put kContentType (o.detect data) } } }
      else m
    match m.outerWriteHeader o 200 with
    | (true, m) => (true, m)
    | (false, m) => (false, { m with inn := { m.inn with rw := m.inn.rw.write data } })

/-- `WriteHeader` of the inner context (context.go:71-79) -/
def InSt.writeHeader (o : Oracle) (m : InSt ω) (code : Int) : Bool × InSt ω :=
  if m.inn.ctx.written then (false, m)
  else ({ m with inn := { m.inn with ctx := { m.inn.ctx with written := true, status := code } } } : InSt ω).outerWriteHeader o code

/-- `Write` of the inner context (context.go:81-90) -/
def InSt.write (o : Oracle) (m : InSt ω) (data : Str) : Bool × InSt ω :=
  if m.inn.ctx.written then m.outerWrite o data
  else
    let m := if data.length > 0 ∧ m.inn.rw.header.get kContentType = [] then
        { m with inn := { m.inn with rw := { m.inn.rw with header := m.inn.rw.header.put kContentType (o.detect data) } } }
      else m
    match m.writeHeader o 200 with
    | (true, m) => (true, m)
    | (false, m) => m.outerWrite o data

/-- a call that may panic and returns nothing -/
def InSt.done (r : Bool × InSt ω) : Except PVal Res × InSt ω := (if r.1 then .error callPanic else .ok .unit, r.2)

/-- The effect of a call by a handler of the mounted application (as `doCall`, but for the writer). -/
def doCallIn (o : Oracle) (req : Req) (m : InSt ω) : Call ω → Except PVal Res × InSt ω
  | .writeHeader code => InSt.done (m.writeHeader o code)
  | .write data => InSt.done (m.write o data)
  | .rawWriteHeader code => InSt.done (m.outerWriteHeader o code)
  | .rawWrite data => InSt.done (m.outerWrite o data)
  | c => ((doCall o req m.inn c).1, { m with inn := (doCall o req m.inn c).2 })

/-- record an event -/
def InSt.log (m : InSt ω) (e : Event) : InSt ω := { m with inn := m.inn.log e }
/-- `ctx.index += 1` of the inner context -/
def InSt.bump (m : InSt ω) : InSt ω := { m with inn := m.inn.bump }

/-- The code of a handler of the mounted application (as `exec`). -/
def execIn (o : Oracle) (req : Req) (nx : InSt ω → Out × InSt ω) (i : Nat) : Prog ω → InSt ω → Out × InSt ω
  | .ret, s => (.ret, s)
  | .panic v, s => (.panic v, s)
  | .next k, s =>
    match nx (s.log (.next i)).bump with
    | (.ret, s) => execIn o req nx i k (s.log (.back i))
    | (.panic v, s) => (.panic v, s.log (.thrown i))
    | (.fuel, s) => (.fuel, s)
  | .call c k, s =>
    match doCallIn o req s c with
    | (.ok r, s) => execIn o req nx i (k r) s
    | (.error v, s) => (.panic v, s)
  | .scope body fin, s =>
    match execIn o req nx i body s with
    | (.ret, s) => execIn o req nx i (fin none) s
    | (.panic v, s) => execIn o req nx i (fin (some v)) s
    | (.fuel, s) => (.fuel, s)

/-- `run` of the inner context (context.go:52-61) -/
def runIn (o : Oracle) (req : Req) : Nat → InSt ω → Out × InSt ω
  | 0, s => (.fuel, s)
  | fuel + 1, s =>
    match s.inn.ctx.handlers[s.inn.ctx.index]? with
    | none => (.ret, s)
    | some h =>
      let i := s.inn.ctx.index
      match execIn o req (runIn o req fuel) i h (s.log (.start i)) with
      | (.ret, s) =>
        let s := (s.log (.stop i s.inn.ctx.written)).bump
        if s.inn.ctx.written then (.ret, s) else runIn o req fuel s
      | (.panic v, s) => (.panic v, s.log (.crash i))
      | (.fuel, s) => (.fuel, s)

/-- `ServeHTTP` of the mounted application (engine.go:84-132), called by the handler that `newHandler` makes of it (engine.go:28-31) in the state
`s` of the outer application: how it ends, and the state of the outer application then. `c` is the context from the pool of the inner one. -/
def mounted (rx : Regex) (o : Oracle) (e : Engine (Prog ω)) (c : Ctx ω) (req : Req) (s : St ω) : Out × St ω :=
  let start (ctx : Ctx ω) : InSt ω :=
    { inn := { ctx, rw := s.rw, body := s.body, forms := [], world := s.world, trace := [] }, outer := { written := s.ctx.written, status := s.ctx.status } }
  let finish (r : Out × InSt ω) : Out × St ω :=
    (r.1, { s with ctx := { s.ctx with written := r.2.outer.written, status := r.2.outer.status }, rw := r.2.inn.rw, body := r.2.inn.body,
                   world := r.2.inn.world })
  let sent (r : Bool × InSt ω) : Out × InSt ω := (if r.1 then .panic callPanic else .ret, r.2)
  if !protoAtLeast11 req || req.requestURI == b!"*" || req.method == b!"CONNECT" then finish (sent ((start c).outerWriteHeader o 406))
  else
    match methodIndex req.method with
    | none => finish (sent ((start c).outerWriteHeader o 405))
    | some i =>
      let n := (lookup rx e i req.path).1
      let params := (lookup rx e i req.path).2
      match chainFor e n with
      | none => finish (sent ((start { prepare c c.handlers none params with environ := c.environ }).writeHeader o 404))
      | some hs => finish (runIn o req (hs.length + 1) (start (prepare c hs (n.map (·.uri)) params)))

end Water
