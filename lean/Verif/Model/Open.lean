import Verif.Model.Serve
/-
Handlers that also assign to the exported fields of the context (context.go:16-20): `ctx.Environ`, `ctx.Params`, `ctx.Request`, and
`ctx.ResponseWriter`, which middleware replaces by writers of its own. Response writers are objects in the world; they may do
anything, and may panic. Requests are of an arbitrary type `ρ`. The chain driver and `ServeHTTP` are those of context.go and engine.go again;
`Props/Open.lean` relates them to `Context.lean` and `Serve.lean`.
-/
namespace Water

/-- A use of an `http.ResponseWriter`. -/
inductive WOp where
  | writeHeader (code : Int)
  | write (data : Str)
  /-- reading or changing the map returned by `Header()` -/
  | header (f : Header → Header × Res)

/-- What is taken from outside: what the response writer at an address does; what `ParseMultipartForm` (`true`) and `ParseForm` do to a
request; the fields of a request that the framework reads itself; `http.DetectContentType`. -/
structure Outside (ρ ω : Type) where
  device : Nat → WOp → ω → Except PVal Res × ω
  parse : Bool → ρ → ω → Except PVal Unit × ρ × ω
  fields : ρ → Req
  detect : Str → Str

/-- The calls a handler can make, other than `Next`. Where a function is given it stands for any code that uses this field. -/
inductive OCall (ρ ω : Type) where
  /-- `ctx.WriteHeader`, `ctx.Abort` -/
  | writeHeader (code : Int)
  /-- `ctx.Write` -/
  | write (data : Str)
  /-- `ctx.ResponseWriter.WriteHeader`, `ctx.ResponseWriter.Write`, `ctx.Header()` -/
  | raw (op : WOp)
  /-- any assignment to `ctx.ResponseWriter` -/
  | wrap (f : Option Nat → ω → Option Nat × ω)
  /-- `ctx.Written` -/
  | written
  /-- `ctx.Status` -/
  | status
  /-- `ctx.FullPath` -/
  | fullPath
  /-- `ctx.Param` -/
  | param (k : Str)
  /-- any other use of `ctx.Params`, and assignments to it -/
  | params (f : Option Params → Except PVal Res × Option Params)
  /-- `ctx.Set` -/
  | envSet (k : Str) (v : EVal)
  /-- `ctx.Get` -/
  | envGet (k : Str)
  /-- `ctx.GetMaybe` -/
  | envMaybe (k : Str)
  /-- any other use of `ctx.Environ`, and assignments to it -/
  | environ (f : Option (Map Str EVal) → Except PVal Res × Option (Map Str EVal))
  /-- any use of `ctx.Request`, and assignments to it -/
  | request (f : Option ρ → ω → Except PVal Res × Option ρ × ω)
  /-- `ctx.ParseFormOrMultipartForm` -/
  | parseForm
  /-- anything else -/
  | world (f : ω → Except PVal Res × ω)

/-- Handler code, as `Prog` (Context.lean). -/
inductive OProg (ρ ω : Type) where
  | ret
  | panic (v : PVal)
  | next (k : OProg ρ ω)
  | call (c : OCall ρ ω) (k : Res → OProg ρ ω)
  | scope (body : OProg ρ ω) (fin : Option PVal → OProg ρ ω)

/-- `Context` (context.go:15-31). Nil maps, a nil request and a nil writer are `none`. -/
structure OCtx (ρ ω : Type) where
  environ : Option (Map Str EVal)
  params : Option Params
  request : Option ρ
  writer : Option Nat
  handlers : List (OProg ρ ω)
  index : Nat
  written : Bool
  status : Int
  fullPath : Option Str
  parsedParams : Bool

/-- The state of serving one request; `trace` as in `St`. -/
structure OSt (ρ ω : Type) where
  ctx : OCtx ρ ω
  world : ω
  trace : List Event

variable {ρ ω : Type}

/-- the runtime error for the use of a nil pointer or interface, or for a write to a nil map -/
def nilUse : PVal := .val b!"nil"

/-- `newContext` (context.go:33-35). -/
def OCtx.new : OCtx ρ ω :=
  { environ := none, params := none, request := none, writer := none, handlers := [], index := 0, written := false, status := 0,
    fullPath := none, parsedParams := false }

/-- `reset` (context.go:37-45). -/
def OCtx.reset (c : OCtx ρ ω) : OCtx ρ ω :=
  { c with index := 0, written := false, status := 0, fullPath := none, parsedParams := false }

/-- a method of `ctx.ResponseWriter` -/
def OSt.use (x : Outside ρ ω) (s : OSt ρ ω) (op : WOp) : Except PVal Res × OSt ρ ω :=
  match s.ctx.writer with
  | none => (.error nilUse, s)
  | some a => ((x.device a op s.world).1, { s with world := (x.device a op s.world).2 })

/-- `ctx.WriteHeader` (context.go:71-79). -/
def OSt.writeHeader (x : Outside ρ ω) (s : OSt ρ ω) (code : Int) : Except PVal Res × OSt ρ ω :=
  if s.ctx.written then (.ok .unit, s)
  else ({ s with ctx := { s.ctx with written := true, status := code } } : OSt ρ ω).use x (.writeHeader code)

/-- the header part of `ctx.Write` (context.go:83-86) -/
def OSt.sniff (x : Outside ρ ω) (s : OSt ρ ω) (data : Str) : Except PVal Res × OSt ρ ω :=
  if data.length > 0 then
    match s.use x (.header (fun h => (h, .str (h.get kContentType)))) with
    | (.error v, s) => (.error v, s)
    | (.ok r, s) =>
      if r = .str [] then s.use x (.header (fun h => (h.put kContentType (x.detect data), .unit))) else (.ok .unit, s)
  else (.ok .unit, s)

/-- `ctx.Write` (context.go:81-90). -/
def OSt.write (x : Outside ρ ω) (s : OSt ρ ω) (data : Str) : Except PVal Res × OSt ρ ω :=
  if s.ctx.written then s.use x (.write data)
  else
    match s.sniff x data with
    | (.error v, s) => (.error v, s)
    | (.ok _, s) =>
      match s.writeHeader x 200 with
      | (.error v, s) => (.error v, s)
      | (.ok _, s) => s.use x (.write data)

/-- The effect of a call. -/
def doOpen (x : Outside ρ ω) (s : OSt ρ ω) : OCall ρ ω → Except PVal Res × OSt ρ ω
  | .writeHeader code =>
    match s.writeHeader x code with
    | (.error v, s) => (.error v, s)
    | (.ok _, s) => (.ok .unit, s)
  | .write data => s.write x data
  | .raw op => s.use x op
  | .wrap f => (.ok .unit, { s with ctx := { s.ctx with writer := (f s.ctx.writer s.world).1 }, world := (f s.ctx.writer s.world).2 })
  | .written => (.ok (.bool s.ctx.written), s)                     -- context.go:63-65
  | .status => (.ok (.int s.ctx.status), s)                        -- context.go:67-69
  | .fullPath => (.ok (.str (s.ctx.fullPath.getD [])), s)          -- content.go:314-320
  | .param k =>                                                    -- params.go:15-27
    match s.ctx.params.bind (· k) with
    | some v => (.ok (.str v), s)
    | none => (.error callPanic, s)
  | .params f => ((f s.ctx.params).1, { s with ctx := { s.ctx with params := (f s.ctx.params).2 } })
  | .envSet k v =>                                                 -- environ.go:59-65
    match s.ctx.environ with
    | none => (.error nilUse, s)
    | some m =>
      if (m k).isSome then (.error callPanic, s)
      else (.ok .unit, { s with ctx := { s.ctx with environ := some (Map.set m k v) } })
  | .envGet k =>                                                   -- environ.go:68-73
    match s.ctx.environ.bind (· k) with
    | some v => (.ok (.env (some v)), s)
    | none => (.error callPanic, s)
  | .envMaybe k => (.ok (.env (s.ctx.environ.bind (· k))), s)      -- environ.go:77-80
  | .environ f => ((f s.ctx.environ).1, { s with ctx := { s.ctx with environ := (f s.ctx.environ).2 } })
  | .request f =>
    ((f s.ctx.request s.world).1,
      { s with ctx := { s.ctx with request := (f s.ctx.request s.world).2.1 }, world := (f s.ctx.request s.world).2.2 })
  | .parseForm =>                                                  -- content.go:328-344
    if s.ctx.parsedParams then (.ok .unit, s)
    else
      let s := { s with ctx := { s.ctx with parsedParams := true } }
      match s.ctx.request with
      | none => (.error nilUse, s)
      | some r =>
        let p := x.parse (wantsMultipart (x.fields r)) r s.world
        (p.1.map (fun _ => .unit), { s with ctx := { s.ctx with request := some p.2.1 }, world := p.2.2 })
  | .world f => ((f s.world).1, { s with world := (f s.world).2 })

def OSt.log (s : OSt ρ ω) (e : Event) : OSt ρ ω := { s with trace := s.trace ++ [e] }

/-- `ctx.index += 1` -/
def OSt.bump (s : OSt ρ ω) : OSt ρ ω := { s with ctx := { s.ctx with index := s.ctx.index + 1 } }

/-- Run the code of handler `i`; `nx` is what `ctx.run()` does. -/
def execOpen (x : Outside ρ ω) (nx : OSt ρ ω → Out × OSt ρ ω) (i : Nat) : OProg ρ ω → OSt ρ ω → Out × OSt ρ ω
  | .ret, s => (.ret, s)
  | .panic v, s => (.panic v, s)
  | .next k, s =>                                                  -- context.go:47-50
    match nx (s.log (.next i)).bump with
    | (.ret, s) => execOpen x nx i k (s.log (.back i))
    | (.panic v, s) => (.panic v, s.log (.thrown i))
    | (.fuel, s) => (.fuel, s)
  | .call c k, s =>
    match doOpen x s c with
    | (.ok r, s) => execOpen x nx i (k r) s
    | (.error v, s) => (.panic v, s)
  | .scope body fin, s =>
    match execOpen x nx i body s with
    | (.ret, s) => execOpen x nx i (fin none) s
    | (.panic v, s) => execOpen x nx i (fin (some v)) s
    | (.fuel, s) => (.fuel, s)

/-- `ctx.run` (context.go:52-61). -/
def runOpen (x : Outside ρ ω) : Nat → OSt ρ ω → Out × OSt ρ ω
  | 0, s => (.fuel, s)
  | fuel + 1, s =>
    match s.ctx.handlers[s.ctx.index]? with
    | none => (.ret, s)
    | some h =>
      let i := s.ctx.index
      match execOpen x (runOpen x fuel) i h (s.log (.start i)) with
      | (.ret, s) =>
        let s := (s.log (.stop i s.ctx.written)).bump
        if s.ctx.written then (.ret, s) else runOpen x fuel s
      | (.panic v, s) => (.panic v, s.log (.crash i))
      | (.fuel, s) => (.fuel, s)

/-- Run a chain from its first handler. -/
def runAllOpen (x : Outside ρ ω) (s : OSt ρ ω) : Out × OSt ρ ω := runOpen x (s.ctx.handlers.length + 1) s

/-- As `Served`. -/
structure OServed (ρ ω : Type) where
  out : Out
  world : ω
  trace : List Event
  took : Bool
  puts : List (OCtx ρ ω)

/-- how `rw.WriteHeader(code)` ends -/
def endOf : Except PVal Res → Out
  | .ok _ => .ret
  | .error v => .panic v

/-- The handlers to run, if any (engine.go:113-123). -/
def chainOpen (e : Engine (OProg ρ ω)) : Option (EndNode (OProg ρ ω)) → Option (List (OProg ρ ω))
  | some n => some n.handlers
  | none => if e.noFound.length ≠ 0 then some e.noFound else none

/-- The context before the handlers are looked at (engine.go:97-110). -/
def prepareOpen (c : OCtx ρ ω) (r : ρ) (a : Nat) (fullPath : Option Str) (params : Option (Option Params)) : OCtx ρ ω :=
  { c.reset with writer := some a, request := some r, fullPath, params := params.getD c.params }

/-- The end of `ServeHTTP` once the route has been looked up (engine.go:97-100, 112-131). -/
def serveRoutedOpen (x : Outside ρ ω) (e : Engine (OProg ρ ω)) (c : OCtx ρ ω) (r : ρ) (a : Nat) (w : ω)
    (n : Option (EndNode (OProg ρ ω))) (params : Option (Option Params)) : OServed ρ ω :=
  let c := prepareOpen c r a (n.map (·.uri)) params
  match chainOpen e n with
  | none =>
    match ({ ctx := c, world := w, trace := [] } : OSt ρ ω).writeHeader x 404 with
    | (.error v, s) => { out := .panic v, world := s.world, trace := [], took := true, puts := [] }
    | (.ok _, s) => { out := .ret, world := s.world, trace := [], took := true, puts := [s.ctx] }
  | some hs =>
    match runAllOpen x { ctx := { c with handlers := hs, environ := some Map.empty }, world := w, trace := [] } with
    | (out, s) => { out, world := s.world, trace := s.trace, took := true, puts := if out = .ret then [s.ctx] else [] }

/-- `ServeHTTP` (engine.go:84-132). `c` is what the pool returns, `a` the response writer. -/
def serveOpen (rx : Regex) (x : Outside ρ ω) (e : Engine (OProg ρ ω)) (c : OCtx ρ ω) (r : ρ) (a : Nat) (w : ω) : OServed ρ ω :=
  let req := x.fields r
  if !protoAtLeast11 req || req.requestURI == b!"*" || req.method == b!"CONNECT" then
    { out := endOf (x.device a (.writeHeader 406) w).1, world := (x.device a (.writeHeader 406) w).2, trace := [], took := false, puts := [] }
  else
    match methodIndex req.method with
    | none =>
      { out := endOf (x.device a (.writeHeader 405) w).1, world := (x.device a (.writeHeader 405) w).2, trace := [], took := false, puts := [] }
    | some i => serveRoutedOpen x e c r a w (lookup rx e i req.path).1 (lookup rx e i req.path).2

/-- The deferred function of `Recovery` (m_recovery.go:14-43); `crash` builds the text, `stable` is `Status == Stable`. -/
def recoveredOpen (stable : Bool) (crash : Str → Str) : Option PVal → OProg ρ ω
  | some (.val msg) =>
    .call .written (fun w =>
      let rest : OProg ρ ω := if stable then .ret else
        .call (.writeHeader 500) (fun _ => .call (.raw (.header (fun h => (h.put kContentType mimeText, .unit)))) (fun _ =>
          .call (.write (crash msg)) (fun _ => .ret)))
      if w = .bool false then .call (.writeHeader 500) (fun _ => rest) else rest)
  | _ => .call .written (fun w => if w = .bool false then .call (.writeHeader 200) (fun _ => .ret) else .ret)

/-- `Recovery` (m_recovery.go:12-47). -/
def openRecovery (stable : Bool) (crash : Str → Str) : OProg ρ ω := .scope (.next .ret) (recoveredOpen stable crash)

end Water
