import Verif.Model.Serve
/-
The maps of a context in memory. `ctx.Environ` and `ctx.Params` (context.go:16-17) are references to maps: a handler can copy them to a
variable and use the map later, after the request, while the context serves another one. The same holds for the context itself.
Here the maps and the contexts have addresses. Everything else is as in `Context.lean` and `Serve.lean`, whose calls are used for it;
`Props/Maps.lean` relates the two.
-/
namespace Water

/-- The references to maps in a context; `none` is nil. -/
structure Refs where
  env : Option Nat
  par : Option Nat
  deriving DecidableEq

/-- The maps in memory, the address of the next one that is made, and the references in every context. -/
structure Maps where
  environs : Nat → Map Str EVal
  params : Nat → Params
  next : Nat
  refs : Nat → Refs

/-- A use of a map: reading it, or changing entries of it. -/
inductive MapUse (μ : Type) where
  | read (f : μ → Res)
  | write (f : μ → μ)

/-- What a handler gets from a call. -/
inductive MRes where
  | res (r : Res)
  | refs (r : Refs)

/-- The calls a handler can make, other than `Next`. -/
inductive MCall (ω : Type) where
  /-- a call of `Context.lean` -/
  | plain (c : Call ω)
  /-- use of `ctx.Environ` as a map -/
  | environ (u : MapUse (Map Str EVal))
  /-- use of `ctx.Params` as a map -/
  | params (u : MapUse Params)
  /-- copy `ctx.Environ` and `ctx.Params` to variables -/
  | keep
  /-- copy `ctx` to a variable -/
  | self
  /-- copy `c.Environ` and `c.Params` of a context kept earlier -/
  | peek (c : Nat)
  /-- use a map kept earlier -/
  | keptEnviron (a : Option Nat) (u : MapUse (Map Str EVal))
  /-- use a map kept earlier -/
  | keptParams (a : Option Nat) (u : MapUse Params)
  /-- `ctx.Environ = m` -/
  | setEnviron (a : Option Nat)
  /-- `ctx.Params = m` -/
  | setParams (a : Option Nat)
  /-- `make(Environ)` and `make(Params)` -/
  | make

/-- Handler code, as `Prog` (Context.lean). -/
inductive MProg (ω : Type) where
  | ret
  | panic (v : PVal)
  | next (k : MProg ω)
  | call (c : MCall ω) (k : MRes → MProg ω)
  | scope (body : MProg ω) (fin : Option PVal → MProg ω)

/-- The state of serving one request: `st` has everything but the maps and the handlers, `me` is the address of the context. `uses` records
the addresses of kept maps that handlers used or assigned; it is not part of the Go program. -/
structure MSt (ω : Type) where
  st : St ω
  handlers : List (MProg ω)
  me : Nat
  maps : Maps
  uses : List Nat

variable {ω : Type}

/-- the contents of a map; a nil map is read as an empty one -/
def Maps.environ (m : Maps) : Option Nat → Map Str EVal
  | none => Map.empty
  | some a => m.environs a
/-- see `Maps.environ` -/
def Maps.param (m : Maps) : Option Nat → Params
  | none => Map.empty
  | some a => m.params a
/-- change the contents of a map -/
def Maps.setEnvirons (m : Maps) (a : Nat) (x : Map Str EVal) : Maps := { m with environs := fun b => if b = a then x else m.environs b }
/-- see `Maps.setEnvirons` -/
def Maps.setParamsAt (m : Maps) (a : Nat) (x : Params) : Maps := { m with params := fun b => if b = a then x else m.params b }
/-- assign to the fields of a context -/
def Maps.setRefs (m : Maps) (c : Nat) (r : Refs) : Maps := { m with refs := fun b => if b = c then r else m.refs b }
/-- make a map; both kinds at once, of which only one is used -/
def Maps.alloc (m : Maps) (x : Map Str EVal) (y : Params) : Nat × Maps :=
  (m.next, { m with
    environs := fun b => if b = m.next then x else m.environs b
    params := fun b => if b = m.next then y else m.params b
    next := m.next + 1 })

/-- the references of the context -/
def MSt.refs (s : MSt ω) : Refs := s.maps.refs s.me

/-- the state as `Context.lean` has it, with the contents of the maps -/
def MSt.view (s : MSt ω) : St ω :=
  { s.st with ctx := { s.st.ctx with environ := s.maps.environ s.refs.env, params := s.maps.param s.refs.par } }

/-- back from there: the entries of the map `ctx.Environ` are the ones a call may have changed -/
def MSt.back (s : MSt ω) (t : St ω) : MSt ω :=
  { s with
    st := { t with ctx := { t.ctx with environ := Map.empty, params := Map.empty } }
    maps := match s.refs.env with
      | none => s.maps
      | some a => s.maps.setEnvirons a t.ctx.environ }

/-- Use a map: assigning to an entry of a nil map panics. -/
def useEnviron (m : Maps) (a : Option Nat) : MapUse (Map Str EVal) → Except PVal MRes × Maps
  | .read f => (.ok (.res (f (m.environ a))), m)
  | .write f =>
    match a with
    | none => (.error callPanic, m)
    | some a => (.ok (.res .unit), m.setEnvirons a (f (m.environs a)))
/-- see `useEnviron` -/
def useParams (m : Maps) (a : Option Nat) : MapUse Params → Except PVal MRes × Maps
  | .read f => (.ok (.res (f (m.param a))), m)
  | .write f =>
    match a with
    | none => (.error callPanic, m)
    | some a => (.ok (.res .unit), m.setParamsAt a (f (m.params a)))

/-- The effect of a call. `Environ.Set` (environ.go:59-65) on a nil map panics. -/
def mCall (o : Oracle) (req : Req) (s : MSt ω) : MCall ω → Except PVal MRes × MSt ω
  | .plain c =>
    match s.refs.env, c with
    | none, .envSet _ _ => (.error callPanic, s)
    | _, c =>
      let (r, t) := doCall o req s.view c
      (r.map .res, s.back t)
  | .environ u => let (r, m) := useEnviron s.maps s.refs.env u; (r, { s with maps := m })
  | .params u => let (r, m) := useParams s.maps s.refs.par u; (r, { s with maps := m })
  | .keep => (.ok (.refs s.refs), s)
  | .self => (.ok (.res (.other s.me)), s)
  | .peek c => (.ok (.refs (s.maps.refs c)), s)
  | .keptEnviron a u => let (r, m) := useEnviron s.maps a u; (r, { s with maps := m, uses := s.uses ++ a.toList })
  | .keptParams a u => let (r, m) := useParams s.maps a u; (r, { s with maps := m, uses := s.uses ++ a.toList })
  | .setEnviron a => (.ok (.res .unit), { s with maps := s.maps.setRefs s.me { s.refs with env := a }, uses := s.uses ++ a.toList })
  | .setParams a => (.ok (.res .unit), { s with maps := s.maps.setRefs s.me { s.refs with par := a }, uses := s.uses ++ a.toList })
  | .make => let (a, m) := s.maps.alloc Map.empty Map.empty; (.ok (.refs ⟨some a, some a⟩), { s with maps := m })

/-- record an event -/
def MSt.log (s : MSt ω) (e : Event) : MSt ω := { s with st := s.st.log e }
/-- `ctx.index += 1` -/
def MSt.bump (s : MSt ω) : MSt ω := { s with st := s.st.bump }

/-- Run the code of handler `i`, as `exec` (Context.lean); `nx` is what `ctx.run()` does. -/
def execM (o : Oracle) (req : Req) (nx : MSt ω → Out × MSt ω) (i : Nat) : MProg ω → MSt ω → Out × MSt ω
  | .ret, s => (.ret, s)
  | .panic v, s => (.panic v, s)
  | .next k, s =>                                                  -- context.go:47-50
    match nx (s.log (.next i)).bump with
    | (.ret, s) => execM o req nx i k (s.log (.back i))
    | (.panic v, s) => (.panic v, s.log (.thrown i))
    | (.fuel, s) => (.fuel, s)
  | .call c k, s =>
    match mCall o req s c with
    | (.ok r, s) => execM o req nx i (k r) s
    | (.error v, s) => (.panic v, s)
  | .scope body fin, s =>
    match execM o req nx i body s with
    | (.ret, s) => execM o req nx i (fin none) s
    | (.panic v, s) => execM o req nx i (fin (some v)) s
    | (.fuel, s) => (.fuel, s)

/-- `ctx.run` (context.go:52-61). -/
def runM (o : Oracle) (req : Req) : Nat → MSt ω → Out × MSt ω
  | 0, s => (.fuel, s)
  | fuel + 1, s =>
    match s.handlers[s.st.ctx.index]? with
    | none => (.ret, s)
    | some h =>
      let i := s.st.ctx.index
      match execM o req (runM o req fuel) i h (s.log (.start i)) with
      | (.ret, s) =>
        let s := (s.log (.stop i s.st.ctx.written)).bump
        if s.st.ctx.written then (.ret, s) else runM o req fuel s
      | (.panic v, s) => (.panic v, s.log (.crash i))
      | (.fuel, s) => (.fuel, s)

/-- Run a chain from its first handler. -/
def runAllM (o : Oracle) (req : Req) (s : MSt ω) : Out × MSt ω := runM o req (s.handlers.length + 1) s

/-- The outcome of `ServeHTTP`: as `Served` (Serve.lean), with the maps in memory, whether a context was taken from the pool, and whether
it was put back. -/
structure MServed (ω : Type) where
  out : Out
  rw : Writer
  world : ω
  forms : List Bool
  trace : List Event
  maps : Maps
  uses : List Nat
  took : Bool
  put : Bool

/-- The assignment to `ctx.Params` (engine.go:109): the map made by `Match` (tree.go:220), or nil; nothing for a static hit (engine.go:103-105). -/
def Maps.arrive (m : Maps) (c : Nat) : Option (Option Params) → Maps
  | none => m
  | some none => m.setRefs c { m.refs c with par := none }
  | some (some ps) => let (a, m) := m.alloc Map.empty ps; m.setRefs c { m.refs c with par := some a }

/-- `ctx.Environ = make(Environ)` (engine.go:125). -/
def Maps.freshEnviron (m : Maps) (c : Nat) : Maps :=
  let (a, m) := m.alloc Map.empty Map.empty
  m.setRefs c { m.refs c with env := some a }

/-- the part of a context that is reset or assigned anew for every request (context.go:37-45, engine.go:96-127) -/
def freshCtx (fullPath : Option Str) : Ctx ω :=
  { environ := Map.empty, params := Map.empty, handlers := [], index := 0, written := false, status := 0, fullPath, parsedParams := false }

/-- what is left of a run; `Put` is not reached if the chain panics (engine.go:129-131) -/
def servedM (r : Out × MSt ω) : MServed ω :=
  { out := r.1, rw := r.2.st.rw, world := r.2.st.world, forms := r.2.st.forms, trace := r.2.st.trace, maps := r.2.maps,
    uses := r.2.uses, took := true, put := r.1 = .ret }

/-- The end of `ServeHTTP` once the handlers are known (engine.go:113-131); `none` when there is nothing to run. -/
def runRoutedM (o : Oracle) (c : Nat) (req : Req) (rw : Writer) (body : Option Str) (w : ω) (m : Maps) (uri : Option Str) :
    Option (List (MProg ω)) → MServed ω
  | none =>
    let ps := ({ ctx := freshCtx none, rw, body, forms := [], world := w, trace := [] } : St ω).writeHeader o 404
    { out := if ps.1 then .panic callPanic else .ret, rw := ps.2.rw, world := w, forms := [], trace := [], maps := m, uses := [],
      took := true, put := !ps.1 }
  | some hs =>
    servedM (runAllM o req
      { st := { ctx := freshCtx uri, rw, body, forms := [], world := w, trace := [] }, handlers := hs, me := c,
        maps := m.freshEnviron c, uses := [] })

/-- The handlers a request runs (engine.go:113-122). -/
def chainForM (e : Engine (MProg ω)) (n : Option (EndNode (MProg ω))) : Option (List (MProg ω)) :=
  match n with
  | some n => some n.handlers
  | none => if e.noFound.length ≠ 0 then some e.noFound else none

/-- a request answered before a context is taken (engine.go:85-94) -/
def refusedM (o : Oracle) (rw : Writer) (w : ω) (m : Maps) (code : Int) : MServed ω :=
  { out := if (rw.writeHeader o.bad code).1 then .panic callPanic else .ret, rw := (rw.writeHeader o.bad code).2, world := w, forms := [],
    trace := [], maps := m, uses := [], took := false, put := false }

/-- `ServeHTTP` (engine.go:84-132) with the context at address `c`, from the pool or new. -/
def serveM (rx : Regex) (o : Oracle) (e : Engine (MProg ω)) (c : Nat) (req : Req) (rw : Writer) (body : Option Str) (w : ω) (m : Maps) :
    MServed ω :=
  if !protoAtLeast11 req || req.requestURI == b!"*" || req.method == b!"CONNECT" then
    refusedM o rw w m 406
  else
    match methodIndex req.method with
    | none =>
      refusedM o rw w m 405
    | some i =>
      runRoutedM o c req rw body w (m.arrive c (lookup rx e i req.path).2) ((lookup rx e i req.path).1.map (·.uri))
        (chainForM e (lookup rx e i req.path).1)

/-- The server between requests: the world, the maps in memory, the contexts in the pool, how many contexts were made, and the
addresses handlers used. -/
structure MServer (ω : Type) where
  world : ω
  maps : Maps
  idle : List Nat
  made : Nat
  uses : List Nat

/-- A request, with the context `Get` would take from the pool (`sync.Pool`; a new one if there is none such, engine.go:71-78). -/
structure Arrival where
  pick : Option Nat
  req : Req
  rw : Writer
  body : Option Str

/-- the context `Get` returns: its address, and whether it comes from the pool -/
def MServer.get (s : MServer ω) (q : Arrival) : Nat × Bool :=
  match q.pick with
  | some c => if c ∈ s.idle then (c, true) else (s.made, false)
  | none => (s.made, false)

/-- the maps when the context is there: those of a new one are nil (`newContext`, context.go:33-35) -/
def MServer.ready (s : MServer ω) (q : Arrival) : Maps :=
  if (s.get q).2 then s.maps else s.maps.setRefs (s.get q).1 ⟨none, none⟩

/-- One request after the other. A context is out of the pool while it serves a request, and not put back if the chain panics. -/
def MServer.step (rx : Regex) (o : Oracle) (e : Engine (MProg ω)) (s : MServer ω) (q : Arrival) : MServer ω :=
  let c := (s.get q).1
  let r := serveM rx o e c q.req q.rw q.body s.world (s.ready q)
  if r.took then
    { world := r.world, maps := r.maps, made := if (s.get q).2 then s.made else s.made + 1, uses := s.uses ++ r.uses
      idle := if r.put then c :: s.idle.erase c else s.idle.erase c }
  else { s with world := r.world }

end Water
