import Verif.Model.Serve
/-
Requests served at the same time. Go runs `ServeHTTP` (engine.go:84-132) in one goroutine for each request; they share the
engine, which is not changed after it was built, the pool with its context objects, and the rest of the world.

`Machine` is `run`/`exec` (context.go:47-61) one action at a time, with an explicit stack. An action is: taking a context and
preparing it (engine.go:94-127), one call on the context, one call of `Next`, the beginning or the end of a handler or of a
deferred function, and the end of `ServeHTTP`. Memory is sequentially consistent. Requests that are refused before a context is
taken (engine.go:85-93) touch nothing that is shared; they are left out.
-/
namespace Water
variable {ω : Type}

/-- What is to be done when the code that runs now returns or panics. -/
inductive Frame (ω : Type) where
  /-- handler `i` was started by the loop of `run` (context.go:52-61) -/
  | handler (i : Nat)
  /-- handler `i` called `Next` (context.go:47-50) and goes on with `k` -/
  | after (i : Nat) (k : Prog ω)
  /-- handler `i` has a deferred function -/
  | deferred (i : Nat) (fin : Option PVal → Prog ω)

/-- Where a request is: at the head of the loop of `run`, in the code of handler `i`, or returning (`none`) or panicking to the
frame on top of the stack. -/
inductive Phase (ω : Type) where
  | loop
  | code (i : Nat) (p : Prog ω)
  | done (r : Option PVal)

/-- A request in progress. -/
structure Machine (ω : Type) where
  mode : Phase ω
  stack : List (Frame ω)
  st : St ω

/-- The end of handler `i` in `run` (context.go:55-59). -/
def Machine.leave (i : Nat) (K : List (Frame ω)) (s : St ω) : Machine ω :=
  let s := (s.log (.stop i s.ctx.written)).bump
  if s.ctx.written then ⟨.done none, K, s⟩ else ⟨.loop, K, s⟩

/-- One action of a request (context.go:47-61). -/
def Machine.step (o : Oracle) (req : Req) (m : Machine ω) : Machine ω :=
  match m.mode with
  | .loop =>
    match m.st.ctx.handlers[m.st.ctx.index]? with
    | none => ⟨.done none, m.stack, m.st⟩
    | some h => ⟨.code m.st.ctx.index h, .handler m.st.ctx.index :: m.stack, m.st.log (.start m.st.ctx.index)⟩
  | .code _ .ret => ⟨.done none, m.stack, m.st⟩
  | .code _ (.panic v) => ⟨.done (some v), m.stack, m.st⟩
  | .code i (.next k) => ⟨.loop, .after i k :: m.stack, (m.st.log (.next i)).bump⟩
  | .code i (.call c k) =>
    match doCall o req m.st c with
    | (.ok r, s) => ⟨.code i (k r), m.stack, s⟩
    | (.error v, s) => ⟨.done (some v), m.stack, s⟩
  | .code i (.scope body fin) => ⟨.code i body, .deferred i fin :: m.stack, m.st⟩
  | .done r =>
    match m.stack with
    | [] => m
    | .handler i :: K =>
      match r with
      | none => Machine.leave i K m.st
      | some v => ⟨.done (some v), K, m.st.log (.crash i)⟩
    | .after i k :: K =>
      match r with
      | none => ⟨.code i k, K, m.st.log (.back i)⟩
      | some v => ⟨.done (some v), K, m.st.log (.thrown i)⟩
    | .deferred i fin :: K => ⟨.code i (fin r), K, m.st⟩

/-- The answer the next action gets from the world, if it asks. -/
def Machine.told (m : Machine ω) : Option Res :=
  match m.mode with
  | .code _ (.call (.world f) _) => some (f m.st.world).2
  | _ => none

/-- A request with a context `c` from the pool (engine.go:94-128), before its chain is run; without a chain the answer is 404
(engine.go:119-122). -/
def Machine.start (rx : Regex) (o : Oracle) (e : Engine (Prog ω)) (c : Ctx ω) (req : Req) (i : Nat) (rw : Writer) (body : Option Str)
    (w : ω) : Machine ω :=
  let n := (lookup rx e i req.path).1
  let params := (lookup rx e i req.path).2
  match chainFor e n with
  | none =>
    let c := { prepare c c.handlers none params with environ := c.environ }
    let (p, s) := ({ ctx := c, rw, body, forms := [], world := w, trace := [] } : St ω).writeHeader o 404
    ⟨.done (if p then some callPanic else none), [], s⟩
  | some hs => ⟨.loop, [], { ctx := prepare c hs (n.map (·.uri)) params, rw, body, forms := [], world := w, trace := [] }⟩

/-- The first test of `ServeHTTP` (engine.go:85). -/
def refused (req : Req) : Bool := !protoAtLeast11 req || req.requestURI == b!"*" || req.method == b!"CONNECT"

/-- A goroutine of the server: its request, the number of its context object, where it is, and its own data. `rw₀`, `body₀` are
what it began with and `told` what the world has answered so far, for the record. -/
structure Thread (ω : Type) where
  id : Nat
  req : Req
  rw₀ : Writer
  body₀ : Option Str
  ctx : Nat
  mode : Phase ω
  stack : List (Frame ω)
  rw : Writer
  body : Option Str
  forms : List Bool
  trace : List Event
  form : Form
  told : List Res

/-- A finished request. -/
structure Answer (ω : Type) where
  id : Nat
  req : Req
  rw₀ : Writer
  body₀ : Option Str
  told : List Res
  out : Out
  rw : Writer
  forms : List Bool
  trace : List Event

/-- The server: the context objects made so far and their content, those in the pool, the world, requests in progress and requests
answered. `next` numbers the requests. -/
structure Server (ω : Type) where
  next : Nat
  made : Nat
  free : List Nat
  store : Nat → Ctx ω
  world : ω
  live : List (Thread ω)
  gone : List (Answer ω)

/-- The server before the first request. -/
def Server.init (w : ω) : Server ω :=
  { next := 0, made := 0, free := [], store := fun _ => Ctx.new, world := w, live := [], gone := [] }

/-- The request of `t` as a machine, its context object having the content `c`. -/
def Thread.machine (t : Thread ω) (c : Ctx ω) (w : ω) : Machine ω :=
  ⟨t.mode, t.stack, { ctx := c, rw := t.rw, body := t.body, forms := t.forms, world := w, trace := t.trace, form := t.form }⟩

/-- `t` after an action that led to `m`. -/
def Thread.put (t : Thread ω) (m : Machine ω) (r : Option Res) : Thread ω :=
  { t with mode := m.mode, stack := m.stack, rw := m.st.rw, body := m.st.body, forms := m.st.forms, trace := m.st.trace,
           form := m.st.form, told := t.told ++ r.toList }

/-- A new goroutine with context object `c`, in the state `m`. -/
def Thread.fresh (id : Nat) (req : Req) (rw : Writer) (body : Option Str) (c : Nat) (m : Machine ω) : Thread ω :=
  { id, req, rw₀ := rw, body₀ := body, ctx := c, mode := m.mode, stack := m.stack, rw := m.st.rw, body := m.st.body,
    forms := m.st.forms, trace := m.st.trace, form := m.st.form, told := [] }

/-- What is left of a finished request. -/
def Thread.answer (t : Thread ω) (out : Out) : Answer ω :=
  { id := t.id, req := t.req, rw₀ := t.rw₀, body₀ := t.body₀, told := t.told, out, rw := t.rw, forms := t.forms, trace := t.trace }

/-- one context object changed -/
def setStore (st : Nat → Ctx ω) (c : Nat) (x : Ctx ω) : Nat → Ctx ω := fun d => if d = c then x else st d

/-- What can happen in the server. `arrive`: a request begins, with a context from the pool (`some`, any of them) or a new one;
`act`: a request does one action; `leave`: a request ends, and its context goes back unless it panicked; `drop`: the pool gives up
a context. -/
inductive Happening where
  | arrive
  | act (id : Nat)
  | leave (id : Nat)
  | drop

/-- The steps of the server (engine.go:84-132 for each request, and `sync.Pool`). -/
inductive Server.Step (rx : Regex) (o : Oracle) (e : Engine (Prog ω)) : Server ω → Happening → Server ω → Prop where
  | arriveOld {s : Server ω} {a b : List Nat} {c i : Nat} {req : Req} {rw : Writer} {body : Option Str} :
      s.free = a ++ c :: b → refused req = false → methodIndex req.method = some i →
      Server.Step rx o e s .arrive
        { s with
          next := s.next + 1
          free := a ++ b
          store := setStore s.store c (Machine.start rx o e (s.store c) req i rw body s.world).st.ctx
          live := s.live ++ [Thread.fresh s.next req rw body c (Machine.start rx o e (s.store c) req i rw body s.world)] }
  | arriveNew {s : Server ω} {i : Nat} {req : Req} {rw : Writer} {body : Option Str} :
      refused req = false → methodIndex req.method = some i →
      Server.Step rx o e s .arrive
        { s with
          next := s.next + 1
          made := s.made + 1
          store := setStore s.store s.made (Machine.start rx o e Ctx.new req i rw body s.world).st.ctx
          live := s.live ++ [Thread.fresh s.next req rw body s.made (Machine.start rx o e Ctx.new req i rw body s.world)] }
  | act {s : Server ω} {a b : List (Thread ω)} {t : Thread ω} {m : Machine ω} :
      s.live = a ++ t :: b → (∀ r, ¬ (t.mode = .done r ∧ t.stack = [])) → m = (t.machine (s.store t.ctx) s.world).step o t.req →
      Server.Step rx o e s (.act t.id)
        { s with
          store := setStore s.store t.ctx m.st.ctx
          world := m.st.world
          live := a ++ t.put m (t.machine (s.store t.ctx) s.world).told :: b }
  | leave {s : Server ω} {a b : List (Thread ω)} {t : Thread ω} :
      s.live = a ++ t :: b → t.mode = .done none → t.stack = [] →
      Server.Step rx o e s (.leave t.id)
        { s with live := a ++ b, free := s.free ++ [t.ctx], gone := s.gone ++ [t.answer .ret] }
  | crash {s : Server ω} {a b : List (Thread ω)} {t : Thread ω} {v : PVal} :
      s.live = a ++ t :: b → t.mode = .done (some v) → t.stack = [] →
      Server.Step rx o e s (.leave t.id)
        { s with live := a ++ b, gone := s.gone ++ [t.answer (.panic v)] }
  | drop {s : Server ω} {a b : List Nat} {c : Nat} : s.free = a ++ c :: b → Server.Step rx o e s .drop { s with free := a ++ b }

/-- The states the server can get into. -/
inductive Server.Reach (rx : Regex) (o : Oracle) (e : Engine (Prog ω)) : Server ω → Prop where
  | init (w : ω) : Server.Reach rx o e (Server.init w)
  | step {s : Server ω} {h : Happening} {s' : Server ω} : Server.Reach rx o e s → Server.Step rx o e s h s' →
      Server.Reach rx o e s'

end Water
