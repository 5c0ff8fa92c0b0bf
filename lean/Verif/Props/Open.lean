import Verif.Lemmas.Open2
import Verif.Props.Chain
import Verif.Props.Demo
/-
C111: handlers that replace the request, the response writer, the parameters or the environment. For all chains of arbitrary such
handlers, all writers, requests, worlds and states at the beginning of the chain.
-/
namespace Water
open Spec
variable {ρ ω : Type}

/-! ### Examples -/
namespace Demo

/-- the world: how often each writer was used, and what was sent -/
structure Sink where
  used : List Nat
  sent : List Str
  header : Header

/-- writer 0 is that of the connection; 1 counts the calls and passes them on; 2 panics -/
def sink : Outside Str Sink where
  device := fun a op w =>
    let w := if a = 1 then { w with used := w.used ++ [1] } else w
    if a = 2 then (.error (.val b!"broken"), w)
    else match op with
      | .writeHeader code => (.ok .unit, { w with sent := w.sent ++ [b!"status " ++ itoaNat code.toNat] })
      | .write data => (.ok .unit, { w with sent := w.sent ++ [data] })
      | .header f => (.ok (f w.header).2, { w with header := (f w.header).1 })
  parse := fun _ r w => (.ok (), r, w)
  fields := fun r => { chainReq with path := r }
  detect := fun _ => b!"text/plain"

/-- middleware that installs writer `a` and restores the old one -/
def wrapIn (a : Nat) : OProg Str Sink := .call (.wrap (fun _ w => (some a, w))) (fun _ => .next (.call (.wrap (fun _ w => (some 0, w))) (fun _ => .ret)))
/-- middleware that installs writer `a` for good -/
def install (a : Nat) : OProg Str Sink := .call (.wrap (fun _ w => (some a, w))) (fun _ => .ret)
/-- a handler that sets the writer to nil -/
def unset : OProg Str Sink := .call (.wrap (fun _ w => (none, w))) (fun _ => .ret)
/-- a handler that replaces the request -/
def rewrite (r : Str) : OProg Str Sink := .call (.request (fun _ w => (.ok .unit, some r, w))) (fun _ => .ret)
/-- a handler that writes -/
def says (t : Str) : OProg Str Sink := .call (.write t) (fun _ => .ret)
/-- a handler that sends the path of the request it has got -/
def echo : OProg Str Sink := .call (.request (fun r w => (.ok (.str (r.getD [])), r, w))) (fun r =>
  match r with | .str t => says t | _ => .ret)
def boom : OProg Str Sink := .panic (.val b!"boom")
def rawSays (t : Str) : OProg Str Sink := .call (.raw (.write t)) (fun _ => .ret)

def openSt (hs : List (OProg Str Sink)) : OSt Str Sink :=
  { ctx := { (OCtx.new : OCtx Str Sink) with handlers := hs, request := some b!"/x", writer := some 0, environ := some Map.empty }
    world := { used := [], sent := [], header := Map.empty }, trace := [] }

theorem openSt_start (hs : List (OProg Str Sink)) : OAtStart (openSt hs) := ⟨rfl, rfl, rfl⟩

/-- how a chain ends, what was sent and which writers were used -/
def openRun (hs : List (OProg Str Sink)) : Out × List Str × List Nat :=
  ((runAllOpen sink (openSt hs)).1, (runAllOpen sink (openSt hs)).2.world.sent, (runAllOpen sink (openSt hs)).2.world.used)

def openTrace (hs : List (OProg Str Sink)) : List Event := (runAllOpen sink (openSt hs)).2.trace

end Demo
open Demo

/-! ### The chain -/

theorem bigSt_start {x : Outside ρ ω} {s : OSt ρ ω} (h : OAtStart s) : AtStart (bigSt x s) := h

theorem bigSt_len (x : Outside ρ ω) (s : OSt ρ ω) : (bigSt x s).ctx.handlers.length = s.ctx.handlers.length := by simp [bigSt]

/-- C111. The handlers that start do so in strictly increasing position, and only handlers of the chain start. -/
theorem C111_in_order (x : Outside ρ ω) (s : OSt ρ ω) (hs : OAtStart s) :
    (starts (runAllOpen x s).2.trace).Pairwise (· < ·) ∧ ∀ k ∈ starts (runAllOpen x s).2.trace, k < s.ctx.handlers.length := by
  obtain ⟨-, h⟩ := runAllOpen_same x calmO_calm chainReq s
  rw [← h.trace, ← bigSt_len x s]
  exact C24_in_order calmO chainReq _ (bigSt_start hs)

/-- C111. If every handler calls `Next` at most once, the handlers that start are the first `k` of the chain; if it returns without
panic and without a response through the context, all have started. -/
theorem C111_no_skip (x : Outside ρ ω) (s : OSt ρ ω) (hs : OAtStart s) (h1 : ∀ i, nexts i (runAllOpen x s).2.trace ≤ 1) :
    ∃ k ≤ s.ctx.handlers.length, starts (runAllOpen x s).2.trace = List.range k ∧
      ((runAllOpen x s).1 = .ret → (runAllOpen x s).2.ctx.written = false → k = s.ctx.handlers.length) := by
  obtain ⟨ho, h⟩ := runAllOpen_same x calmO_calm chainReq s
  rw [← h.trace] at h1 ⊢
  rw [← bigSt_len x s, ho, ← h.written]
  exact C25_no_skip calmO chainReq _ (bigSt_start hs) h1

/-- C111. After a handler returned with a response written, another starts only if a running handler calls `Next`. -/
theorem C111_written_stops (x : Outside ρ ω) (s : OSt ρ ω) (hs : OAtStart s) (pre mid post : List Event) (i k : Nat)
    (h : (runAllOpen x s).2.trace = pre ++ .stop i true :: (mid ++ .start k :: post)) :
    ∃ m mid₁ mid₂, mid = mid₁ ++ .next m :: mid₂ ∧
      ∃ st, onion ([], false) (pre ++ .stop i true :: mid₁) = some (.handler m :: st, false) := by
  obtain ⟨-, h'⟩ := runAllOpen_same x calmO_calm chainReq s
  rw [← h'.trace] at h
  exact C26_written_stops calmO chainReq _ (bigSt_start hs) pre mid post i k h

/-- C111. The events form an onion, with a panic left at the end exactly if the chain panicked; every handler that starts finishes exactly
once; and the chain ends: the recursion of context.go:47-61 needs no more levels than there are handlers. -/
theorem C111_onion (x : Outside ρ ω) (s : OSt ρ ω) (hs : OAtStart s) :
    onion ([], false) (runAllOpen x s).2.trace = some ([], (runAllOpen x s).1.isPanic) ∧
    (∀ i, finishes i (runAllOpen x s).2.trace = if i ∈ starts (runAllOpen x s).2.trace then 1 else 0) ∧
    (runAllOpen x s).1 ≠ .fuel ∧
    ∀ fuel, s.ctx.handlers.length < fuel → runOpen x fuel s = runAllOpen x s := by
  obtain ⟨ho, h⟩ := runAllOpen_same x calmO_calm chainReq s
  obtain ⟨h1, h2⟩ := C27_onion calmO chainReq _ (bigSt_start (x := x) hs)
  obtain ⟨h3, h4, -⟩ := C28_terminates calmO chainReq _ (bigSt_start (x := x) hs)
  refine ⟨by rw [← h.trace, ho]; exact h1, fun i => by rw [← h.trace]; exact h2 i, by rw [ho]; exact h3, fun fuel hf => ?_⟩
  obtain ⟨ho', h'⟩ := runOpen_same x calmO_calm chainReq fuel (bigSt_same x s)
  have h5 := h4 fuel (by rw [bigSt_len]; exact hf)
  rw [h5] at ho' h'
  refine Prod.ext (ho'.trans ho.symm) (same_eq h' h ?_)
  unfold runAllOpen
  rw [runOpen_handlers, runOpen_handlers]

/-- a chain with a wrapping middleware, a replaced request and a raw write, which does not stop the chain -/
example : openRun [wrapIn 1, rewrite b!"/y", rawSays b!"raw", echo, says b!"never"] =
      (.ret, [b!"raw", b!"status 200", b!"/y"], [1, 1, 1, 1, 1]) ∧
    openTrace [wrapIn 1, rewrite b!"/y", echo, says b!"never"] =
      [.start 0, .next 0, .start 1, .stop 1 false, .start 2, .stop 2 true, .back 0, .stop 0 true] := by decide +kernel

/-- a chain in which the response does not stop the handlers, since `Next` is called again -/
example : openTrace [.next (.next .ret), says b!"a", says b!"b", says b!"c"] =
      [.start 0, .next 0, .start 1] ++ .stop 1 true :: ([.back 0, .next 0] ++ .start 3 :: [.stop 3 true, .back 0, .stop 0 true]) ∧
    openRun [unset, says b!"x"] = (.panic nilUse, [], []) := by decide +kernel

/-! ### The flag and the status -/

/-- C111. Whatever the handlers do to the fields, once a response has been written through the context the flag and the status stay. -/
theorem C111_sticky (x : Outside ρ ω) (s : OSt ρ ω) (fuel : Nat) (hw : s.ctx.written = true) :
    (runOpen x fuel s).2.ctx.written = true ∧ (runOpen x fuel s).2.ctx.status = s.ctx.status :=
  runOpen_keeps (sticky_kept x s.ctx.status) (fun _ _ p _ => OCallsIn.all p) fuel s ⟨hw, rfl⟩

/-- the status is that of the first `WriteHeader`, also when the writer is exchanged in between -/
example : (runAllOpen sink (openSt [.call (.writeHeader 201) (fun _ => .next .ret), install 1,
    .call (.writeHeader 500) (fun _ => .ret)])).2.ctx.status = 201 := by decide +kernel

/-! ### Old handlers -/

theorem chainOpen_up (e : Engine (Prog ω)) (n : Option (EndNode (Prog ω))) :
    chainOpen (e.map up) (n.map (EndNode.map up)) = (chainFor e n).map (List.map up) := by
  cases n with
  | some n => rfl
  | none =>
    simp only [chainOpen, chainFor, Option.map_none, Engine.map, List.length_map]
    by_cases h0 : e.noFound.length ≠ 0
    · rw [if_pos h0, if_pos h0]; rfl
    · rw [if_neg h0, if_neg h0]; rfl

/-- the requests are answered alike -/
def AnsweredAlike (r : Served ω) (r' : OServed Req (Net ω)) : Prop :=
  r'.out = r.out ∧ r'.world.rw = r.rw ∧ r'.world.world = r.world ∧ r'.world.forms = r.forms ∧ r'.trace = r.trace ∧ r'.took = r.took ∧
  r'.puts.map (fun c' => c'.params.getD Map.empty) = r.puts.map (·.params)

theorem routed_alike (o : Oracle) (e : Engine (Prog ω)) (c : Ctx ω) (c' : OCtx Req (Net ω)) (hc : c'.params.getD Map.empty = c.params) (req : Req)
    (a : Nat) (rw : Writer) (body : Option Str) (w : ω) (n : Option (EndNode (Prog ω))) (ps : Option (Option Params)) :
    AnsweredAlike (serveRouted o e c req rw body w n ps)
      (serveRoutedOpen (net o) (e.map up) c' req a { rw, body, forms := [], form := [], world := w } (n.map (EndNode.map up)) ps) := by
  have hp : (ps.getD c'.params).getD Map.empty = (match ps with
      | none => c.params
      | some none => Map.empty
      | some (some ps) => ps) := by
    cases ps with
    | none => exact hc
    | some ps => cases ps <;> rfl
  have hfp : (n.map (EndNode.map up)).map (·.uri) = n.map (·.uri) := by cases n <;> rfl
  unfold serveRoutedOpen serveRouted
  rw [chainOpen_up]
  cases hcf : chainFor e n with
  | none =>
    simp only [Option.map_none]
    have hl : (OSt.writeHeader (net o) { ctx := prepareOpen c' req a ((n.map (EndNode.map up)).map (·.uri)) ps
                                         world := { rw, body, forms := [], form := [], world := w }
                                         trace := [] } 404) =
        (if (rw.writeHeader o.bad 404).1 then .error callPanic else .ok .unit,
          { ctx := { prepareOpen c' req a ((n.map (EndNode.map up)).map (·.uri)) ps with written := true, status := 404 }
            world := { rw := (rw.writeHeader o.bad 404).2, body, forms := [], form := [], world := w }
            trace := [] }) := rfl
    have hr : (St.writeHeader o { ctx := { prepare c c.handlers none ps with environ := c.environ }
                                  rw, body, forms := [], world := w, trace := [] } 404) = ((rw.writeHeader o.bad 404).1,
          { ctx := { prepare c c.handlers none ps with environ := c.environ, written := true, status := 404 }
            rw := (rw.writeHeader o.bad 404).2, body, forms := [], world := w, trace := [] }) := rfl
    rw [hl, hr]
    rcases rw.writeHeader o.bad 404 with ⟨p, rw'⟩
    cases p with
    | true => exact ⟨rfl, rfl, rfl, rfl, rfl, rfl, rfl⟩
    | false => exact ⟨rfl, rfl, rfl, rfl, rfl, rfl, congrArg (· :: []) hp⟩
  | some hs =>
    simp only [Option.map_some]
    have hl : Like req
        ({ ctx := prepare c hs (n.map (·.uri)) ps, rw, body, forms := [], world := w, trace := [] } : St ω)
        ({ ctx := { prepareOpen c' req a ((n.map (EndNode.map up)).map (·.uri)) ps with handlers := hs.map up, environ := some Map.empty },
           world := { rw, body, forms := [], form := [], world := w }, trace := [] } : OSt Req (Net ω)) :=
      { environ := rfl, params := hp, request := rfl, writer := ⟨a, rfl⟩, handlers := rfl, index := rfl, written := rfl, status := rfl,
        fullPath := hfp, parsed := rfl, world := rfl, trace := rfl }
    obtain ⟨h1, h2⟩ := runAll_like o req hl
    generalize runAll o req _ = y at *
    generalize runAllOpen (net o) _ = y' at *
    obtain ⟨out, s⟩ := y
    obtain ⟨out', s'⟩ := y'
    simp only at h1 h2
    subst h1
    refine ⟨rfl, congrArg Net.rw h2.world, congrArg Net.world h2.world, congrArg Net.forms h2.world, h2.trace, rfl, ?_⟩
    simp only []
    split
    · exact congrArg (· :: []) h2.params
    · rfl

/-- C111. The handlers of the other models are open handlers that keep what they are given: a request served with them is served as in
`Serve.lean`. Contexts in the pool count as alike if their `Params` are. -/
theorem C111_closed (rx : Regex) (o : Oracle) (e : Engine (Prog ω)) (c : Ctx ω) (c' : OCtx Req (Net ω))
    (hc : c'.params.getD Map.empty = c.params) (req : Req) (a : Nat) (rw : Writer) (body : Option Str) (w : ω) :
    let r := serve rx o e c req rw body w
    let r' := serveOpen rx (net o) (e.map up) c' req a { rw, body, forms := [], form := [], world := w }
    r'.out = r.out ∧ r'.world.rw = r.rw ∧ r'.world.world = r.world ∧ r'.world.forms = r.forms ∧ r'.trace = r.trace ∧ r'.took = r.took ∧
    r'.puts.map (fun c' => c'.params.getD Map.empty) = r.puts.map (·.params) := by
  have hfields : (net o : Outside Req (Net ω)).fields req = req := rfl
  show AnsweredAlike _ _
  unfold serve serveOpen
  rw [hfields]
  simp only []
  split
  · simp only [net]
    rcases hx : rw.writeHeader o.bad 406 with ⟨p, rw'⟩
    cases p <;> exact ⟨rfl, rfl, rfl, rfl, rfl, rfl, rfl⟩
  · cases methodIndex req.method with
    | none =>
      simp only [net]
      rcases hx : rw.writeHeader o.bad 405 with ⟨p, rw'⟩
      cases p <;> exact ⟨rfl, rfl, rfl, rfl, rfl, rfl, rfl⟩
    | some i =>
      simp only [lookup_map]
      exact routed_alike o e c c' hc req a rw body w _ _

/-! ### Recycled contexts -/

/-- C111. What a request is answered does not depend on the context taken from the pool, whatever earlier handlers did to its fields,
except for `Params` where the request is served by a static route. -/
theorem C111_isolated (rx : Regex) (x : Outside ρ ω) (e : Engine (OProg ρ ω)) (c c' : OCtx ρ ω) (r : ρ) (a : Nat) (w : ω)
    (hp : ∀ i, methodIndex (x.fields r).method = some i → (lookup rx e i (x.fields r).path).2 = none → c.params = c'.params) :
    let s := serveOpen rx x e c r a w
    let s' := serveOpen rx x e c' r a w
    s'.out = s.out ∧ s'.world = s.world ∧ s'.trace = s.trace ∧ s'.took = s.took ∧ s'.puts.length = s.puts.length := by
  simp only []
  unfold serveOpen
  simp only []
  split
  · exact ⟨rfl, rfl, rfl, rfl, rfl⟩
  · cases hm : methodIndex (x.fields r).method with
    | none => exact ⟨rfl, rfl, rfl, rfl, rfl⟩
    | some i =>
      have h := hp i hm
      simp only []
      generalize lookup rx e i (x.fields r).path = y at *
      obtain ⟨n, ps⟩ := y
      have hps : ps.getD c'.params = ps.getD c.params := by
        cases ps with
        | none => exact (h rfl).symm
        | some ps => rfl
      have hprep : ∀ hs : List (OProg ρ ω),
          ({ prepareOpen c' r a (n.map (·.uri)) ps with handlers := hs, environ := some Map.empty } : OCtx ρ ω) =
          { prepareOpen c r a (n.map (·.uri)) ps with handlers := hs, environ := some Map.empty } := by
        intro hs
        simp only [prepareOpen, OCtx.reset, hps]
      unfold serveRoutedOpen
      simp only [hprep]
      cases chainOpen e n with
      | some hs => exact ⟨rfl, rfl, rfl, rfl, rfl⟩
      | none =>
        simp only [OSt.writeHeader, prepareOpen, OCtx.reset, Bool.false_eq_true, if_false, OSt.use]
        rcases (x.device a (.writeHeader 404) w) with ⟨r' | r', w'⟩ <;> exact ⟨rfl, rfl, rfl, rfl, rfl⟩

/-- the response to a GET of `path`, with a context from the pool -/
def openServed (c : OCtx Str Sink) (path : Str) : Option (Out × List Str) :=
  match mkEngine Demo.rx true [] [({ method := mGET, uri := b!"/s", variant := [], handlers := [echo] } : Route (OProg Str Sink)),
      { method := mGET, uri := b!"/p/<id>", variant := [], handlers := [.call (.param b!"id") (fun r => match r with | .str t => says t | _ => .ret)] },
      { method := mGET, uri := b!"/leak", variant := [], handlers := [.call (.param b!"id") (fun r => match r with | .str t => says t | _ => .ret)] }] with
  | .ok e =>
    let r := serveOpen Demo.rx sink e c path 0 { used := [], sent := [], header := Map.empty }
    some (r.out, r.world.sent)
  | .error _ => none

/-- a context whose fields were all assigned to -/
def dirty : OCtx Str Sink :=
  { environ := none, params := some (fun _ => some b!"old"), request := none, writer := none, handlers := [boom], index := 7, written := true,
    status := 500, fullPath := some b!"/old", parsedParams := true }

/-- it is as good as a new one, but for the parameters seen on a static route -/
example : openServed dirty b!"/p/7" = some (.ret, [b!"status 200", b!"7"]) ∧ openServed OCtx.new b!"/p/7" = some (.ret, [b!"status 200", b!"7"]) ∧
    openServed dirty b!"/none" = some (.ret, [b!"status 404"]) ∧ openServed OCtx.new b!"/none" = some (.ret, [b!"status 404"]) ∧
    openServed dirty b!"/leak" = some (.ret, [b!"status 200", b!"old"]) ∧ openServed OCtx.new b!"/leak" = some (.panic callPanic, []) := by
  decide +kernel

/-! ### Wrapped writers -/

/-- C111. Replacing writers by ones that pass everything on, and that differ only in a part of the world the handlers do not look at, changes
nothing else: same outcome, same events, same context, related worlds. -/
theorem C111_wrapper (x : Outside ρ ω) (R : Nat → Nat → Prop) (W : ω → ω → Prop) (hx : Transparent x R W) (s : OSt ρ ω)
    (hh : ∀ p ∈ s.ctx.handlers, OCallsIn (Blind R W) p) (b : Option Nat) (w : ω) (hb : OptRel R s.ctx.writer b) (hw : W s.world w) :
    let t := runAllOpen x { s with ctx := { s.ctx with writer := b }, world := w }
    t.1 = (runAllOpen x s).1 ∧ t.2.trace = (runAllOpen x s).2.trace ∧ W (runAllOpen x s).2.world t.2.world ∧
    OptRel R (runAllOpen x s).2.ctx.writer t.2.ctx.writer ∧ t.2.ctx = { (runAllOpen x s).2.ctx with writer := t.2.ctx.writer } := by
  obtain ⟨h1, h2⟩ := runOpen_twin hx s.ctx.handlers hh (s.ctx.handlers.length + 1) (s := s)
    (t := { s with ctx := { s.ctx with writer := b }, world := w }) rfl ⟨hb, hw, rfl, rfl⟩
  exact ⟨h1.symm, h2.trace, h2.world, h2.writer, h2.ctx⟩

/-- the counting writer passes everything on -/
theorem sink_transparent : Transparent sink (fun a b => a ≤ 1 ∧ b ≤ 1) (fun v w => v.sent = w.sent ∧ v.header = w.header) := by
  constructor
  · intro a b op v w hab hvw
    obtain ⟨ha, hb⟩ := hab
    obtain ⟨h1, h2⟩ := hvw
    have ha' : a ≠ 2 := by omega
    have hb' : b ≠ 2 := by omega
    simp only [sink, if_neg ha', if_neg hb']
    by_cases ha1 : a = 1 <;> by_cases hb1 : b = 1 <;> cases op <;> simp [ha1, hb1, h1, h2]
  · intro m r v w h
    exact ⟨rfl, rfl, h⟩

/-- a chain as in the theorem, with the writer of the connection and with the counting one -/
example : (∀ p ∈ [says b!"a", rawSays b!"b"], OCallsIn (Blind (fun a b => a ≤ 1 ∧ b ≤ 1)
      (fun v w : Sink => v.sent = w.sent ∧ v.header = w.header)) p) ∧
    openRun [.next .ret, says b!"a"] = (.ret, [b!"status 200", b!"a"], []) ∧
    openRun [wrapIn 1, says b!"a"] = (.ret, [b!"status 200", b!"a"], [1, 1, 1, 1]) := by
  refine ⟨?_, by decide +kernel, by decide +kernel⟩
  intro p hp
  simp only [List.mem_cons, List.not_mem_nil, or_false] at hp
  rcases hp with rfl | rfl <;> exact ⟨trivial, fun _ => trivial⟩

/-! ### Recovery -/

/-- C111 (partial). With `Recovery` in front a chain does not panic, provided no response writer panics and no handler sets it to nil. Missing:
other writers; `Recovery` answers through the writer it finds, so it then panics itself, see `C111_recovery_refuted`. -/
theorem C111_recovery_partial (x : Outside ρ ω) (stable : Bool) (crash : Str → Str) (hx : SafeWriters x) (s : OSt ρ ω) (hs : OAtStart s)
    (hw : s.ctx.writer ≠ none) (hs' : List (OProg ρ ω)) (hh : s.ctx.handlers = openRecovery stable crash :: hs')
    (hn : ∀ p ∈ hs', OCallsIn NoNilWriter p) : (runAllOpen x s).1 = .ret ∧ (runAllOpen x s).2.ctx.written = true := by
  have hc : ∀ p ∈ s.ctx.handlers, OCallsIn NoNilWriter p := by
    rw [hh]
    intro p hp
    rcases List.mem_cons.1 hp with rfl | hp
    · exact openRecovery_noNil stable crash
    · exact hn p hp
  have hfuel := (C111_onion x s hs).2.2.1
  unfold runAllOpen at hfuel ⊢
  have h0 : s.ctx.handlers[s.ctx.index]? = some (openRecovery stable crash) := by rw [hh, hs.1]; rfl
  have hk := writer_kept x s.ctx.handlers
  have hin := runOpen_keeps hk (fun t ht p hp => hc p (ht.2 ▸ hp)) s.ctx.handlers.length
    ((s.log (.start s.ctx.index)).log (.next s.ctx.index)).bump ⟨hw, rfl⟩
  simp only [runOpen, h0] at hfuel ⊢
  simp only [openRecovery, execOpen] at hfuel ⊢
  generalize runOpen x s.ctx.handlers.length ((s.log (.start s.ctx.index)).log (.next s.ctx.index)).bump = y at *
  obtain ⟨out, s1⟩ := y
  have done : ∀ (r : Option PVal) (t : OSt ρ ω), t.ctx.writer ≠ none →
      (execOpen x (runOpen x s.ctx.handlers.length) s.ctx.index (recoveredOpen stable crash r) t).1 = .ret ∧
      (execOpen x (runOpen x s.ctx.handlers.length) s.ctx.index (recoveredOpen stable crash r) t).2.ctx.written = true := fun r t ht =>
    ⟨(recoveredOpen_calm stable crash r).returns hx _ _ ht, recoveredOpen_written x _ _ stable crash r t⟩
  have finish : ∀ (r : Option PVal) (t : OSt ρ ω), t.ctx.writer ≠ none →
      ∀ y, execOpen x (runOpen x s.ctx.handlers.length) s.ctx.index (recoveredOpen stable crash r) t = y →
      y = (.ret, y.2) ∧ y.2.ctx.written = true := by
    rintro r t ht y rfl
    obtain ⟨h1, h2⟩ := done r t ht
    exact ⟨Prod.ext h1 rfl, h2⟩
  cases out with
  | fuel => exact absurd rfl hfuel
  | ret =>
    simp only []
    generalize hy : execOpen x (runOpen x s.ctx.handlers.length) s.ctx.index (recoveredOpen stable crash none) (s1.log (.back s.ctx.index)) = y
    obtain ⟨h1, h2⟩ := finish none (s1.log (.back s.ctx.index)) hin.1 y hy
    obtain ⟨o', s2⟩ := y
    simp only [Prod.mk.injEq, and_true] at h1 h2
    subst h1
    have : (s2.log (.stop s.ctx.index s2.ctx.written)).bump.ctx.written = true := h2
    simp only [this, if_true]
    exact ⟨trivial, trivial⟩
  | panic v =>
    simp only []
    generalize hy : execOpen x (runOpen x s.ctx.handlers.length) s.ctx.index (recoveredOpen stable crash (some v)) (s1.log (.thrown s.ctx.index)) = y
    obtain ⟨h1, h2⟩ := finish (some v) (s1.log (.thrown s.ctx.index)) hin.1 y hy
    obtain ⟨o', s2⟩ := y
    simp only [Prod.mk.injEq, and_true] at h1 h2
    subst h1
    have : (s2.log (.stop s.ctx.index s2.ctx.written)).bump.ctx.written = true := h2
    simp only [this, if_true]
    exact ⟨trivial, trivial⟩

/-- writers as in the theorem -/
def safeSink : Outside Str Sink := { sink with device := fun a op w => sink.device (min a 1) op w }

/-- a chain as in the theorem -/
example : SafeWriters safeSink ∧ (∀ p ∈ [install 1, boom, says b!"x"], OCallsIn NoNilWriter p) ∧
    (runAllOpen safeSink (openSt [openRecovery false id, install 2, boom, says b!"x"])).2.world.sent = [b!"status 500", b!"boom"] := by
  refine ⟨?_, ?_, by decide +kernel⟩
  · intro a op w
    have h : ¬ (min a 1 = 2) := by omega
    cases op <;> exact ⟨_, by simp only [safeSink, sink, if_neg h]; rfl⟩
  · intro p hp
    simp only [List.mem_cons, List.not_mem_nil, or_false] at hp
    rcases hp with rfl | rfl | rfl
    · exact ⟨fun _ _ _ => by simp, fun _ => trivial⟩
    · trivial
    · exact ⟨trivial, fun _ => trivial⟩

/-- C111 (refuted). `Recovery` does not protect against a handler that replaces the response writer: if the new writer panics, or the
field is set to nil, so does `Recovery`. -/
theorem C111_recovery_refuted :
    openRun [openRecovery false id, install 2, boom] = (.panic (.val b!"broken"), [], []) ∧
    openRun [openRecovery true id, unset, boom] = (.panic nilUse, [], []) ∧
    openRun [openRecovery false id, install 1, boom] = (.ret, [b!"status 500", b!"boom"], [1, 1, 1]) := by decide +kernel

end Water
