import Verif.Model.Extended
import Verif.Props.Serve
import Verif.Props.Guard
/- The build with the tag `extended`. -/
namespace Water
open Spec
variable {ω : Type}

/-- C155 (partial: the property is false, see `C155_http2` and `C155_refuted`). With the tag `extended` a request is answered as
without it, whenever it is turned away before routing or the writer has the three methods; so for every HTTP/1 request that net/http
hands over. -/
theorem C155_partial (rx : Regex) (o : Oracle) (e : Engine (Prog ω)) (c : Ctx ω) (req : Req) (rw : Writer) (body : Option Str) (w : ω) :
    (∀ k : WriterCaps, ¬ Routed req → serveExt k rx o e c req rw body w = serve rx o e c req rw body w) ∧
    (∀ k : WriterCaps, k.closeNotifier = true → k.flusher = true → k.hijacker = true →
      serveExt k rx o e c req rw body w = serve rx o e c req rw body w) ∧
    (req.protoMajor ≤ 1 → serveExt (netHttpCaps req) rx o e c req rw body w = serve rx o e c req rw body w) := by
  have hall : ∀ k : WriterCaps, k.closeNotifier = true → k.flusher = true → k.hijacker = true →
      serveExt k rx o e c req rw body w = serve rx o e c req rw body w := by
    intro k h1 h2 h3
    have hk : k.extended = true := by simp [WriterCaps.extended, h1, h2, h3]
    unfold serveExt serve
    simp only [hk, if_true]
    rfl
  refine ⟨fun k hr => ?_, hall, fun hv => ?_⟩
  · unfold serveExt serve
    split
    · rfl
    · rename_i hg
      have hg := mt (gate_iff req).2 hg
      cases hi : methodIndex req.method with
      | none => rfl
      | some i =>
        exfalso
        refine hr ⟨?_, fun h => hg (.inr (.inl h)), ?_⟩
        · exact Decidable.not_not.1 (fun h => hg (.inl h))
        · have hm : req.method ∈ methodNames := by
            refine Decidable.not_not.1 (fun h => ?_)
            rw [methodIndex_none.2 h] at hi
            cases hi
          exact hm
  · refine hall _ rfl rfl ?_
    have : ¬ req.protoMajor > 1 := by omega
    simp [netHttpCaps, this]

/-- A routed request whose writer lacks one of the methods, for every engine: the handler function panics before any handler
(so before `Recovery`) starts, nothing is sent, and the context taken from the pool is lost. -/
theorem C155_lacking (k : WriterCaps) (hk : ¬ (k.closeNotifier = true ∧ k.flusher = true ∧ k.hijacker = true)) (rx : Regex) (o : Oracle)
    (e : Engine (Prog ω)) (c : Ctx ω) (req : Req) (hr : Routed req) (rw : Writer) (body : Option Str) (w : ω) :
    let sv := serveExt k rx o e c req rw body w
    (∃ v, sv.out = .panic v) ∧ sv.rw = rw ∧ sv.world = w ∧ sv.trace = [] ∧ sv.took = true ∧ sv.puts = [] := by
  obtain ⟨i, hi⟩ := hr.index
  have hg := mt (gate_iff req).1 hr.ungated
  have hk' : k.extended = false := by
    rcases k with ⟨a, b, d⟩
    simp only at hk
    cases a <;> cases b <;> cases d <;> first | rfl | exact absurd ⟨rfl, rfl, rfl⟩ hk
  have he : serveExt k rx o e c req rw body w =
      { out := .panic callPanic, rw, world := w, forms := [], trace := [], took := true, puts := [] } := by
    unfold serveExt
    rw [if_neg hg, hi]
    simp [hk']
  intro sv
  have hsv : sv = _ := he
  rw [hsv]
  exact ⟨⟨_, rfl⟩, rfl, rfl, rfl, rfl, rfl⟩

/-- So every HTTP/2 request that is routed panics, whatever the routes and handlers are; and so does every test with
`httptest.NewRecorder`. -/
theorem C155_http2 (rx : Regex) (o : Oracle) (e : Engine (Prog ω)) (c : Ctx ω) (req : Req) (hr : Routed req) (rw : Writer)
    (body : Option Str) (w : ω) (k : WriterCaps) (hk : req.protoMajor ≥ 2 ∧ k = netHttpCaps req ∨ k = recorderCaps) :
    let sv := serveExt k rx o e c req rw body w
    (∃ v, sv.out = .panic v) ∧ sv.rw = rw ∧ sv.world = w ∧ sv.trace = [] ∧ sv.took = true ∧ sv.puts = [] := by
  refine C155_lacking k ?_ rx o e c req hr rw body w
  rcases hk with ⟨hv, rfl⟩ | rfl
  · rintro ⟨_, _, h⟩
    have : req.protoMajor > 1 := by omega
    simp [netHttpCaps, this] at h
  · rintro ⟨h, _⟩
    cases h

/-- The answers are the same exactly when the request is not routed or the writer has all three methods, if the default build
does not itself panic. -/
theorem C155_same_iff (k : WriterCaps) (rx : Regex) (o : Oracle) (e : Engine (Prog ω)) (c : Ctx ω) (req : Req) (rw : Writer)
    (body : Option Str) (w : ω) (hok : (serve rx o e c req rw body w).out = .ret) :
    serveExt k rx o e c req rw body w = serve rx o e c req rw body w ↔
      ¬ Routed req ∨ k.closeNotifier = true ∧ k.flusher = true ∧ k.hijacker = true := by
  have hp := C155_partial rx o e c req rw body w
  constructor
  · intro h
    by_cases hr : Routed req
    · refine .inr (Decidable.not_not.1 fun hk => ?_)
      obtain ⟨⟨v, hv⟩, -⟩ := C155_lacking k hk rx o e c req hr rw body w
      rw [h, hok] at hv
      cases hv
    · exact .inl hr
  · rintro (h | ⟨h1, h2, h3⟩)
    · exact hp.1 k h
    · exact hp.2.1 k h1 h2 h3

/-! ### `Flush` -/

/-- the code and the header fields of the answer are settled -/
def Settled (code : Int) (h : Header) (s : St ω) : Prop := received s.rw.log = some code ∧ receivedHeader s.rw.log = some h

theorem receivedHeader_append {a b : List WEvent} {h : Header} (hr : receivedHeader a = some h) : receivedHeader (a ++ b) = some h := by
  induction a with
  | nil => cases hr
  | cons e a ih =>
    cases e with
    | status x c' h' => exact hr
    | body d => exact ih hr

theorem settled_call (o : Oracle) (req : Req) {code : Int} {h : Header} (s : St ω) (c : Call ω) (hs : Settled code h s) :
    Settled code h (doCall o req s c).2 := by
  obtain ⟨es, he⟩ := log_grows o req s c
  unfold Settled
  rw [he]
  exact ⟨received_append hs.1, receivedHeader_append hs.2⟩

theorem settled_run (o : Oracle) (req : Req) {code : Int} {h : Header} (fuel : Nat) (s : St ω) (hs : Settled code h s) :
    Settled code h (run o req fuel s).2 :=
  run_inv o req (Settled code h) (fun _ => True) (fun _ _ h => h) (fun _ h => h) (fun s c _ hs => settled_call o req s c hs)
    (fun _ _ p _ => callsIn_true p) fuel s hs

theorem settled_exec (o : Oracle) (req : Req) {code : Int} {h : Header} (fuel : Nat) (i : Nat) (p : Prog ω) (s : St ω)
    (hs : Settled code h s) : Settled code h (exec o req (run o req fuel) i p s).2 :=
  exec_inv o req (Settled code h) (fun _ => True) (run o req fuel) (fun _ _ _ h => h) (fun _ h => h)
    (fun s c _ hs => settled_call o req s c hs) (fun s hs => settled_run o req fuel s hs) i p (callsIn_true p) s hs

theorem body_flushed (a : List WEvent) : receivedBody (a ++ [.body []]) = receivedBody a := by
  induction a with
  | nil => rfl
  | cons e a ih =>
    cases e with
    | status x c' h' => exact ih
    | body d => exact congrArg (d ++ ·) ih

theorem header_of_code {a : List WEvent} (hs : (received a).isSome) : ∃ h, receivedHeader a = some h := by
  induction a with
  | nil => cases hs
  | cons e a ih =>
    cases e with
    | status x c' h' => exact ⟨h', rfl⟩
    | body d => exact ih hs

/-- C156 (partial: the property is false, see `C156_refuted`). Once the answer has begun, `ctx.Flush()` changes nothing that the
client receives: not the code, the header fields or the body; nor anything in the context. -/
theorem C156_partial (o : Oracle) (req : Req) (nx : St ω → Out × St ω) (i : Nat) (k : Prog ω) (s : St ω)
    (hs : (received s.rw.log).isSome) :
    ∃ s', exec o req nx i (.flush k) s = exec o req nx i k s' ∧ s'.ctx = s.ctx ∧ s'.world = s.world ∧ s'.rw.header = s.rw.header ∧
      received s'.rw.log = received s.rw.log ∧ receivedHeader s'.rw.log = receivedHeader s.rw.log ∧
      receivedBody s'.rw.log = receivedBody s.rw.log := by
  have hne : s.rw.log.isEmpty = false := by
    cases hl : s.rw.log with
    | nil => rw [hl] at hs; cases hs
    | cons x xs => rfl
  have hw : (doCall o req s (.rawWrite [])).2.rw = { s.rw with log := s.rw.log ++ [.body []] } := by
    show s.rw.write [] = _
    unfold Writer.write
    rw [hne]
    rfl
  refine ⟨(doCall o req s (.rawWrite [])).2, rfl, rfl, rfl, ?_⟩
  rw [hw]
  refine ⟨rfl, received_more hs _, ?_, body_flushed _⟩
  have hh : ∃ h, receivedHeader s.rw.log = some h := header_of_code hs
  obtain ⟨h, hh⟩ := hh
  exact (receivedHeader_append hh).trans hh.symm

/-- A `Flush` before that settles the answer: at any point of any chain, whatever the handler and the handlers behind it do
afterwards, also if they panic and `Recovery` answers 500, the client receives the code 200 and the header fields as they were
at the `Flush`. -/
theorem C156_settles (o : Oracle) (req : Req) (fuel i : Nat) (k : Prog ω) (s : St ω) (hs : s.rw.log = []) :
    let s' := (exec o req (run o req fuel) i (.flush k) s).2
    received s'.rw.log = some 200 ∧ receivedHeader s'.rw.log = some s.rw.header ∧
      ∀ fuel', received (run o req fuel' s').2.rw.log = some 200 ∧ receivedHeader (run o req fuel' s').2.rw.log = some s.rw.header := by
  have h0 : Settled 200 s.rw.header (doCall o req s (.rawWrite [])).2 := by
    have hw : (doCall o req s (.rawWrite [])).2.rw = { s.rw with log := [.status false 200 s.rw.header, .body []] } := by
      show s.rw.write [] = _
      unfold Writer.write
      rw [hs]
      rfl
    unfold Settled
    rw [hw]
    exact ⟨rfl, rfl⟩
  have h1 : Settled 200 s.rw.header (exec o req (run o req fuel) i (.flush k) s).2 := settled_exec o req fuel i k _ h0
  exact ⟨h1.1, h1.2, fun fuel' => settled_run o req fuel' _ h1⟩

/-- The framework does not see it: `ctx.Written` and `ctx.Status` are as before, so a handler that only flushes is followed by the next one. -/
theorem C156_unseen (o : Oracle) (req : Req) (s : St ω) (hd : s.ctx.written = false) (rest : List (Prog ω)) (p : Prog ω)
    (h0 : s.ctx.handlers = .flush .ret :: p :: rest) (hi : s.ctx.index = 0) :
    ∃ s1 : St ω, s1.ctx = { s.ctx with index := 1 } ∧ s1.trace = s.trace ++ [.start 0, .stop 0 false] ∧
      runAll o req s = run o req (rest.length + 2) s1 := by
  refine ⟨(((doCall o req (s.log (.start 0)) (.rawWrite [])).2.log (.stop 0 false))).bump, ?_, ?_, ?_⟩
  · show { s.ctx with index := s.ctx.index + 1 } = _
    rw [hi]
  · show s.trace ++ [.start 0] ++ [.stop 0 false] = _
    simp
  · unfold runAll
    rw [h0]
    show run o req ((rest.length + 2) + 1) s = _
    rw [run, h0, hi]
    show (match exec o req (run o req (rest.length + 2)) 0 (.flush .ret) (s.log (.start 0)) with
      | (.ret, s) =>
        let s := (s.log (.stop 0 s.ctx.written)).bump
        if s.ctx.written then (Out.ret, s) else run o req (rest.length + 2) s
      | (.panic v, s) => (.panic v, s.log (.crash 0))
      | (.fuel, s) => (.fuel, s)) = _
    have he : exec o req (run o req (rest.length + 2)) 0 (.flush .ret) (s.log (.start 0)) =
      (Out.ret, (doCall o req (s.log (.start 0)) (.rawWrite [])).2) := rfl
    rw [he]
    have hd' : (doCall o req (s.log (.start 0)) (.rawWrite [])).2.ctx.written = false := hd
    simp only [hd']
    have hd2 : ((doCall o req (s.log (.start 0)) (.rawWrite [])).2.log (.stop 0 false)).bump.ctx.written = false := hd
    exact if_neg (fun h => Bool.false_ne_true (hd2.symm.trans h))

/-! ### witnesses -/
namespace Demo

/-- a request over HTTP/2 -/
def at2 (path : Str) : Req := { at' path with protoMajor := 2, protoMinor := 0 }

theorem at2_routed : Routed (at2 b!"/u/42") := ⟨.inl (by decide), by decide, List.mem_cons_self⟩

/-- `C155_partial` and `C155_http2` speak of requests that are answered: over HTTP/1.1 the route answers 200 in both builds; over HTTP/2 the
default build answers 200 with the parameter -/
theorem C155_demo : withServe [] (fun e =>
    codesOf (serveExt (netHttpCaps (at' b!"/u/42")) rx chainO e .new (at' b!"/u/42") Writer.new none ()) == [200] &&
    bodyOf (serveExt (netHttpCaps (at' b!"/u/42")) rx chainO e .new (at' b!"/u/42") Writer.new none ()) == b!"42" &&
    codesOf (serveExt recorderCaps rx chainO e .new { at2 b!"/u/42" with method := b!"TRACE" } Writer.new none ()) == [405] &&
    codesOf (serve rx chainO e .new (at2 b!"/u/42") Writer.new none ()) == [200] &&
    bodyOf (serve rx chainO e .new (at2 b!"/u/42") Writer.new none ()) == b!"42") = true := by
  decide +kernel

/-- sends what it has at once, then lets the next handler go on -/
def flushH : Prog Unit := .flush .ret
/-- answers 404 -/
def missH : Prog Unit := .string 404 b!"no such page" .ret
/-- writes, flushes, writes again -/
def streamH : Prog Unit := .do (.writeHeader 201) (.do (.write b!"one ") (.flush (.do (.write b!"two") .ret)))

/-- `C156_partial` covers real streaming: the client receives 201 and all of the body -/
theorem C156_demo :
    received (runAll chainO chainReq (chainSt [streamH, missH])).2.rw.log = some 201 ∧
    receivedBody (runAll chainO chainReq (chainSt [streamH, missH])).2.rw.log = b!"one two" := by
  decide +kernel

end Demo
open Demo

/-- C155 is false: there is an engine, made by the router, and an HTTP/2 request as net/http hands it over, that the default build
answers with 200 and the build with the tag `extended` does not answer at all. -/
theorem C155_refuted : ∃ (heap : Heap (Prog Unit)) (e : Engine (Prog Unit)) (req : Req),
    runOps [] serveOps = .ok heap ∧ handler rx heap 0 [] = .ok e ∧ Routed req ∧
    received (serve rx chainO e .new req Writer.new none ()).rw.log = some 200 ∧
    (serveExt (netHttpCaps req) rx chainO e .new req Writer.new none ()).rw.log = [] ∧
    ∃ v, (serveExt (netHttpCaps req) rx chainO e .new req Writer.new none ()).out = .panic v := by
  obtain ⟨heap, e, h1, h2, h3⟩ := withServe_spec (opts := [])
    (p := fun e => received (serve rx chainO e .new (at2 b!"/u/42") Writer.new none ()).rw.log == some 200) (by decide +kernel)
  have h := C155_http2 rx chainO e .new (at2 b!"/u/42") at2_routed Writer.new none () (netHttpCaps (at2 b!"/u/42")) (.inl ⟨by decide, rfl⟩)
  refine ⟨heap, e, at2 b!"/u/42", h1, h2, at2_routed, eq_of_beq h3, ?_, h.1⟩
  rw [h.2.1]
  rfl

/-- C156 is false: a handler that flushes and leaves the answer to the next, which answers 404: the context says 404, the client is told 200. -/
theorem C156_refuted :
    let s := (runAll chainO chainReq (chainSt [flushH, missH])).2
    s.ctx.written = true ∧ s.ctx.status = 404 ∧ received s.rw.log = some 200 ∧ receivedHeader s.rw.log = some Map.empty ∧
      receivedBody s.rw.log = b!"no such page" := by
  refine ⟨by decide +kernel, by decide +kernel, by decide +kernel, ?_, by decide +kernel⟩
  rfl

end Water
