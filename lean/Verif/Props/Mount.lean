import Verif.Model.Mount
import Verif.Spec.Response
import Verif.Lemmas.Chain
import Verif.Props.Serve
/- C161: an application mounted in another. -/
namespace Water
open Spec
variable {ω : Type}

/-- inner state and outer context that say the same about the answer -/
private def lift (s : St ω) : InSt ω := { inn := s, outer := { written := s.ctx.written, status := s.ctx.status } }

private theorem writeHeader_eq (o : Oracle) (s : St ω) (code : Int) :
    (lift s).writeHeader o code = ((s.writeHeader o code).1, lift (s.writeHeader o code).2) := by
  unfold InSt.writeHeader St.writeHeader lift
  cases hw : s.ctx.written
  · simp [InSt.outerWriteHeader]
  · simp [hw]

private theorem writeHeader_written (o : Oracle) (s : St ω) (code : Int) : (s.writeHeader o code).2.ctx.written = true := by
  unfold St.writeHeader
  cases hw : s.ctx.written <;> simp [hw]

private theorem outerWrite_lift (o : Oracle) (s : St ω) (data : Str) (h : s.ctx.written = true) :
    (lift s).outerWrite o data = (false, lift { s with rw := s.rw.write data }) := by
  simp [InSt.outerWrite, lift, h]

private theorem write_eq (o : Oracle) (s : St ω) (data : Str) :
    (lift s).write o data = ((s.write o data).1, lift (s.write o data).2) := by
  unfold InSt.write St.write
  by_cases hw : s.ctx.written = true
  · have h1 : (lift s).inn.ctx.written = true := hw
    rw [if_pos h1, if_pos hw, outerWrite_lift o s data hw]
  · have h1 : ¬ (lift s).inn.ctx.written = true := hw
    rw [if_neg h1, if_neg hw]
    have key : ∀ s' : St ω, (match (lift s').writeHeader o 200 with
          | (true, m) => (true, m)
          | (false, m) => m.outerWrite o data) =
        ((match s'.writeHeader o 200 with
          | (true, s) => (true, s)
          | (false, s) => (false, { s with rw := s.rw.write data })).1,
         lift (match s'.writeHeader o 200 with
          | (true, s) => (true, s)
          | (false, s) => (false, { s with rw := s.rw.write data })).2) := by
      intro s'
      have hwr := writeHeader_written o s' 200
      rw [writeHeader_eq]
      rcases hr : s'.writeHeader o 200 with ⟨p, s1⟩
      rw [hr] at hwr
      cases p
      · exact outerWrite_lift o s1 data hwr
      · rfl
    by_cases hc : data.length > 0 ∧ s.rw.header.get kContentType = []
    · have hc' : data.length > 0 ∧ (lift s).inn.rw.header.get kContentType = [] := hc
      simp only [if_pos hc, if_pos hc']
      exact key { s with rw := { s.rw with header := s.rw.header.put kContentType (o.detect data) } }
    · have hc' : ¬ (data.length > 0 ∧ (lift s).inn.rw.header.get kContentType = []) := hc
      simp only [if_neg hc, if_neg hc']
      exact key s

private theorem parseForm_flags (o : Oracle) (req : Req) (s : St ω) :
    (s.parseForm o req).2.ctx.written = s.ctx.written ∧ (s.parseForm o req).2.ctx.status = s.ctx.status := by
  unfold St.parseForm
  split <;> exact ⟨rfl, rfl⟩

private theorem doCallIn_lift (o : Oracle) (req : Req) (s : St ω) (c : Call ω) (hc : ¬ Bypass c) :
    doCallIn o req (lift s) c = ((doCall o req s c).1, lift (doCall o req s c).2) := by
  have other : ∀ c : Call ω, (doCall o req s c).2.ctx.written = s.ctx.written → (doCall o req s c).2.ctx.status = s.ctx.status →
      (((doCall o req (lift s).inn c).1, { lift s with inn := (doCall o req (lift s).inn c).2 }) : Except PVal Res × InSt ω) =
        ((doCall o req s c).1, lift (doCall o req s c).2) := by
    intro c h1 h2
    simp [lift, h1, h2]
  cases c with
  | rawWriteHeader code => exact absurd trivial hc
  | rawWrite d => exact absurd trivial hc
  | writeHeader code =>
    simp only [doCallIn, doCall, writeHeader_eq, InSt.done]
    rcases s.writeHeader o code with ⟨p, s1⟩
    cases p <;> rfl
  | write d =>
    simp only [doCallIn, doCall, write_eq, InSt.done]
    rcases s.write o d with ⟨p, s1⟩
    cases p <;> rfl
  | param k => exact other _ (by simp only [doCall]; split <;> rfl) (by simp only [doCall]; split <;> rfl)
  | envSet k v => exact other _ (by simp only [doCall]; split <;> rfl) (by simp only [doCall]; split <;> rfl)
  | envGet k => exact other _ (by simp only [doCall]; split <;> rfl) (by simp only [doCall]; split <;> rfl)
  | readBody k => exact other _ (by simp only [doCall]; split <;> rfl) (by simp only [doCall]; split <;> rfl)
  | parseForm =>
    have h := parseForm_flags o req s
    refine other _ ?_ ?_
    · simp only [doCall]
      rcases hr : s.parseForm o req with ⟨p, s1⟩
      rw [hr] at h
      cases p <;> exact h.1
    · simp only [doCall]
      rcases hr : s.parseForm o req with ⟨p, s1⟩
      rw [hr] at h
      cases p <;> exact h.2
  | readForm f =>
    have h := parseForm_flags o req s
    refine other _ ?_ ?_
    · simp only [doCall]
      rcases hr : s.parseForm o req with ⟨p, s1⟩
      rw [hr] at h
      cases p <;> exact h.1
    · simp only [doCall]
      rcases hr : s.parseForm o req with ⟨p, s1⟩
      rw [hr] at h
      cases p <;> exact h.2
  | _ => exact other _ rfl rfl

private theorem execIn_lift (o : Oracle) (req : Req) (hs : List (Prog ω)) (nx : St ω → Out × St ω) (nxM : InSt ω → Out × InSt ω)
    (hnx : ∀ s : St ω, s.ctx.handlers = hs → nxM (lift s) = ((nx s).1, lift (nx s).2) ∧ (nx s).2.ctx.handlers = hs) (i : Nat) (p : Prog ω) :
    CallsIn (fun c => ¬ Bypass c) p → ∀ s : St ω, s.ctx.handlers = hs →
      execIn o req nxM i p (lift s) = ((exec o req nx i p s).1, lift (exec o req nx i p s).2) ∧ (exec o req nx i p s).2.ctx.handlers = hs := by
  induction p with
  | ret => exact fun _ s h => ⟨rfl, h⟩
  | panic v => exact fun _ s h => ⟨rfl, h⟩
  | next k ih =>
    intro ha s h
    simp only [exec, execIn]
    obtain ⟨h1, h2⟩ := hnx (s.log (.next i)).bump h
    have e : ((lift s).log (.next i)).bump = lift (s.log (.next i)).bump := rfl
    rw [e, h1]
    rcases hr : nx (s.log (.next i)).bump with ⟨out, s1⟩
    rw [hr] at h2
    cases out with
    | fuel => exact ⟨rfl, h2⟩
    | panic v => exact ⟨rfl, h2⟩
    | ret => exact ih ha (s1.log (.back i)) h2
  | call c k ih =>
    intro ha s h
    simp only [exec, execIn]
    rw [doCallIn_lift o req s c ha.1]
    have h2 := (doCall_frame o req s c).1
    rcases hr : doCall o req s c with ⟨out, s1⟩
    rw [hr] at h2
    cases out with
    | error v => exact ⟨rfl, h2.trans h⟩
    | ok r => exact ih r (ha.2 r) s1 (h2.trans h)
  | scope b f ihb ihf =>
    intro ha s h
    simp only [exec, execIn]
    obtain ⟨h1, h2⟩ := ihb ha.1 s h
    rw [h1]
    rcases hr : exec o req nx i b s with ⟨out, s1⟩
    rw [hr] at h2
    cases out with
    | fuel => exact ⟨rfl, h2⟩
    | ret => exact ihf _ (ha.2 _) s1 h2
    | panic v => exact ihf _ (ha.2 _) s1 h2

private theorem runIn_lift (o : Oracle) (req : Req) (hs : List (Prog ω)) (hc : ∀ p ∈ hs, CallsIn (fun c => ¬ Bypass c) p) :
    ∀ (fuel : Nat) (s : St ω), s.ctx.handlers = hs →
      runIn o req fuel (lift s) = ((run o req fuel s).1, lift (run o req fuel s).2) ∧ (run o req fuel s).2.ctx.handlers = hs
  | 0, s, h => ⟨rfl, h⟩
  | fuel + 1, s, h => by
    simp only [run, runIn]
    have e : (lift s).inn = s := rfl
    rw [e]
    rcases hh : s.ctx.handlers[s.ctx.index]? with _ | p
    · exact ⟨rfl, h⟩
    · simp only
      obtain ⟨h1, h2⟩ := execIn_lift o req hs (run o req fuel) (runIn o req fuel) (fun s h => runIn_lift o req hs hc fuel s h) s.ctx.index p
        (hc p (by rw [← h]; exact List.mem_of_getElem? hh)) (s.log (.start s.ctx.index)) h
      have e : (lift s).log (.start s.ctx.index) = lift (s.log (.start s.ctx.index)) := rfl
      rw [e, h1]
      rcases hr : exec o req (run o req fuel) s.ctx.index p (s.log (.start s.ctx.index)) with ⟨out, s1⟩
      rw [hr] at h2
      cases out with
      | fuel => exact ⟨rfl, h2⟩
      | panic v => exact ⟨rfl, h2⟩
      | ret =>
        simp only
        have e1 : (lift s1).inn = s1 := rfl
        have e2 : ((lift s1).log (.stop s.ctx.index s1.ctx.written)).bump = lift (s1.log (.stop s.ctx.index s1.ctx.written)).bump := rfl
        have e3 : (lift (s1.log (.stop s.ctx.index s1.ctx.written)).bump).inn = (s1.log (.stop s.ctx.index s1.ctx.written)).bump := rfl
        rw [e1, e2, e3]
        by_cases hw : (s1.log (.stop s.ctx.index s1.ctx.written)).bump.ctx.written = true
        · rw [if_pos hw, if_pos hw]
          exact ⟨rfl, h2⟩
        · rw [if_neg hw, if_neg hw]
          exact runIn_lift o req hs hc fuel _ h2

/-- A mounted application whose handlers write through their context, reached before anything was sent, ends, sends and does what it does as the
only application, whatever its routes and handlers and whatever the outer handlers did before. Afterwards the outer context has the flag `written`
and the status of the inner one: so the outer chain stops exactly if the inner application answered. -/
theorem C161 (rx : Regex) (o : Oracle) (e : Engine (Prog ω)) (c : Ctx ω) (req : Req) (s : St ω) (hw : s.ctx.written = false) (hst : s.ctx.status = 0)
    (hn : ∀ i, ∀ n, (lookup rx e i req.path).1 = some n → ∀ p ∈ n.handlers, CallsIn (fun c => ¬ Bypass c) p)
    (hf : ∀ p ∈ e.noFound, CallsIn (fun c => ¬ Bypass c) p) :
    (mounted rx o e c req s).1 = (serve rx o e c req s.rw s.body s.world).out ∧
      (mounted rx o e c req s).2.rw = (serve rx o e c req s.rw s.body s.world).rw ∧
      (mounted rx o e c req s).2.world = (serve rx o e c req s.rw s.body s.world).world ∧
      (∀ c' ∈ (serve rx o e c req s.rw s.body s.world).puts,
        (mounted rx o e c req s).2.ctx = { s.ctx with written := c'.written, status := c'.status }) ∧
      ((serve rx o e c req s.rw s.body s.world).took = false → (mounted rx o e c req s).2.ctx.written = true) := by
  have el : ∀ ctx : Ctx ω, ctx.written = false → ctx.status = 0 →
      ({ inn := { ctx, rw := s.rw, body := s.body, forms := [], world := s.world, trace := [] },
         outer := { written := s.ctx.written, status := s.ctx.status } } : InSt ω) =
        lift { ctx, rw := s.rw, body := s.body, forms := [], world := s.world, trace := [] } := by
    intro ctx h1 h2
    simp only [lift, hw, hst, h1, h2]
  unfold mounted serve
  simp only
  by_cases hg : (!protoAtLeast11 req || req.requestURI == b!"*" || req.method == b!"CONNECT") = true
  · rw [if_pos hg, if_pos hg]
    simp only [InSt.outerWriteHeader, hw, Bool.false_eq_true, if_false]
    exact ⟨trivial, trivial, trivial, fun c' h => absurd h List.not_mem_nil, fun _ => trivial⟩
  · rw [if_neg hg, if_neg hg]
    rcases hi : methodIndex req.method with _ | i
    · simp only [InSt.outerWriteHeader, hw, Bool.false_eq_true, if_false]
      exact ⟨trivial, trivial, trivial, fun c' h => absurd h List.not_mem_nil, fun _ => trivial⟩
    · simp only [serveRouted]
      rcases hch : chainFor e (lookup rx e i req.path).1 with _ | hs
      · simp only
        have h0 := el { prepare c c.handlers none (lookup rx e i req.path).2 with environ := c.environ } rfl rfl
        simp only [h0, writeHeader_eq]
        have hwo : ∀ s0 : St ω, (s0.writeHeader o 404).2.world = s0.world := by
          intro s0
          simp only [St.writeHeader]
          split <;> rfl
        refine ⟨trivial, rfl, hwo _, fun c' h => ?_, fun h => nomatch h⟩
        split at h
        · exact absurd h List.not_mem_nil
        · rw [List.mem_singleton.1 h]
          rfl
      · simp only
        have hall : ∀ p ∈ hs, CallsIn (fun c => ¬ Bypass c) p := by
          unfold chainFor at hch
          rcases hl : (lookup rx e i req.path).1 with _ | n
          · rw [hl] at hch
            simp only at hch
            split at hch
            · cases hch; exact hf
            · cases hch
          · rw [hl] at hch
            cases hch
            exact hn i n hl
        have h0 := el (prepare c hs ((lookup rx e i req.path).1.map (·.uri)) (lookup rx e i req.path).2) rfl rfl
        simp only [h0]
        have h1 := (runIn_lift o req hs hall (hs.length + 1)
          ⟨prepare c hs ((lookup rx e i req.path).1.map (·.uri)) (lookup rx e i req.path).2, s.rw, s.body, [], s.world, [], []⟩ rfl).1
        simp only [h1]
        refine ⟨rfl, rfl, rfl, fun c' h => ?_, fun h => nomatch h⟩
        split at h
        · rw [List.mem_singleton.1 h]
          rfl
        · exact absurd h List.not_mem_nil

/-- Whatever the handlers of a mounted application do, the context of the outer one keeps its chain and position, route, parameters and
environment; only the flag and the status may have changed. -/
theorem C161_outer (rx : Regex) (o : Oracle) (e : Engine (Prog ω)) (c : Ctx ω) (req : Req) (s : St ω) :
    let r := (mounted rx o e c req s).2
    r.ctx = { s.ctx with written := r.ctx.written, status := r.ctx.status } := by
  unfold mounted
  simp only
  split
  · rfl
  · split
    · rfl
    · split <;> rfl

/-- What the handlers of the mounted application have read of the body is gone for the outer handlers that come after, and nothing else: with the
same chain run by itself the same is left. -/
theorem C161_body (rx : Regex) (o : Oracle) (e : Engine (Prog ω)) (c : Ctx ω) {req : Req} (hr : Routed req) (s : St ω) (hw : s.ctx.written = false)
    (hst : s.ctx.status = 0) {i : Nat} (hi : methodIndex req.method = some i) {hs : List (Prog ω)} (hch : chainFor e (lookup rx e i req.path).1 = some hs)
    (hc : ∀ p ∈ hs, CallsIn (fun c => ¬ Bypass c) p) :
    (mounted rx o e c req s).2.body = (runAll o req
      ⟨prepare c hs ((lookup rx e i req.path).1.map (·.uri)) (lookup rx e i req.path).2, s.rw, s.body, [], s.world, [], []⟩).2.body := by
  have hg : ¬ (!protoAtLeast11 req || req.requestURI == b!"*" || req.method == b!"CONNECT") = true := fun h => hr.ungated ((gate_iff req).1 h)
  unfold mounted
  simp only
  rw [if_neg hg, hi]
  simp only [hch]
  have h1 := (runIn_lift o req hs hc (hs.length + 1)
    ⟨prepare c hs ((lookup rx e i req.path).1.map (·.uri)) (lookup rx e i req.path).2, s.rw, s.body, [], s.world, [], []⟩ rfl).1
  have h0 : (⟨⟨prepare c hs ((lookup rx e i req.path).1.map (·.uri)) (lookup rx e i req.path).2, s.rw, s.body, [], s.world, [], []⟩,
      ⟨s.ctx.written, s.ctx.status⟩⟩ : InSt ω) =
      lift ⟨prepare c hs ((lookup rx e i req.path).1.map (·.uri)) (lookup rx e i req.path).2, s.rw, s.body, [], s.world, [], []⟩ := by
    simp only [lift, hw, hst]
    rfl
  simp only [h0, h1]
  rfl

/-- the outer context has answered with `st`; since then only body bytes were added to `base` -/
private def Late (st : Int) (base : List WEvent) (m : InSt ω) : Prop :=
  m.outer = ⟨true, st⟩ ∧ ∃ ds : List Str, m.inn.rw.log = base ++ ds.map .body

private theorem late_outerWriteHeader {o : Oracle} {st : Int} {base : List WEvent} {m : InSt ω} (h : Late st base m) (code : Int) :
    m.outerWriteHeader o code = (false, m) := by
  unfold InSt.outerWriteHeader
  rw [h.1]
  rfl

private theorem late_outerWrite {o : Oracle} {st : Int} {base : List WEvent} (hb : base ≠ []) {m : InSt ω} (h : Late st base m) (d : Str) :
    (m.outerWrite o d).1 = false ∧ Late st base (m.outerWrite o d).2 := by
  obtain ⟨h1, ds, h2⟩ := h
  have he : m.inn.rw.log.isEmpty = false := by
    rw [h2]
    cases base with
    | nil => exact absurd rfl hb
    | cons x xs => rfl
  unfold InSt.outerWrite
  rw [if_pos (by rw [h1])]
  refine ⟨rfl, h1, ds ++ [d], ?_⟩
  simp only [Writer.write, he, Bool.false_eq_true, if_false]
  rw [h2]
  simp

private theorem late_doCallIn {o : Oracle} {req : Req} {st : Int} {base : List WEvent} (hb : base ≠ []) {m : InSt ω} (h : Late st base m) (c : Call ω) :
    Late st base (doCallIn o req m c).2 := by
  have hwh : ∀ (m : InSt ω) code, Late st base m → Late st base (m.writeHeader o code).2 := by
    intro m code h
    unfold InSt.writeHeader
    split
    · exact h
    · have h1 : Late st base ({ m with inn := { m.inn with ctx := { m.inn.ctx with written := true, status := code } } } : InSt ω) := ⟨h.1, h.2⟩
      have h2 := late_outerWriteHeader (o := o) h1 code
      have h3 : Late st base (InSt.outerWriteHeader o ({ m with inn := { m.inn with ctx := { m.inn.ctx with written := true, status := code } } } : InSt ω) code).2 := by
        rw [h2]
        exact h1
      exact h3
  have other : ∀ c : Call ω, (doCall o req m.inn c).2.rw.log = m.inn.rw.log →
      Late st base ({ m with inn := (doCall o req m.inn c).2 } : InSt ω) := by
    intro c hc
    obtain ⟨h1, ds, h2⟩ := h
    exact ⟨h1, ds, hc.trans h2⟩
  have hpf : (m.inn.parseForm o req).2.rw = m.inn.rw := by
    unfold St.parseForm
    split <;> rfl
  cases c with
  | writeHeader code => exact hwh m code h
  | rawWriteHeader code =>
    simp only [doCallIn, InSt.done, late_outerWriteHeader h]
    exact h
  | rawWrite d => exact (late_outerWrite hb h d).2
  | write d =>
    simp only [doCallIn, InSt.done]
    unfold InSt.write
    split
    · exact (late_outerWrite hb h d).2
    · have key : ∀ m : InSt ω, Late st base m → Late st base (match m.writeHeader o 200 with
          | (true, m) => (true, m)
          | (false, m) => m.outerWrite o d).2 := by
        intro m h
        have h1 := hwh m 200 h
        rcases hr : m.writeHeader o 200 with ⟨p, m1⟩
        rw [hr] at h1
        cases p
        · exact (late_outerWrite hb h1 d).2
        · exact h1
      apply key
      split
      · exact ⟨h.1, h.2⟩
      · exact h
  | param k => exact other _ (by simp only [doCall]; split <;> rfl)
  | envSet k v => exact other _ (by simp only [doCall]; split <;> rfl)
  | envGet k => exact other _ (by simp only [doCall]; split <;> rfl)
  | readBody k => exact other _ (by simp only [doCall]; split <;> rfl)
  | parseForm =>
    refine other _ ?_
    simp only [doCall]
    rcases hr : m.inn.parseForm o req with ⟨p, s1⟩
    rw [hr] at hpf
    cases p <;> exact congrArg Writer.log hpf
  | readForm f =>
    refine other _ ?_
    simp only [doCall]
    rcases hr : m.inn.parseForm o req with ⟨p, s1⟩
    rw [hr] at hpf
    cases p <;> exact congrArg Writer.log hpf
  | _ => exact other _ rfl

private theorem late_execIn {o : Oracle} {req : Req} {st : Int} {base : List WEvent} (hb : base ≠ []) {nx : InSt ω → Out × InSt ω}
    (hnx : ∀ m, Late st base m → Late st base (nx m).2) (i : Nat) (p : Prog ω) :
    ∀ m, Late st base m → Late st base (execIn o req nx i p m).2 := by
  induction p with
  | ret => exact fun m h => h
  | panic v => exact fun m h => h
  | next k ih =>
    intro m h
    simp only [execIn]
    have h1 := hnx (m.log (.next i)).bump h
    rcases hr : nx (m.log (.next i)).bump with ⟨out, m1⟩
    rw [hr] at h1
    cases out with
    | fuel => exact h1
    | panic v => exact h1
    | ret => exact ih (m1.log (.back i)) h1
  | call c k ih =>
    intro m h
    simp only [execIn]
    have h1 := late_doCallIn (o := o) (req := req) hb h c
    rcases hr : doCallIn o req m c with ⟨out, m1⟩
    rw [hr] at h1
    cases out with
    | error v => exact h1
    | ok r => exact ih r m1 h1
  | scope b f ihb ihf =>
    intro m h
    simp only [execIn]
    have h1 := ihb m h
    rcases hr : execIn o req nx i b m with ⟨out, m1⟩
    rw [hr] at h1
    cases out with
    | fuel => exact h1
    | ret => exact ihf _ m1 h1
    | panic v => exact ihf _ m1 h1

private theorem late_runIn {o : Oracle} {req : Req} {st : Int} {base : List WEvent} (hb : base ≠ []) :
    ∀ (fuel : Nat) (m : InSt ω), Late st base m → Late st base (runIn o req fuel m).2
  | 0, m, h => h
  | fuel + 1, m, h => by
    simp only [runIn]
    rcases hh : m.inn.ctx.handlers[m.inn.ctx.index]? with _ | p
    · exact h
    · simp only
      have h1 := late_execIn (o := o) (req := req) hb (late_runIn (o := o) (req := req) hb fuel) m.inn.ctx.index p (m.log (.start m.inn.ctx.index)) h
      rcases hr : execIn o req (runIn o req fuel) m.inn.ctx.index p (m.log (.start m.inn.ctx.index)) with ⟨out, m1⟩
      rw [hr] at h1
      cases out with
      | fuel => exact h1
      | panic v => exact h1
      | ret =>
        simp only
        split
        · exact h1
        · exact late_runIn hb fuel _ h1

/-- A mounted application that is reached when the outer one has already answered, whatever its handlers do, adds to the body and nothing else: no
second status line is sent, and the outer status stays. -/
theorem C161_sent (rx : Regex) (o : Oracle) (e : Engine (Prog ω)) (c : Ctx ω) (req : Req) (s : St ω) (hw : s.ctx.written = true) (hl : s.rw.log ≠ []) :
    (∃ ds : List Str, (mounted rx o e c req s).2.rw.log = s.rw.log ++ ds.map .body) ∧ (mounted rx o e c req s).2.ctx = s.ctx := by
  have start : ∀ ctx : Ctx ω, Late s.ctx.status s.rw.log
      ({ inn := { ctx, rw := s.rw, body := s.body, forms := [], world := s.world, trace := [] },
         outer := { written := s.ctx.written, status := s.ctx.status } } : InSt ω) := by
    intro ctx
    exact ⟨by simp only [hw], [], by simp⟩
  have fin : ∀ m : InSt ω, Late s.ctx.status s.rw.log m →
      (∃ ds : List Str, m.inn.rw.log = s.rw.log ++ ds.map .body) ∧ ({ s.ctx with written := m.outer.written, status := m.outer.status } : Ctx ω) = s.ctx := by
    intro m h
    refine ⟨h.2, ?_⟩
    rw [h.1, ← hw]
  unfold mounted
  simp only
  split
  · rw [late_outerWriteHeader (start _)]
    exact fin _ (start _)
  · rcases methodIndex req.method with _ | i
    · simp only
      rw [late_outerWriteHeader (start _)]
      exact fin _ (start _)
    · simp only
      rcases chainFor e (lookup rx e i req.path).1 with _ | hs
      · exact fin _ (late_doCallIn (o := o) (req := req) hl (start _) (.writeHeader 404))
      · exact fin _ (late_runIn hl _ _ (start _))

namespace Demo

/-- the outer application before anything was sent, and after it sent 201 -/
def outerSt (sent : Bool) : St Unit :=
  { ctx := { Ctx.new with written := sent, status := if sent then 201 else 0 }, rw := { Writer.new with log := if sent then [.status true 201 Map.empty] else [] },
    body := none, forms := [], world := (), trace := [] }

/-- the status lines and the body that are sent by the application with the routes `/u/<id>` and `/s`, mounted -/
def mountedSends (sent : Bool) (e : Engine (Prog Unit)) (path : Str) : List Int × Str :=
  let r := (mounted rx chainO e .new (at' path) (outerSt sent)).2
  (r.rw.log.filterMap (fun x => match x with | .status _ c _ => some c | _ => none),
   r.rw.log.flatMap (fun x => match x with | .body d => d | _ => []))

/-- a route and a missing path of a mounted application, before and after the outer one answered -/
theorem C161_demo : withServe [] (fun e => mountedSends false e b!"/u/42" == ([200], b!"42") && mountedSends false e b!"/x" == ([404], []) &&
    mountedSends true e b!"/u/42" == ([201], b!"42") && mountedSends true e b!"/x" == ([201], [])) = true := by
  decide +kernel

end Demo
end Water
