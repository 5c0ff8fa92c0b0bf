import Verif.Lemmas.Open
import Verif.Lemmas.Parametric
/-
The handlers of `Context.lean` are open handlers that keep the writer net/http gave them.
-/
namespace Water
variable {ω : Type}

/-- the world with the connection in it -/
structure Net (ω : Type) where
  rw : Writer
  body : Option Str
  forms : List Bool
  form : Form
  world : ω

/-- the response writer of net/http, and `ParseForm`, as in `Context.lean` -/
def net (o : Oracle) : Outside Req (Net ω) where
  device := fun _ op n =>
    match op with
    | .writeHeader code =>
      (if (n.rw.writeHeader o.bad code).1 then .error callPanic else .ok .unit, { n with rw := (n.rw.writeHeader o.bad code).2 })
    | .write data => (.ok .unit, { n with rw := n.rw.write data })
    | .header f => (.ok (f n.rw.header).2, { n with rw := { n.rw with header := (f n.rw.header).1 } })
  parse := fun m r n =>
    (if (o.parse r m n.body).fails then .error callPanic else .ok (), r,
      { n with forms := n.forms ++ [m], form := (o.parse r m n.body).form, body := n.body.map (·.drop (o.parse r m n.body).read) })
  fields := id
  detect := o.detect

/-- something read from the request -/
def readReq (f : Req → Res) : OCall Req (Net ω) :=
  .request (fun r n => match r with
    | some r => (.ok (f r), some r, n)
    | none => (.error nilUse, none, n))

/-- a call of `Context.lean` -/
def upCall (c : Call ω) (k : Res → OProg Req (Net ω)) : OProg Req (Net ω) :=
  match c with
  | .writeHeader code => .call (.writeHeader code) k
  | .write data => .call (.write data) k
  | .setHeader n v => .call (.raw (.header (fun h => (h.put n v, .unit)))) k
  | .header f => .call (.raw (.header f)) k
  | .rawWriteHeader code => .call (.raw (.writeHeader code)) k
  | .rawWrite data => .call (.raw (.write data)) k
  | .written => .call .written k
  | .status => .call .status k
  | .fullPath => .call .fullPath k
  | .param n => .call (.param n) k
  | .envSet n v => .call (.envSet n v) k
  | .envGet n => .call (.envGet n) k
  | .envMaybe n => .call (.envMaybe n) k
  | .reqMethod => .call (readReq (fun r => .str r.method)) k
  | .reqTexts f => .call (readReq (fun r => .strs (f r))) k
  | .reqPath => .call (readReq (fun r => .str r.path)) k
  | .reqHeader n => .call (readReq (fun r => .str (r.header.get n))) k
  | .readBody limit => .call (.world (fun n => match n.body with
    | none => (.ok (.str []), n)
    | some b => (.ok (.str (b.take (limit.getD b.length))), { n with body := some (b.drop (limit.getD b.length)) }))) k
  | .hasBody => .call (.world (fun n => (.ok (.bool n.body.isSome), n))) k
  | .setBody data => .call (.world (fun n => (.ok .unit, { n with body := some data }))) k
  | .parseForm => .call .parseForm k
  | .readForm f => .call .parseForm (fun _ => .call (.world (fun n => (.ok (f n.form), n))) k)
  | .world f => .call (.world (fun n => (.ok (f n.world).2, { n with world := (f n.world).1 }))) k

/-- a handler of `Context.lean` -/
def up : Prog ω → OProg Req (Net ω)
  | .ret => .ret
  | .panic v => .panic v
  | .next k => .next (up k)
  | .call c k => upCall c (fun r => up (k r))
  | .scope body fin => .scope (up body) (fun r => up (fin r))

/-- the connection in the state of a request -/
def netOf (s : St ω) : Net ω := { rw := s.rw, body := s.body, forms := s.forms, form := s.form, world := s.world }

structure Like (req : Req) (s : St ω) (t : OSt Req (Net ω)) : Prop where
  environ : t.ctx.environ = some s.ctx.environ
  params : t.ctx.params.getD Map.empty = s.ctx.params
  request : t.ctx.request = some req
  writer : ∃ a, t.ctx.writer = some a
  handlers : t.ctx.handlers = s.ctx.handlers.map up
  index : t.ctx.index = s.ctx.index
  written : t.ctx.written = s.ctx.written
  status : t.ctx.status = s.ctx.status
  fullPath : t.ctx.fullPath = s.ctx.fullPath
  parsed : t.ctx.parsedParams = s.ctx.parsedParams
  world : t.world = netOf s
  trace : t.trace = s.trace

/-- how an old call and its translation go on -/
def Alike (o : Oracle) (req : Req) (nx : OSt Req (Net ω) → Out × OSt Req (Net ω)) (i : Nat) (p : OProg Req (Net ω)) (t : OSt Req (Net ω))
    (k : Res → OProg Req (Net ω)) (y : Except PVal Res × St ω) : Prop :=
  match y with
  | (.ok r, s') => ∃ t', Like req s' t' ∧ execOpen (net o) nx i p t = execOpen (net o) nx i (k r) t'
  | (.error v, s') => ∃ t', Like req s' t' ∧ execOpen (net o) nx i p t = (.panic v, t')

theorem Like.header (o : Oracle) {req : Req} {s : St ω} {t : OSt Req (Net ω)} (h : Like req s t) (code : Int) :
    (t.writeHeader (net o) code).1 = (if (s.writeHeader o code).1 then .error callPanic else .ok .unit) ∧
    Like req (s.writeHeader o code).2 (t.writeHeader (net o) code).2 := by
  obtain ⟨a, ha⟩ := h.writer
  unfold OSt.writeHeader St.writeHeader
  rw [h.written]
  by_cases hw : s.ctx.written = true
  · rw [if_pos hw, if_pos hw]
    exact ⟨rfl, h⟩
  · simp only [if_neg hw, OSt.use, ha, net, h.world, netOf, true_and]
    exact { environ := h.environ, params := h.params, request := h.request, writer := ⟨a, rfl⟩, handlers := h.handlers, index := h.index,
            written := rfl, status := rfl, fullPath := h.fullPath, parsed := h.parsed, world := rfl, trace := h.trace }

theorem Like.use (o : Oracle) {req : Req} {s : St ω} {t : OSt Req (Net ω)} (h : Like req s t) (op : WOp) :
    t.use (net o) op = (((net o).device 0 op (netOf s)).1, { t with world := ((net o).device 0 op (netOf s)).2 }) := by
  obtain ⟨a, ha⟩ := h.writer
  simp only [OSt.use, ha, h.world]
  rfl

theorem Like.setRw {req : Req} {s : St ω} {t : OSt Req (Net ω)} (h : Like req s t) (rw : Writer) :
    Like req { s with rw } { t with world := { netOf s with rw } } :=
  { environ := h.environ, params := h.params, request := h.request, writer := h.writer, handlers := h.handlers, index := h.index,
    written := h.written, status := h.status, fullPath := h.fullPath, parsed := h.parsed, world := rfl, trace := h.trace }

theorem Like.setWorld {req : Req} {s : St ω} {t : OSt Req (Net ω)} (h : Like req s t) (body : Option Str) (w : ω) :
    Like req { s with body, world := w } { t with world := { netOf s with body, world := w } } :=
  { environ := h.environ, params := h.params, request := h.request, writer := h.writer, handlers := h.handlers, index := h.index,
    written := h.written, status := h.status, fullPath := h.fullPath, parsed := h.parsed, world := rfl, trace := h.trace }

/-- the header part of `ctx.Write` in the old model -/
def typed (o : Oracle) (s : St ω) (data : Str) : St ω :=
  if data.length > 0 ∧ s.rw.header.get kContentType = [] then
    { s with rw := { s.rw with header := s.rw.header.put kContentType (o.detect data) } }
  else s

theorem write_typed (o : Oracle) (s : St ω) (data : Str) : s.write o data =
    if s.ctx.written then (false, { s with rw := s.rw.write data })
    else match (typed o s data).writeHeader o 200 with
      | (true, s) => (true, s)
      | (false, s) => (false, { s with rw := s.rw.write data }) := rfl

theorem Like.sniffed (o : Oracle) {req : Req} {s : St ω} {t : OSt Req (Net ω)} (h : Like req s t) (data : Str) :
    (∃ r, (t.sniff (net o) data).1 = .ok r) ∧
    Like req (typed o s data) (t.sniff (net o) data).2 := by
  have hid : Like req s { t with world := netOf s } := by
    have := h.setRw s.rw
    exact this
  unfold OSt.sniff typed
  by_cases hd : data.length > 0
  · simp only [hd, true_and, if_true]
    rw [h.use o]
    by_cases hc : s.rw.header.get kContentType = []
    · simp only [hc, if_true, net, netOf]
      have := hid.use o (.header (fun h => (h.put kContentType (o.detect data), .unit)))
      have h2 := h.setRw { s.rw with header := s.rw.header.put kContentType (o.detect data) }
      simp only [net, netOf] at this
      rw [this]
      exact ⟨⟨_, rfl⟩, h2⟩
    · have hc' : ¬ (Res.str (s.rw.header.get kContentType) = .str []) := by simpa using hc
      simp only [if_neg hc, net, netOf]
      rw [if_neg hc']
      exact ⟨⟨_, rfl⟩, hid⟩
  · simp only [hd, false_and, if_false]
    exact ⟨⟨_, rfl⟩, h⟩

theorem Like.writes (o : Oracle) {req : Req} {s : St ω} {t : OSt Req (Net ω)} (h : Like req s t) (data : Str) :
    (t.write (net o) data).1 = (if (s.write o data).1 then .error callPanic else .ok .unit) ∧
    Like req (s.write o data).2 (t.write (net o) data).2 := by
  unfold OSt.write
  rw [write_typed, h.written]
  by_cases hw : s.ctx.written = true
  · rw [if_pos hw, if_pos hw, h.use o]
    exact ⟨rfl, h.setRw _⟩
  · simp only [if_neg hw]
    obtain ⟨⟨r, h1⟩, h2⟩ := h.sniffed o data
    rcases hs : t.sniff (net o) data with ⟨r', t1⟩
    rw [hs] at h1 h2
    simp only at h1 h2
    subst h1
    simp only []
    obtain ⟨h3, h4⟩ := h2.header o 200
    rcases hs' : (typed o s data).writeHeader o 200 with ⟨p, s2⟩
    rcases ht' : t1.writeHeader (net o) 200 with ⟨r2, t2⟩
    rw [hs', ht'] at h3 h4
    cases p with
    | true =>
      simp only [if_true] at h3
      subst h3
      exact ⟨rfl, h4⟩
    | false =>
      simp only [Bool.false_eq_true, if_false] at h3
      subst h3
      simp only []
      rw [h4.use o]
      exact ⟨rfl, h4.setRw _⟩

theorem Like.parses (o : Oracle) {req : Req} {s : St ω} {t : OSt Req (Net ω)} (h : Like req s t) :
    (doOpen (net o) t .parseForm).1 = (if (s.parseForm o req).1 then .error callPanic else .ok .unit) ∧
    Like req (s.parseForm o req).2 (doOpen (net o) t .parseForm).2 := by
  simp only [doOpen]
  unfold St.parseForm
  rw [h.parsed]
  by_cases hp : s.ctx.parsedParams = true
  · rw [if_pos hp, if_pos hp]
    exact ⟨rfl, h⟩
  · simp only [if_neg hp, h.request, net, h.world, netOf, id]
    constructor
    · cases (o.parse req (wantsMultipart req) s.body).fails <;> rfl
    · exact { environ := h.environ, params := h.params, request := rfl, writer := h.writer, handlers := h.handlers, index := h.index,
              written := h.written, status := h.status, fullPath := h.fullPath, parsed := rfl, world := rfl, trace := h.trace }

theorem upCall_alike (o : Oracle) (req : Req) (nx : OSt Req (Net ω) → Out × OSt Req (Net ω)) (i : Nat) {s : St ω} {t : OSt Req (Net ω)}
    (h : Like req s t) (c : Call ω) (k : Res → OProg Req (Net ω)) : Alike o req nx i (upCall c k) t k (doCall o req s c) := by
  have hid : Like req s { t with world := netOf s } := h.setRw s.rw
  have hread : ∀ f : Req → Res, execOpen (net o) nx i (.call (readReq f) k) t = execOpen (net o) nx i (k (f req)) t := by
    intro f
    simp only [execOpen, doOpen, readReq, h.request]
    rw [← h.request]
  cases c with
  | writeHeader code =>
    obtain ⟨h1, h2⟩ := h.header o code
    simp only [doCall, upCall, Alike, execOpen, doOpen]
    rcases hs : s.writeHeader o code with ⟨p, s1⟩
    rcases ht : t.writeHeader (net o) code with ⟨r, t1⟩
    rw [hs, ht] at h1 h2
    cases p <;> (simp only [Bool.false_eq_true, if_false, if_true] at h1; subst h1; exact ⟨t1, h2, rfl⟩)
  | write data =>
    obtain ⟨h1, h2⟩ := h.writes o data
    simp only [doCall, upCall, Alike, execOpen, doOpen]
    rcases hs : s.write o data with ⟨p, s1⟩
    rcases ht : t.write (net o) data with ⟨r, t1⟩
    rw [hs, ht] at h1 h2
    cases p <;> (simp only [Bool.false_eq_true, if_false, if_true] at h1; subst h1; exact ⟨t1, h2, rfl⟩)
  | setHeader n v =>
    refine ⟨_, h.setRw _, ?_⟩
    simp only [upCall, execOpen, doOpen, h.use o]
    rfl
  | header f =>
    refine ⟨_, h.setRw _, ?_⟩
    simp only [upCall, execOpen, doOpen, h.use o]
    rfl
  | rawWriteHeader code =>
    simp only [doCall, upCall, Alike, execOpen, doOpen, h.use o]
    simp only [net, netOf]
    rcases hs : s.rw.writeHeader o.bad code with ⟨p, rw⟩
    cases p <;> exact ⟨_, h.setRw rw, rfl⟩
  | rawWrite data =>
    refine ⟨_, h.setRw _, ?_⟩
    simp only [upCall, execOpen, doOpen, h.use o]
    rfl
  | written => exact ⟨t, h, by simp only [upCall, execOpen, doOpen, h.written]⟩
  | status => exact ⟨t, h, by simp only [upCall, execOpen, doOpen, h.status]⟩
  | fullPath => exact ⟨t, h, by simp only [upCall, execOpen, doOpen, h.fullPath]⟩
  | param n =>
    have hp : t.ctx.params.bind (· n) = s.ctx.params n := by
      rw [← h.params]
      cases t.ctx.params <;> rfl
    simp only [doCall, upCall, Alike, execOpen, doOpen, hp]
    cases s.ctx.params n with
    | none => exact ⟨t, h, rfl⟩
    | some v => exact ⟨t, h, rfl⟩
  | envSet n v =>
    simp only [doCall, upCall, Alike, execOpen, doOpen, h.environ]
    by_cases he : (s.ctx.environ n).isSome = true
    · simp only [he, if_true]
      exact ⟨t, h, rfl⟩
    · simp only [if_neg he]
      refine ⟨_, ?_, rfl⟩
      exact { environ := rfl, params := h.params, request := h.request, writer := h.writer, handlers := h.handlers, index := h.index,
              written := h.written, status := h.status, fullPath := h.fullPath, parsed := h.parsed, world := h.world, trace := h.trace }
  | envGet n =>
    simp only [doCall, upCall, Alike, execOpen, doOpen, h.environ, Option.bind_some]
    cases s.ctx.environ n with
    | none => exact ⟨t, h, rfl⟩
    | some v => exact ⟨t, h, rfl⟩
  | envMaybe n => exact ⟨t, h, by simp only [upCall, execOpen, doOpen, h.environ, Option.bind_some]⟩
  | reqMethod => exact ⟨t, h, hread _⟩
  | reqTexts f => exact ⟨t, h, hread _⟩
  | reqPath => exact ⟨t, h, hread _⟩
  | reqHeader n => exact ⟨t, h, hread _⟩
  | readBody limit =>
    simp only [doCall, upCall, Alike, execOpen, doOpen, h.world]
    simp only [netOf]
    cases hb : s.body with
    | none =>
      simp only []
      refine ⟨_, hid, ?_⟩
      simp only [netOf, hb]
    | some b => exact ⟨_, h.setWorld _ _, rfl⟩
  | hasBody =>
    refine ⟨_, hid, ?_⟩
    simp only [upCall, execOpen, doOpen, h.world]
    rfl
  | setBody data =>
    refine ⟨_, h.setWorld (some data) s.world, ?_⟩
    simp only [upCall, execOpen, doOpen, h.world]
    rfl
  | parseForm =>
    obtain ⟨h1, h2⟩ := h.parses o
    simp only [doCall, upCall, Alike, execOpen]
    rcases hs : s.parseForm o req with ⟨p, s1⟩
    rcases ht : doOpen (net o) t .parseForm with ⟨r, t1⟩
    rw [hs, ht] at h1 h2
    cases p <;> (simp only [Bool.false_eq_true, if_false, if_true] at h1; subst h1; exact ⟨t1, h2, rfl⟩)
  | readForm f =>
    obtain ⟨h1, h2⟩ := h.parses o
    simp only [doCall, upCall, Alike, execOpen]
    rcases hs : s.parseForm o req with ⟨p, s1⟩
    rcases ht : doOpen (net o) t .parseForm with ⟨r, t1⟩
    rw [hs, ht] at h1 h2
    cases p with
    | true =>
      simp only [if_true] at h1
      subst h1
      exact ⟨t1, h2, rfl⟩
    | false =>
      simp only [Bool.false_eq_true, if_false] at h1
      subst h1
      refine ⟨_, h2.setRw s1.rw, ?_⟩
      simp only at h2
      simp only [doOpen, h2.world]
      rfl
  | world f =>
    refine ⟨_, h.setWorld s.body (f s.world).1, ?_⟩
    simp only [upCall, execOpen, doOpen, h.world]
    rfl

theorem Like.log {req : Req} {s : St ω} {t : OSt Req (Net ω)} (h : Like req s t) (e : Event) : Like req (s.log e) (t.log e) :=
  { environ := h.environ, params := h.params, request := h.request, writer := h.writer, handlers := h.handlers, index := h.index,
    written := h.written, status := h.status, fullPath := h.fullPath, parsed := h.parsed, world := h.world,
    trace := by simp [St.log, OSt.log, h.trace] }

theorem Like.bump {req : Req} {s : St ω} {t : OSt Req (Net ω)} (h : Like req s t) : Like req s.bump t.bump :=
  { environ := h.environ, params := h.params, request := h.request, writer := h.writer, handlers := h.handlers,
    index := by simp [St.bump, OSt.bump, h.index], written := h.written, status := h.status, fullPath := h.fullPath, parsed := h.parsed,
    world := h.world, trace := h.trace }

theorem exec_like (o : Oracle) (req : Req) {nx : St ω → Out × St ω} {nx' : OSt Req (Net ω) → Out × OSt Req (Net ω)}
    (hnx : ∀ s t, Like req s t → (nx' t).1 = (nx s).1 ∧ Like req (nx s).2 (nx' t).2) (i : Nat) (p : Prog ω) :
    ∀ {s : St ω} {t : OSt Req (Net ω)}, Like req s t →
      (execOpen (net o) nx' i (up p) t).1 = (exec o req nx i p s).1 ∧ Like req (exec o req nx i p s).2 (execOpen (net o) nx' i (up p) t).2 := by
  induction p with
  | ret => intro s t h; exact ⟨rfl, h⟩
  | panic v => intro s t h; exact ⟨rfl, h⟩
  | next k ih =>
    intro s t h
    obtain ⟨h1, h2⟩ := hnx _ _ (h.log (.next i)).bump
    simp only [execOpen, up, exec]
    rcases hs : nx (s.log (.next i)).bump with ⟨out, s1⟩
    rcases ht : nx' (t.log (.next i)).bump with ⟨out', t1⟩
    rw [hs, ht] at h1 h2
    simp only at h1 h2
    subst h1
    cases out' with
    | ret => exact ih (h2.log _)
    | panic v => exact ⟨rfl, h2.log _⟩
    | fuel => exact ⟨rfl, h2⟩
  | call c k ih =>
    intro s t h
    have hg := upCall_alike o req nx' i h c (fun r => up (k r))
    simp only [exec, up]
    rcases hd : doCall o req s c with ⟨r, s1⟩
    rw [hd] at hg
    cases r with
    | ok r =>
      obtain ⟨t1, h1, h2⟩ := hg
      rw [h2]
      exact ih r h1
    | error v =>
      obtain ⟨t1, h1, h2⟩ := hg
      rw [h2]
      exact ⟨rfl, h1⟩
  | scope body fin ihb ihf =>
    intro s t h
    obtain ⟨h1, h2⟩ := ihb h
    simp only [execOpen, up, exec]
    rcases hs : exec o req nx i body s with ⟨out, s1⟩
    rcases ht : execOpen (net o) nx' i (up body) t with ⟨out', t1⟩
    rw [hs, ht] at h1 h2
    simp only at h1 h2
    subst h1
    cases out' with
    | ret => exact ihf none h2
    | panic v => exact ihf (some v) h2
    | fuel => exact ⟨rfl, h2⟩

theorem run_like (o : Oracle) (req : Req) : ∀ (fuel : Nat) {s : St ω} {t : OSt Req (Net ω)}, Like req s t →
    (runOpen (net o) fuel t).1 = (run o req fuel s).1 ∧ Like req (run o req fuel s).2 (runOpen (net o) fuel t).2
  | 0, _, _, h => ⟨rfl, h⟩
  | fuel + 1, s, t, h => by
    simp only [runOpen, run, h.index, h.handlers, List.getElem?_map]
    cases s.ctx.handlers[s.ctx.index]? with
    | none => exact ⟨rfl, h⟩
    | some p =>
      simp only [Option.map_some]
      obtain ⟨h1, h2⟩ := exec_like o req (fun s t => run_like o req fuel) s.ctx.index p (h.log (.start s.ctx.index))
      rcases hs : exec o req (run o req fuel) s.ctx.index p (s.log (.start s.ctx.index)) with ⟨out, s1⟩
      rcases ht : execOpen (net o) (runOpen (net o) fuel) s.ctx.index (up p) (t.log (.start s.ctx.index)) with ⟨out', t1⟩
      rw [hs, ht] at h1 h2
      simp only at h1 h2
      subst h1
      cases out' with
      | ret =>
        simp only []
        rw [h2.written]
        have h3 := (h2.log (.stop s.ctx.index s1.ctx.written)).bump
        have hw : (t1.log (.stop s.ctx.index s1.ctx.written)).bump.ctx.written = (s1.log (.stop s.ctx.index s1.ctx.written)).bump.ctx.written := h3.written
        rw [hw]
        split
        · exact ⟨rfl, h3⟩
        · exact run_like o req fuel h3
      | panic v => exact ⟨rfl, h2.log _⟩
      | fuel => exact ⟨rfl, h2⟩

theorem runAll_like (o : Oracle) (req : Req) {s : St ω} {t : OSt Req (Net ω)} (h : Like req s t) :
    (runAllOpen (net o) t).1 = (runAll o req s).1 ∧ Like req (runAll o req s).2 (runAllOpen (net o) t).2 := by
  have hl : t.ctx.handlers.length = s.ctx.handlers.length := by rw [h.handlers, List.length_map]
  unfold runAllOpen runAll
  rw [hl]
  exact run_like o req _ h

end Water
