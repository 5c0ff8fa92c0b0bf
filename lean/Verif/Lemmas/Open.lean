import Verif.Model.Open
/-
A chain of open handlers is a chain of the handlers of `Context.lean`, in a bigger world.
-/
namespace Water
variable {ρ ω : Type}

/-- everything of the state but the driver's part of the context; `last` is the result of the last call -/
structure Big (ρ ω : Type) where
  environ : Option (Map Str EVal)
  params : Option Params
  request : Option ρ
  writer : Option Nat
  fullPath : Option Str
  parsedParams : Bool
  world : ω
  last : Except PVal Res

def bigOf (s : OSt ρ ω) (l : Except PVal Res) : Big ρ ω :=
  { environ := s.ctx.environ, params := s.ctx.params, request := s.ctx.request, writer := s.ctx.writer, fullPath := s.ctx.fullPath,
    parsedParams := s.ctx.parsedParams, world := s.world, last := l }

def ofBig (b : Big ρ ω) : OSt ρ ω :=
  { ctx := { environ := b.environ, params := b.params, request := b.request, writer := b.writer, handlers := [], index := 0, written := false,
             status := 0, fullPath := b.fullPath, parsedParams := b.parsedParams }
    world := b.world, trace := [] }

/-- a call as a change of the bigger world -/
def inner (x : Outside ρ ω) (c : OCall ρ ω) (b : Big ρ ω) : Except PVal Res × Big ρ ω :=
  ((doOpen x (ofBig b) c).1, bigOf (doOpen x (ofBig b) c).2 (doOpen x (ofBig b) c).1)

/-- whether the call failed -/
def failed : Except PVal Res → Res
  | .ok _ => .bool false
  | .error _ => .bool true

/-- its result, or the text of the panic -/
def outcome : Except PVal Res → Res
  | .ok r => r
  | .error (.val m) => .str m
  | .error .nil => .unit

/-- a change of the world that may panic -/
def act (f : Big ρ ω → Except PVal Res × Big ρ ω) (k : Res → Prog (Big ρ ω)) : Prog (Big ρ ω) :=
  .call (.world (fun b => ((f b).2, failed (f b).1))) (fun e =>
    .call (.world (fun b => (b, outcome b.last))) (fun r =>
      if e = .bool true then (match r with | .str m => .panic (.val m) | _ => .panic .nil) else k r))

def sniffP (x : Outside ρ ω) (data : Str) (k : Prog (Big ρ ω)) : Prog (Big ρ ω) :=
  if data.length > 0 then
    act (inner x (.raw (.header (fun h => (h, .str (h.get kContentType)))))) (fun r =>
      if r = .str [] then act (inner x (.raw (.header (fun h => (h.put kContentType (x.detect data), .unit))))) (fun _ => k) else k)
  else k

def trCall (x : Outside ρ ω) (c : OCall ρ ω) (k : Res → Prog (Big ρ ω)) : Prog (Big ρ ω) :=
  match c with
  | .written => .call .written k
  | .status => .call .status k
  | .writeHeader code =>
    .call .written (fun w => if w = .bool true then k .unit else
      .call (.writeHeader code) (fun _ => act (inner x (.raw (.writeHeader code))) (fun _ => k .unit)))
  | .write data =>
    .call .written (fun w => if w = .bool true then act (inner x (.raw (.write data))) k else
      sniffP x data (.call (.writeHeader 200) (fun _ => act (inner x (.raw (.writeHeader 200))) (fun _ => act (inner x (.raw (.write data))) k))))
  | c => act (inner x c) k

/-- the translation of a handler -/
def tr (x : Outside ρ ω) : OProg ρ ω → Prog (Big ρ ω)
  | .ret => .ret
  | .panic v => .panic v
  | .next k => .next (tr x k)
  | .call c k => trCall x c (fun r => tr x (k r))
  | .scope body fin => .scope (tr x body) (fun r => tr x (fin r))

/-- the states correspond -/
structure SameRun (x : Outside ρ ω) (s : OSt ρ ω) (t : St (Big ρ ω)) : Prop where
  index : t.ctx.index = s.ctx.index
  written : t.ctx.written = s.ctx.written
  status : t.ctx.status = s.ctx.status
  handlers : t.ctx.handlers = s.ctx.handlers.map (tr x)
  trace : t.trace = s.trace
  world : ∃ l, t.world = bigOf s l

/-- an oracle under which `WriteHeader` of the old model only sets the fields of the context -/
def calm (o : Oracle) : Prop := ∀ c, o.bad c = false

theorem exec_act (o : Oracle) (req : Req) (nx : St (Big ρ ω) → Out × St (Big ρ ω)) (i : Nat) {f : Big ρ ω → Except PVal Res × Big ρ ω}
    (hf : ∀ b, (f b).2.last = (f b).1) (k : Res → Prog (Big ρ ω)) (t : St (Big ρ ω)) :
    exec o req nx i (act f k) t = match (f t.world).1 with
      | .ok r => exec o req nx i (k r) { t with world := (f t.world).2 }
      | .error v => (.panic v, { t with world := (f t.world).2 }) := by
  simp only [act, exec, doCall, hf]
  cases h : (f t.world).1 with
  | ok r => simp [failed, outcome]
  | error v => cases v <;> simp [failed, outcome, exec]

/-- the calls that do not look at the driver's part of the context -/
def PlainCall : OCall ρ ω → Prop
  | .written | .status | .writeHeader _ | .write _ => False
  | _ => True

theorem inner_last (x : Outside ρ ω) (c : OCall ρ ω) (b : Big ρ ω) : (inner x c b).2.last = (inner x c b).1 := rfl

theorem doOpen_plain (x : Outside ρ ω) {c : OCall ρ ω} (hc : PlainCall c) (s : OSt ρ ω) (l : Except PVal Res) :
    (doOpen x (ofBig (bigOf s l)) c).1 = (doOpen x s c).1 ∧
    (∀ l', bigOf (doOpen x (ofBig (bigOf s l)) c).2 l' = bigOf (doOpen x s c).2 l') ∧
    (doOpen x s c).2.ctx.index = s.ctx.index ∧ (doOpen x s c).2.ctx.written = s.ctx.written ∧
    (doOpen x s c).2.ctx.status = s.ctx.status ∧ (doOpen x s c).2.ctx.handlers = s.ctx.handlers ∧ (doOpen x s c).2.trace = s.trace := by
  cases c with
  | written => exact hc.elim
  | status => exact hc.elim
  | writeHeader _ => exact hc.elim
  | write _ => exact hc.elim
  | raw op =>
    simp only [doOpen, OSt.use, ofBig, bigOf]
    cases hw : s.ctx.writer <;> simp [hw]
  | wrap f => simp [doOpen, ofBig, bigOf]
  | fullPath => simp [doOpen, ofBig, bigOf]
  | param k =>
    simp only [doOpen, ofBig, bigOf]
    cases s.ctx.params.bind (· k) <;> simp
  | params f => simp [doOpen, ofBig, bigOf]
  | envSet k v =>
    simp only [doOpen, ofBig, bigOf]
    cases he : s.ctx.environ with
    | none => simp [he]
    | some m =>
      simp only []
      by_cases hm : (m k).isSome = true
      · simp [hm, he]
      · simp [hm]
  | envGet k =>
    simp only [doOpen, ofBig, bigOf]
    cases s.ctx.environ.bind (· k) <;> simp
  | envMaybe k => simp [doOpen, ofBig, bigOf]
  | environ f => simp [doOpen, ofBig, bigOf]
  | request f => simp [doOpen, ofBig, bigOf]
  | parseForm =>
    simp only [doOpen, ofBig, bigOf]
    by_cases hp : s.ctx.parsedParams = true
    · simp [hp]
    · simp only [hp]
      cases s.ctx.request <;> simp
  | world f => simp [doOpen, ofBig, bigOf]

theorem SameRun.plain {x : Outside ρ ω} {s : OSt ρ ω} {t : St (Big ρ ω)} (h : SameRun x s t) {c : OCall ρ ω} (hc : PlainCall c) :
    (inner x c t.world).1 = (doOpen x s c).1 ∧ SameRun x (doOpen x s c).2 { t with world := (inner x c t.world).2 } := by
  obtain ⟨l, hl⟩ := h.world
  obtain ⟨h1, h2, h3, h4, h5, h6, h7⟩ := doOpen_plain x hc s l
  rw [hl]
  refine ⟨h1, ?_⟩
  constructor
  · rw [h3]; exact h.index
  · rw [h4]; exact h.written
  · rw [h5]; exact h.status
  · rw [h6]; exact h.handlers
  · rw [h7]; exact h.trace
  · exact ⟨_, h2 _⟩

/-- how a call and its translation go on -/
def Goes (x : Outside ρ ω) (o : Oracle) (req : Req) (nx : St (Big ρ ω) → Out × St (Big ρ ω)) (i : Nat) (p : Prog (Big ρ ω)) (t : St (Big ρ ω))
    (k : Res → Prog (Big ρ ω)) (y : Except PVal Res × OSt ρ ω) : Prop :=
  match y with
  | (.ok r, s') => ∃ t', SameRun x s' t' ∧ exec o req nx i p t = exec o req nx i (k r) t'
  | (.error v, s') => ∃ t', SameRun x s' t' ∧ exec o req nx i p t = (.panic v, t')

theorem act_goes (x : Outside ρ ω) (o : Oracle) (req : Req) (nx : St (Big ρ ω) → Out × St (Big ρ ω)) (i : Nat) {s : OSt ρ ω}
    {t : St (Big ρ ω)} (h : SameRun x s t) {c : OCall ρ ω} (hc : PlainCall c) (k : Res → Prog (Big ρ ω)) :
    Goes x o req nx i (act (inner x c) k) t k (doOpen x s c) := by
  obtain ⟨h1, h2⟩ := h.plain hc
  have he := exec_act o req nx i (inner_last x c) k t
  rw [h1] at he
  unfold Goes
  rcases hd : doOpen x s c with ⟨r, s'⟩
  rw [hd] at h2 he
  cases r with
  | ok r => exact ⟨_, h2, he⟩
  | error v => exact ⟨_, h2, he⟩

theorem Goes.of_eq {x : Outside ρ ω} {o : Oracle} {req : Req} {nx : St (Big ρ ω) → Out × St (Big ρ ω)} {i : Nat} {p p' : Prog (Big ρ ω)}
    {t t' : St (Big ρ ω)} {k : Res → Prog (Big ρ ω)} {y : Except PVal Res × OSt ρ ω} (h : Goes x o req nx i p' t' k y)
    (he : exec o req nx i p t = exec o req nx i p' t') : Goes x o req nx i p t k y := by
  unfold Goes at h ⊢
  rcases y with ⟨r, s'⟩
  cases r <;> simpa only [he] using h

theorem use_eq (x : Outside ρ ω) (s : OSt ρ ω) (op : WOp) : s.use x op = doOpen x s (.raw op) := rfl

/-- `WriteHeader` when nothing was written -/
theorem header_goes (x : Outside ρ ω) {o : Oracle} (ho : calm o) (req : Req) (nx : St (Big ρ ω) → Out × St (Big ρ ω)) (i : Nat) {s : OSt ρ ω}
    {t : St (Big ρ ω)} (h : SameRun x s t) (hw : s.ctx.written = false) (code : Int) (k : Res → Prog (Big ρ ω)) :
    Goes x o req nx i (.call (.writeHeader code) (fun _ => act (inner x (.raw (.writeHeader code))) k)) t k (s.writeHeader x code) := by
  have ht : t.ctx.written = false := by rw [h.written, hw]
  have hset : ∃ rw, exec o req nx i (.call (.writeHeader code) (fun _ => act (inner x (.raw (.writeHeader code))) k)) t =
      exec o req nx i (act (inner x (.raw (.writeHeader code))) k)
        { t with ctx := { t.ctx with written := true, status := code }, rw } := by
    refine ⟨(t.rw.writeHeader o.bad code).2, ?_⟩
    have hp : (t.rw.writeHeader o.bad code).1 = false := by
      unfold Writer.writeHeader
      simp [ho code]
    simp only [exec, doCall, St.writeHeader, ht]
    rcases hx : t.rw.writeHeader o.bad code with ⟨p, rw⟩
    rw [hx] at hp
    simp only at hp
    subst hp
    simp
  obtain ⟨rw, hset⟩ := hset
  have h' : SameRun x ({ s with ctx := { s.ctx with written := true, status := code } } : OSt ρ ω)
      { t with ctx := { t.ctx with written := true, status := code }, rw } := by
    obtain ⟨l, hl⟩ := h.world
    exact ⟨h.index, rfl, rfl, h.handlers, h.trace, l, hl⟩
  have := act_goes x o req nx i h' (c := .raw (.writeHeader code)) trivial k
  unfold OSt.writeHeader
  rw [hw]
  simp only [Bool.false_eq_true, if_false]
  rw [use_eq]
  exact this.of_eq hset

/-- the header part of `Write` -/
theorem sniff_goes (x : Outside ρ ω) (o : Oracle) (req : Req) (nx : St (Big ρ ω) → Out × St (Big ρ ω)) (i : Nat) {s : OSt ρ ω}
    {t : St (Big ρ ω)} (h : SameRun x s t) (data : Str) (k : Prog (Big ρ ω)) :
    Goes x o req nx i (sniffP x data k) t (fun _ => k) (s.sniff x data) := by
  unfold sniffP OSt.sniff
  by_cases hd : data.length > 0
  · rw [if_pos hd, if_pos hd, use_eq]
    have h1 := act_goes x o req nx i h (c := .raw (.header (fun h => (h, .str (h.get kContentType))))) trivial (fun r =>
      if r = .str [] then act (inner x (.raw (.header (fun h => (h.put kContentType (x.detect data), .unit))))) (fun _ => k) else k)
    rcases hy : doOpen x s (.raw (.header (fun h => (h, .str (h.get kContentType))))) with ⟨r, s1⟩
    rw [hy] at h1
    cases r with
    | error v => exact h1
    | ok r =>
      obtain ⟨t1, h2, h3⟩ := h1
      simp only [] at h3 ⊢
      by_cases hr : r = .str []
      · rw [if_pos hr] at h3 ⊢
        rw [use_eq]
        exact (act_goes x o req nx i h2 (c := .raw (.header (fun h => (h.put kContentType (x.detect data), .unit)))) trivial (fun _ => k)).of_eq h3
      · rw [if_neg hr] at h3 ⊢
        exact ⟨t1, h2, h3⟩
  · rw [if_neg hd, if_neg hd]
    exact ⟨t, h, rfl⟩

theorem sniff_written (x : Outside ρ ω) (s : OSt ρ ω) (data : Str) : (s.sniff x data).2.ctx.written = s.ctx.written := by
  have hu : ∀ (s : OSt ρ ω) op, (s.use x op).2.ctx.written = s.ctx.written := by
    intro s op
    unfold OSt.use
    cases s.ctx.writer <;> rfl
  unfold OSt.sniff
  split
  · rename_i hd
    rcases hy : s.use x (.header (fun h => (h, .str (h.get kContentType)))) with ⟨r, s1⟩
    have := hu s (.header (fun h => (h, .str (h.get kContentType))))
    rw [hy] at this
    cases r with
    | error v => exact this
    | ok r =>
      simp only []
      split
      · rw [hu]; exact this
      · exact this
  · rfl

/-- every call -/
theorem trCall_goes (x : Outside ρ ω) {o : Oracle} (ho : calm o) (req : Req) (nx : St (Big ρ ω) → Out × St (Big ρ ω)) (i : Nat) {s : OSt ρ ω}
    {t : St (Big ρ ω)} (h : SameRun x s t) (c : OCall ρ ω) (k : Res → Prog (Big ρ ω)) :
    Goes x o req nx i (trCall x c k) t k (doOpen x s c) := by
  cases c with
  | written =>
    refine ⟨t, h, ?_⟩
    simp only [trCall, exec, doCall, h.written]
  | status =>
    refine ⟨t, h, ?_⟩
    simp only [trCall, exec, doCall, h.status]
  | writeHeader code =>
    simp only [trCall, doOpen]
    have hcall : ∀ k', exec o req nx i (.call .written k') t = exec o req nx i (k' (.bool s.ctx.written)) t := by
      intro k'
      simp only [exec, doCall, h.written]
    by_cases hw : s.ctx.written = true
    · have : s.writeHeader x code = (.ok .unit, s) := by unfold OSt.writeHeader; rw [if_pos hw]
      rw [this]
      refine ⟨t, h, ?_⟩
      rw [hcall, hw, if_pos rfl]
    · have hw' : s.ctx.written = false := by simpa using hw
      have hg := header_goes x ho req nx i h hw' code (fun _ => k .unit)
      have he := hcall (fun w => if w = .bool true then k .unit else
        .call (.writeHeader code) (fun _ => act (inner x (.raw (.writeHeader code))) (fun _ => k .unit)))
      rw [hw'] at he
      simp only [Res.bool.injEq, Bool.false_eq_true, if_false] at he
      have hg := hg.of_eq he
      rcases hy : s.writeHeader x code with ⟨r, s1⟩
      rw [hy] at hg
      cases r <;> exact hg
  | write data =>
    simp only [trCall, doOpen]
    have hcall : ∀ k', exec o req nx i (.call .written k') t = exec o req nx i (k' (.bool s.ctx.written)) t := by
      intro k'
      simp only [exec, doCall, h.written]
    by_cases hw : s.ctx.written = true
    · have : s.write x data = s.use x (.write data) := by unfold OSt.write; rw [if_pos hw]
      rw [this, use_eq]
      refine (act_goes x o req nx i h (c := .raw (.write data)) trivial k).of_eq ?_
      rw [hcall, hw, if_pos rfl]
    · have hw' : s.ctx.written = false := by simpa using hw
      have he := hcall (fun w => if w = .bool true then act (inner x (.raw (.write data))) k else
        sniffP x data (.call (.writeHeader 200) (fun _ => act (inner x (.raw (.writeHeader 200))) (fun _ => act (inner x (.raw (.write data))) k))))
      rw [hw'] at he
      simp only [Res.bool.injEq, Bool.false_eq_true, if_false] at he
      refine Goes.of_eq ?_ he
      unfold OSt.write
      rw [if_neg hw]
      have h1 := sniff_goes x o req nx i h data
        (.call (.writeHeader 200) (fun _ => act (inner x (.raw (.writeHeader 200))) (fun _ => act (inner x (.raw (.write data))) k)))
      have hsw := sniff_written x s data
      rcases hy : s.sniff x data with ⟨r, s1⟩
      rw [hy] at h1 hsw
      cases r with
      | error v => exact h1
      | ok r =>
        obtain ⟨t1, h2, h3⟩ := h1
        simp only []
        refine Goes.of_eq ?_ h3
        have h4 := header_goes x ho req nx i h2 (by rw [hsw]; exact hw') 200 (fun _ => act (inner x (.raw (.write data))) k)
        rcases hz : s1.writeHeader x 200 with ⟨r2, s2⟩
        rw [hz] at h4
        cases r2 with
        | error v => exact h4
        | ok r2 =>
          obtain ⟨t2, h5, h6⟩ := h4
          simp only []
          rw [use_eq]
          exact (act_goes x o req nx i h5 (c := .raw (.write data)) trivial k).of_eq h6
  | raw op => exact act_goes x o req nx i h (c := .raw op) trivial k
  | wrap f => exact act_goes x o req nx i h (c := .wrap f) trivial k
  | fullPath => exact act_goes x o req nx i h (c := .fullPath) trivial k
  | param n => exact act_goes x o req nx i h (c := .param n) trivial k
  | params f => exact act_goes x o req nx i h (c := .params f) trivial k
  | envSet n v => exact act_goes x o req nx i h (c := .envSet n v) trivial k
  | envGet n => exact act_goes x o req nx i h (c := .envGet n) trivial k
  | envMaybe n => exact act_goes x o req nx i h (c := .envMaybe n) trivial k
  | environ f => exact act_goes x o req nx i h (c := .environ f) trivial k
  | request f => exact act_goes x o req nx i h (c := .request f) trivial k
  | parseForm => exact act_goes x o req nx i h (c := .parseForm) trivial k
  | world f => exact act_goes x o req nx i h (c := .world f) trivial k

theorem SameRun.log {x : Outside ρ ω} {s : OSt ρ ω} {t : St (Big ρ ω)} (h : SameRun x s t) (e : Event) : SameRun x (s.log e) (t.log e) := by
  obtain ⟨l, hl⟩ := h.world
  exact ⟨h.index, h.written, h.status, h.handlers, by simp [OSt.log, St.log, h.trace], l, hl⟩

theorem SameRun.bump {x : Outside ρ ω} {s : OSt ρ ω} {t : St (Big ρ ω)} (h : SameRun x s t) : SameRun x s.bump t.bump := by
  obtain ⟨l, hl⟩ := h.world
  exact ⟨by simp [OSt.bump, St.bump, h.index], h.written, h.status, h.handlers, h.trace, l, hl⟩

theorem execOpen_same (x : Outside ρ ω) {o : Oracle} (ho : calm o) (req : Req) {nx : OSt ρ ω → Out × OSt ρ ω}
    {nx' : St (Big ρ ω) → Out × St (Big ρ ω)}
    (hnx : ∀ s t, SameRun x s t → (nx s).1 = (nx' t).1 ∧ SameRun x (nx s).2 (nx' t).2) (i : Nat) (p : OProg ρ ω) :
    ∀ {s : OSt ρ ω} {t : St (Big ρ ω)}, SameRun x s t →
      (execOpen x nx i p s).1 = (exec o req nx' i (tr x p) t).1 ∧ SameRun x (execOpen x nx i p s).2 (exec o req nx' i (tr x p) t).2 := by
  induction p with
  | ret => intro s t h; exact ⟨rfl, h⟩
  | panic v => intro s t h; exact ⟨rfl, h⟩
  | next k ih =>
    intro s t h
    obtain ⟨h1, h2⟩ := hnx _ _ (h.log (.next i)).bump
    simp only [execOpen, tr, exec]
    rcases hs : nx (s.log (.next i)).bump with ⟨out, s1⟩
    rcases ht : nx' (t.log (.next i)).bump with ⟨out', t1⟩
    rw [hs, ht] at h1 h2
    simp only at h1 h2
    subst h1
    cases out with
    | ret => exact ih (h2.log _)
    | panic v => exact ⟨rfl, h2.log _⟩
    | fuel => exact ⟨rfl, h2⟩
  | call c k ih =>
    intro s t h
    have hg := trCall_goes x ho req nx' i h c (fun r => tr x (k r))
    simp only [execOpen, tr]
    rcases hd : doOpen x s c with ⟨r, s1⟩
    rw [hd] at hg
    cases r with
    | ok r =>
      obtain ⟨t1, h1, h2⟩ := hg
      rw [h2]
      exact ih r h1
    | error v =>
      obtain ⟨t1, h1, h2⟩ := hg
      rw [h2]
      exact ⟨rfl, h1⟩
  | scope body fin ihb ihf =>
    intro s t h
    obtain ⟨h1, h2⟩ := ihb h
    simp only [execOpen, tr, exec]
    rcases hs : execOpen x nx i body s with ⟨out, s1⟩
    rcases ht : exec o req nx' i (tr x body) t with ⟨out', t1⟩
    rw [hs, ht] at h1 h2
    simp only at h1 h2
    subst h1
    cases out with
    | ret => exact ihf none h2
    | panic v => exact ihf (some v) h2
    | fuel => exact ⟨rfl, h2⟩

theorem runOpen_same (x : Outside ρ ω) {o : Oracle} (ho : calm o) (req : Req) : ∀ (fuel : Nat) {s : OSt ρ ω} {t : St (Big ρ ω)}, SameRun x s t →
    (runOpen x fuel s).1 = (run o req fuel t).1 ∧ SameRun x (runOpen x fuel s).2 (run o req fuel t).2
  | 0, _, _, h => ⟨rfl, h⟩
  | fuel + 1, s, t, h => by
    simp only [runOpen, run, h.index, h.handlers, List.getElem?_map]
    cases s.ctx.handlers[s.ctx.index]? with
    | none => exact ⟨rfl, h⟩
    | some p =>
      simp only [Option.map_some]
      obtain ⟨h1, h2⟩ := execOpen_same x ho req (fun s t => runOpen_same x ho req fuel) s.ctx.index p (h.log (.start s.ctx.index))
      rcases hs : execOpen x (runOpen x fuel) s.ctx.index p (s.log (.start s.ctx.index)) with ⟨out, s1⟩
      rcases ht : exec o req (run o req fuel) s.ctx.index (tr x p) (t.log (.start s.ctx.index)) with ⟨out', t1⟩
      rw [hs, ht] at h1 h2
      simp only at h1 h2
      subst h1
      cases out with
      | ret =>
        simp only []
        rw [h2.written]
        have h3 := (h2.log (.stop s.ctx.index s1.ctx.written)).bump
        have hw : (t1.log (.stop s.ctx.index s1.ctx.written)).bump.ctx.written = (s1.log (.stop s.ctx.index s1.ctx.written)).bump.ctx.written := h3.written
        rw [hw]
        split
        · exact ⟨rfl, h3⟩
        · exact runOpen_same x ho req fuel h3
      | panic v => exact ⟨rfl, h2.log _⟩
      | fuel => exact ⟨rfl, h2⟩

/-- the state of the translated chain -/
def bigSt (x : Outside ρ ω) (s : OSt ρ ω) : St (Big ρ ω) :=
  { ctx := { (Ctx.new : Ctx (Big ρ ω)) with handlers := s.ctx.handlers.map (tr x), index := s.ctx.index, written := s.ctx.written,
                                             status := s.ctx.status }
    rw := Writer.new, body := none, forms := [], world := bigOf s (.ok .unit), trace := s.trace }

theorem bigSt_same (x : Outside ρ ω) (s : OSt ρ ω) : SameRun x s (bigSt x s) := ⟨rfl, rfl, rfl, rfl, rfl, _, rfl⟩

def calmO : Oracle := { bad := fun _ => false, detect := fun _ => [], crashText := fun _ => [], stable := true, parse := fun _ _ _ => ⟨[], false, 0⟩ }

theorem calmO_calm : calm calmO := fun _ => rfl

theorem runAllOpen_same (x : Outside ρ ω) {o : Oracle} (ho : calm o) (req : Req) (s : OSt ρ ω) :
    (runAllOpen x s).1 = (runAll o req (bigSt x s)).1 ∧ SameRun x (runAllOpen x s).2 (runAll o req (bigSt x s)).2 := by
  have hl : (bigSt x s).ctx.handlers.length = s.ctx.handlers.length := by simp [bigSt]
  unfold runAllOpen runAll
  rw [hl]
  exact runOpen_same x ho req _ (bigSt_same x s)

end Water
