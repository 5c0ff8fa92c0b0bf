import Verif.Props.Maps
import Verif.Props.Guard
/-
C116: for handlers that only make the calls of `Context.lean`, serving with maps in memory (`serveM`) is `serve`.
-/
namespace Water
variable {ω : Type}

/-- A handler of `Context.lean` as one that could use maps directly. -/
def Prog.lift : Prog ω → MProg ω
  | .ret => .ret
  | .panic v => .panic v
  | .next k => .next k.lift
  | .call c k => .call (.plain c) (fun r => match r with | .res r => (k r).lift | .refs _ => .ret)
  | .scope b f => .scope b.lift (fun v => (f v).lift)

/-- the context with other handlers -/
def St.withH (s : St ω) (hs : List (Prog ω)) : St ω := { s with ctx := { s.ctx with handlers := hs } }

theorem doCall_withH (o : Oracle) (req : Req) (s : St ω) (hs : List (Prog ω)) (c : Call ω) :
    doCall o req (s.withH hs) c = ((doCall o req s c).1, (doCall o req s c).2.withH hs) := by
  by_cases hc : NotWorld c
  · have h := reframe_doCall o req s s.ctx.handlers s.ctx.index s.world s.trace c hc
    have e : s.reframe s.ctx.handlers s.ctx.index s.world s.trace = s := rfl
    rw [e] at h
    have h' := reframe_doCall o req s hs s.ctx.index s.world s.trace c hc
    have e' : s.reframe hs s.ctx.index s.world s.trace = s.withH hs := rfl
    rw [e'] at h'
    rw [h', h]
    rfl
  · cases c <;> first | exact absurd trivial hc | rfl

/-- the state as `Context.lean` has it, with the handlers -/
def MSt.full (s : MSt ω) (hs : List (Prog ω)) : St ω := s.view.withH hs

/-- what holds while a chain of lifted handlers runs -/
structure Lifted (hs : List (Prog ω)) (s : MSt ω) : Prop where
  handlers : s.handlers = hs.map Prog.lift
  env : ∃ a, s.refs.env = some a
  empty : s.st.ctx.handlers = []

theorem back_full {s : MSt ω} {t : St ω} {hs : List (Prog ω)} {a : Nat} (he : s.refs.env = some a) (ht : t.ctx.params = s.view.ctx.params)
    : (s.back t).full hs = t.withH hs := by
  have h1 : (s.back t).maps = s.maps.setEnvirons a t.ctx.environ := by simp only [MSt.back, he]
  have h2 : (s.back t).refs = s.refs := by
    have : (s.back t).me = s.me := rfl
    unfold MSt.refs
    rw [h1, this]
    rfl
  unfold MSt.full MSt.view
  rw [h2, h1, he]
  have h3 : (s.maps.setEnvirons a t.ctx.environ).environ (some a) = t.ctx.environ := by simp [Maps.environ, Maps.setEnvirons]
  have h4 : (s.maps.setEnvirons a t.ctx.environ).param s.refs.par = t.ctx.params := by
    rw [ht]; show _ = s.maps.param s.refs.par; cases s.refs.par <;> rfl
  rw [h3, h4]
  rfl

/-- the two kinds of runs agree -/
def AgreeM (hs : List (Prog ω)) (r : Out × MSt ω) (r' : Out × St ω) (s : MSt ω) : Prop :=
  r' = (r.1, r.2.full hs) ∧ Lifted hs r.2 ∧ r.2.uses = s.uses ∧ r.2.me = s.me ∧ r.2.maps.refs = s.maps.refs ∧ r.2.maps.next = s.maps.next

theorem mCall_full (o : Oracle) (req : Req) {hs : List (Prog ω)} {s : MSt ω} (h : Lifted hs s) (c : Call ω) :
    ∃ s', mCall o req s (.plain c) = ((doCall o req (s.full hs) c).1.map MRes.res, s') ∧ (doCall o req (s.full hs) c).2 = s'.full hs ∧
      Lifted hs s' ∧ s'.uses = s.uses ∧ s'.me = s.me ∧ s'.maps.refs = s.maps.refs ∧ s'.maps.next = s.maps.next := by
  obtain ⟨a, ha⟩ := h.env
  have hm : ∀ t, (s.back t).maps = s.maps.setEnvirons a t.ctx.environ := fun t => by simp only [MSt.back, ha]
  refine ⟨s.back (doCall o req s.view c).2, ?_, ?_, ?_, rfl, rfl, by rw [hm]; rfl, by rw [hm]; rfl⟩
  · have : doCall o req (s.full hs) c = _ := doCall_withH o req s.view hs c
    rw [this]
    simp only [mCall, ha]
  · have : doCall o req (s.full hs) c = _ := doCall_withH o req s.view hs c
    rw [this, back_full ha (doCall_params o req s.view c)]
  · refine ⟨h.handlers, ⟨a, ?_⟩, ?_⟩
    · rw [← ha]; show (((s.back _).maps.refs s.me)).env = _; rw [hm]; rfl
    · have := doCall_withH o req s.view [] c
      have e : s.view.withH [] = s.view := by
        have := h.empty
        unfold MSt.view St.withH
        simp [this]
      rw [e] at this
      show (doCall o req s.view c).2.ctx.handlers = []
      rw [this]; rfl

theorem execM_lift (o : Oracle) (req : Req) {hs : List (Prog ω)} {nx : MSt ω → Out × MSt ω} {nx' : St ω → Out × St ω}
    (hn : ∀ s, Lifted hs s → AgreeM hs (nx s) (nx' (s.full hs)) s) (i : Nat) (p : Prog ω) (s : MSt ω) (h : Lifted hs s) :
    AgreeM hs (execM o req nx i p.lift s) (exec o req nx' i p (s.full hs)) s := by
  induction p generalizing s with
  | ret => exact ⟨rfl, h, rfl, rfl, rfl, rfl⟩
  | panic v => exact ⟨rfl, h, rfl, rfl, rfl, rfl⟩
  | next k ih =>
    simp only [Prog.lift, execM, exec]
    obtain ⟨h1, h2, h3, h4, h6, h7⟩ := hn (s.log (.next i)).bump ⟨h.handlers, h.env, h.empty⟩
    have e : ((s.full hs).log (.next i)).bump = (s.log (.next i)).bump.full hs := rfl
    rw [e, h1]
    revert h2 h3 h4 h6 h7
    rcases nx (s.log (.next i)).bump with ⟨out, t⟩
    intro h2 h3 h4 h6 h7
    cases out with
    | ret =>
      obtain ⟨g1, g2, g3, g4, g5, g6⟩ := ih (t.log (.back i)) ⟨h2.handlers, h2.env, h2.empty⟩
      exact ⟨g1, g2, g3.trans h3, g4.trans h4, g5.trans h6, g6.trans h7⟩
    | panic v => exact ⟨rfl, ⟨h2.handlers, h2.env, h2.empty⟩, h3, h4, h6, h7⟩
    | fuel => exact ⟨rfl, h2, h3, h4, h6, h7⟩
  | call c k ih =>
    simp only [Prog.lift, execM, exec]
    obtain ⟨s', h1, h2, h3, h4, h5, h6, h7⟩ := mCall_full o req h c
    rw [h1]
    revert h2
    rcases doCall o req (s.full hs) c with ⟨r, t⟩
    intro h2
    dsimp only at h2
    subst h2
    cases r with
    | ok r =>
      obtain ⟨g1, g2, g3, g4, g5, g6⟩ := ih r s' h3
      exact ⟨g1, g2, g3.trans h4, g4.trans h5, g5.trans h6, g6.trans h7⟩
    | error v => exact ⟨rfl, h3, h4, h5, h6, h7⟩
  | scope b f ihb ihf =>
    simp only [Prog.lift, execM, exec]
    obtain ⟨h1, h2, h3, h4, h6, h7⟩ := ihb s h
    rw [h1]
    revert h2 h3 h4 h6 h7
    rcases execM o req nx i b.lift s with ⟨out, t⟩
    intro h2 h3 h4 h6 h7
    cases out with
    | ret => obtain ⟨g1, g2, g3, g4, g5, g6⟩ := ihf none t h2; exact ⟨g1, g2, g3.trans h3, g4.trans h4, g5.trans h6, g6.trans h7⟩
    | panic v => obtain ⟨g1, g2, g3, g4, g5, g6⟩ := ihf (some v) t h2; exact ⟨g1, g2, g3.trans h3, g4.trans h4, g5.trans h6, g6.trans h7⟩
    | fuel => exact ⟨rfl, h2, h3, h4, h6, h7⟩

theorem runM_lift (o : Oracle) (req : Req) {hs : List (Prog ω)} (n : Nat) (s : MSt ω) (h : Lifted hs s) :
    AgreeM hs (runM o req n s) (run o req n (s.full hs)) s := by
  induction n generalizing s with
  | zero => exact ⟨rfl, h, rfl, rfl, rfl, rfl⟩
  | succ n ih =>
    unfold runM run
    have e1 : (s.full hs).ctx.handlers = hs := rfl
    have e2 : (s.full hs).ctx.index = s.st.ctx.index := rfl
    rw [e1, e2, h.handlers, List.getElem?_map]
    cases hs[s.st.ctx.index]? with
    | none => exact ⟨rfl, h, rfl, rfl, rfl, rfl⟩
    | some p =>
      dsimp only [Option.map_some]
      have e3 : (s.full hs).log (.start s.st.ctx.index) = (s.log (.start s.st.ctx.index)).full hs := rfl
      rw [e3]
      obtain ⟨h1, h2, h3, h4, h6, h7⟩ := execM_lift o req (nx' := run o req n) ih s.st.ctx.index p (s.log (.start s.st.ctx.index)) ⟨h.handlers, h.env, h.empty⟩
      rw [h1]
      revert h2 h3 h4 h6 h7
      rcases execM o req (runM o req n) s.st.ctx.index p.lift (s.log (.start s.st.ctx.index)) with ⟨out, t⟩
      intro h2 h3 h4 h6 h7
      cases out with
      | ret =>
        dsimp only
        have e4 : ((t.full hs).log (.stop s.st.ctx.index (t.full hs).ctx.written)).bump =
          (t.log (.stop s.st.ctx.index t.st.ctx.written)).bump.full hs := rfl
        have e5 : ((t.log (.stop s.st.ctx.index t.st.ctx.written)).bump.full hs).ctx.written =
          (t.log (.stop s.st.ctx.index t.st.ctx.written)).bump.st.ctx.written := rfl
        rw [e4, e5]
        split
        · exact ⟨rfl, ⟨h2.handlers, h2.env, h2.empty⟩, h3, h4, h6, h7⟩
        · obtain ⟨g1, g2, g3, g4, g5, g6⟩ := ih (t.log (.stop s.st.ctx.index t.st.ctx.written)).bump ⟨h2.handlers, h2.env, h2.empty⟩
          exact ⟨g1, g2, g3.trans h3, g4.trans h4, g5.trans h6, g6.trans h7⟩
      | panic v => exact ⟨rfl, ⟨h2.handlers, h2.env, h2.empty⟩, h3, h4, h6, h7⟩
      | fuel => exact ⟨rfl, h2, h3, h4, h6, h7⟩

/-- the context `c'` has the parameters the memory shows at `c` -/
def Shown (m : Maps) (c : Nat) (ps : Params) : Prop := (∀ a, (m.refs c).par = some a → a < m.next) ∧ ps = m.param (m.refs c).par

theorem arrive_shown {m : Maps} {c : Nat} {c' : Ctx ω} (h : Shown m c c'.params) (hs : List (Prog ω)) (uri : Option Str)
    (ps : Option (Option Params)) : Shown (m.arrive c ps) c (prepare c' hs uri ps).params := by
  match ps with
  | none => exact h
  | some none => simp [Shown, Maps.arrive, Maps.setRefs, prepare, Maps.param]
  | some (some ps) =>
    constructor
    · intro a ha
      simp [Maps.arrive, Maps.setRefs, Maps.alloc] at ha ⊢
      omega
    · simp [Maps.arrive, Maps.setRefs, Maps.alloc, prepare, Maps.param]

theorem freshEnviron_shown {m : Maps} {c : Nat} {ps : Params} (h : Shown m c ps) :
    Shown (m.freshEnviron c) c ps ∧ ∃ a, ((m.freshEnviron c).refs c).env = some a ∧ (m.freshEnviron c).environs a = Map.empty := by
  obtain ⟨h1, h2⟩ := h
  refine ⟨⟨?_, ?_⟩, m.next, ?_, ?_⟩
  · intro a ha
    have := h1 a (by simpa [Maps.freshEnviron, Maps.setRefs, Maps.alloc] using ha)
    simp [Maps.freshEnviron, Maps.setRefs, Maps.alloc]
    omega
  · rw [h2]
    have e : ((m.freshEnviron c).refs c).par = (m.refs c).par := by simp [Maps.freshEnviron, Maps.setRefs, Maps.alloc]
    rw [e]
    cases hp : (m.refs c).par with
    | none => rfl
    | some a =>
      have : a ≠ m.next := by have := h1 a hp; omega
      simp [Maps.param, Maps.freshEnviron, Maps.setRefs, Maps.alloc, this]
  · simp [Maps.freshEnviron, Maps.setRefs, Maps.alloc]
  · simp [Maps.freshEnviron, Maps.setRefs, Maps.alloc]

/-- The same outcome, once with maps in memory and once without. -/
def Outcome (c : Nat) (r : MServed ω) (r' : Served ω) : Prop :=
  r.out = r'.out ∧ r.rw = r'.rw ∧ r.world = r'.world ∧ r.forms = r'.forms ∧ r.trace = r'.trace ∧ r.took = r'.took ∧ r.uses = [] ∧
  r.put = !r'.puts.isEmpty ∧ ∀ d ∈ r'.puts, Shown r.maps c d.params

/-- **C116.** For handlers that only make the calls of `Context.lean`, serving with maps in memory is what `serve` says, with any context
that has the parameters the map has. A context put back has the parameters the map then has. -/
theorem C116_refines (rx : Regex) (o : Oracle) (e : Engine (Prog ω)) (c : Nat) (c' : Ctx ω) (req : Req) (rw : Writer) (body : Option Str)
    (w : ω) (m : Maps) (h : Shown m c c'.params) :
    Outcome c (serveM rx o (e.map Prog.lift) c req rw body w m) (serve rx o e c' req rw body w) := by
  unfold serveM serve
  split
  · simp [Outcome, refusedM]
  · cases hi : methodIndex req.method with
    | none => simp [Outcome, refusedM]
    | some i =>
      dsimp only
      rw [lookup_map]
      dsimp only
      generalize (lookup rx e i req.path).2 = ps
      generalize (lookup rx e i req.path).1 = n
      have hc : chainForM (e.map Prog.lift) (n.map (EndNode.map Prog.lift)) = (chainFor e n).map (·.map Prog.lift) := by
        cases n with
        | some n => rfl
        | none =>
          simp only [Option.map_none, chainForM, chainFor, Engine.map, List.length_map]
          split <;> rfl
      have hu : (n.map (EndNode.map Prog.lift)).map (·.uri) = n.map (·.uri) := by cases n <;> rfl
      rw [hc, hu]
      unfold serveRouted
      cases chainFor e n with
      | none =>
        have hsh := arrive_shown h c'.handlers none ps
        simp only [Outcome, Option.map_none, runRoutedM, St.writeHeader, freshCtx]
        have hw : (prepare c' c'.handlers none ps).written = false := rfl
        simp only [hw, Bool.false_eq_true, if_false]
        cases (rw.writeHeader o.bad 404).1 with
        | true => simp
        | false => simpa using hsh
      | some hs =>
        have hsh := freshEnviron_shown (arrive_shown h hs (n.map (·.uri)) ps)
        obtain ⟨hsh, a, ha, hb⟩ := hsh
        have hl : Lifted hs ({ st := { ctx := freshCtx (n.map (·.uri)), rw, body, forms := [], world := w, trace := [] }
                               handlers := hs.map Prog.lift, me := c, maps := (m.arrive c ps).freshEnviron c, uses := [] } : MSt ω) :=
          ⟨rfl, ⟨a, ha⟩, rfl⟩
        have hfull : ({ st := { ctx := freshCtx (n.map (·.uri)), rw, body, forms := [], world := w, trace := [] }
                        handlers := hs.map Prog.lift, me := c, maps := (m.arrive c ps).freshEnviron c, uses := [] } : MSt ω).full hs =
            { ctx := prepare c' hs (n.map (·.uri)) ps, rw, body, forms := [], world := w, trace := [] } := by
          unfold MSt.full MSt.view MSt.refs
          dsimp only
          rw [ha, ← hsh.2]
          simp only [Maps.environ, hb]
          rfl
        obtain ⟨g1, g2, g3, g4, g5, g6⟩ := runM_lift o req (hs.length + 1) _ hl
        rw [hfull] at g1
        have fin : ∀ (q : Out × MSt ω) (q' : Out × St ω), q' = (q.1, q.2.full hs) → q.2.uses = [] → q.2.me = c →
            q.2.maps.refs = ((m.arrive c ps).freshEnviron c).refs → q.2.maps.next = ((m.arrive c ps).freshEnviron c).next →
            Outcome c (servedM q) (match q' with
              | (out, s) => { out, rw := s.rw, world := s.world, forms := s.forms, trace := s.trace, took := true, puts := if out = .ret then [s.ctx] else [] }) := by
          intro q q' h1 h3 h4 h5 h6
          subst h1
          obtain ⟨out, t⟩ := q
          dsimp only at h3 h4 h5 h6
          refine ⟨rfl, rfl, rfl, rfl, rfl, rfl, h3, ?_, ?_⟩
          · cases out <;> rfl
          · intro d hd
            dsimp only at hd
            split at hd
            · simp only [List.mem_singleton] at hd
              subst hd
              refine ⟨?_, ?_⟩
              · show ∀ a, (t.maps.refs c).par = some a → a < t.maps.next
                rw [h5, h6]; exact hsh.1
              · show t.maps.param (t.maps.refs t.me).par = t.maps.param (t.maps.refs c).par
                rw [h4]
            · simp at hd
        have := fin _ _ g1 g3 g4 g5 g6
        simp only [Option.map_some, runRoutedM, runAllM, List.length_map]
        exact this

end Water
