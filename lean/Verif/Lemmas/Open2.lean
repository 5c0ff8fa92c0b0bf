import Verif.Lemmas.OpenClosed
import Verif.Spec.Open
/- Lemmas for C111: writers, and what a chain of open handlers keeps. -/
namespace Water
open Spec
variable {ρ ω : Type}

/-! ### an invariant of the state -/

/-- `I` is kept by whatever calls of the kind `A` do -/
def KeptBy (x : Outside ρ ω) (A : OCall ρ ω → Prop) (I : OSt ρ ω → Prop) : Prop :=
  (∀ s c, A c → I s → I (doOpen x s c).2) ∧ (∀ s e, I s → I (s.log e)) ∧ (∀ s, I s → I s.bump)

theorem execOpen_keeps {x : Outside ρ ω} {A : OCall ρ ω → Prop} {I : OSt ρ ω → Prop} (hk : KeptBy x A I)
    {nx : OSt ρ ω → Out × OSt ρ ω} (hnx : ∀ s, I s → I (nx s).2) (i : Nat) (p : OProg ρ ω) :
    OCallsIn A p → ∀ s, I s → I (execOpen x nx i p s).2 := by
  induction p with
  | ret => intro _ s h; exact h
  | panic v => intro _ s h; exact h
  | next k ih =>
    intro hp s h
    have h1 := hnx _ (hk.2.2 _ (hk.2.1 s (.next i) h))
    simp only [execOpen]
    generalize nx (s.log (.next i)).bump = y1 at *
    obtain ⟨out, s1⟩ := y1
    cases out with
    | ret => exact ih hp _ (hk.2.1 _ _ h1)
    | panic v => exact hk.2.1 _ _ h1
    | fuel => exact h1
  | call c k ih =>
    intro hp s h
    have h1 := hk.1 s c hp.1 h
    simp only [execOpen]
    generalize doOpen x s c = y2 at *
    obtain ⟨r, s1⟩ := y2
    cases r with
    | ok r => exact ih r (hp.2 r) _ h1
    | error v => exact h1
  | scope body fin ihb ihf =>
    intro hp s h
    have h1 := ihb hp.1 s h
    simp only [execOpen]
    generalize execOpen x nx i body s = y3 at *
    obtain ⟨out, s1⟩ := y3
    cases out with
    | ret => exact ihf none (hp.2 _) _ h1
    | panic v => exact ihf (some v) (hp.2 _) _ h1
    | fuel => exact h1

theorem runOpen_keeps {x : Outside ρ ω} {A : OCall ρ ω → Prop} {I : OSt ρ ω → Prop} (hk : KeptBy x A I)
    (hh : ∀ s, I s → ∀ p ∈ s.ctx.handlers, OCallsIn A p) : ∀ (fuel : Nat) (s : OSt ρ ω), I s → I (runOpen x fuel s).2
  | 0, _, h => h
  | fuel + 1, s, h => by
    simp only [runOpen]
    cases hp : s.ctx.handlers[s.ctx.index]? with
    | none => exact h
    | some p =>
      have h1 := execOpen_keeps hk (fun s => runOpen_keeps hk hh fuel s) s.ctx.index p (hh s h p (List.mem_of_getElem? hp)) _
        (hk.2.1 s (.start s.ctx.index) h)
      simp only []
      generalize execOpen x (runOpen x fuel) s.ctx.index p (s.log (.start s.ctx.index)) = y4 at *
      obtain ⟨out, s1⟩ := y4
      cases out with
      | ret =>
        simp only []
        have h2 := hk.2.2 _ (hk.2.1 s1 (.stop s.ctx.index s1.ctx.written) h1)
        split
        · exact h2
        · exact runOpen_keeps hk hh fuel _ h2
      | panic v => exact hk.2.1 _ _ h1
      | fuel => exact h1

theorem OCallsIn.all (p : OProg ρ ω) : OCallsIn (fun _ => True) p := by
  induction p with
  | ret => trivial
  | panic v => trivial
  | next k ih => exact ih
  | call c k ih => exact ⟨trivial, ih⟩
  | scope b f ihb ihf => exact ⟨ihb, ihf⟩

/-! ### what the calls do to the context -/

theorem use_ctx (x : Outside ρ ω) (s : OSt ρ ω) (op : WOp) : (s.use x op).2.ctx = s.ctx ∧ (s.use x op).2.trace = s.trace := by
  unfold OSt.use
  cases s.ctx.writer <;> exact ⟨rfl, rfl⟩

theorem sniff_ctx (x : Outside ρ ω) (s : OSt ρ ω) (data : Str) : (s.sniff x data).2.ctx = s.ctx := by
  unfold OSt.sniff
  split
  · have h1 := (use_ctx x s (.header (fun h => (h, .str (h.get kContentType))))).1
    generalize s.use x (.header (fun h => (h, .str (h.get kContentType)))) = y5 at *
    obtain ⟨r, s1⟩ := y5
    cases r with
    | error v => exact h1
    | ok r =>
      simp only []
      split
      · rw [(use_ctx x s1 _).1]; exact h1
      · exact h1
  · rfl

theorem writeHeader_ctx (x : Outside ρ ω) (s : OSt ρ ω) (code : Int) :
    (s.writeHeader x code).2.ctx = if s.ctx.written then s.ctx else { s.ctx with written := true, status := code } := by
  unfold OSt.writeHeader
  by_cases hw : s.ctx.written = true
  · rw [if_pos hw, if_pos hw]
  · rw [if_neg hw, if_neg hw, (use_ctx x _ _).1]

/-- after `ctx.Write` the context is as before, or `written` has been set -/
theorem write_ctx (x : Outside ρ ω) (s : OSt ρ ω) (data : Str) :
    (s.write x data).2.ctx = s.ctx ∨ (s.ctx.written = false ∧ (s.write x data).2.ctx = { s.ctx with written := true, status := 200 }) := by
  unfold OSt.write
  by_cases hw : s.ctx.written = true
  · rw [if_pos hw]; exact .inl (use_ctx x s _).1
  · rw [if_neg hw]
    have h1 := sniff_ctx x s data
    generalize s.sniff x data = y6 at *
    obtain ⟨r, s1⟩ := y6
    cases r with
    | error v => exact .inl h1
    | ok r =>
      have h2 := writeHeader_ctx x s1 200
      simp only at h1
      rw [h1, if_neg hw] at h2
      simp only []
      generalize s1.writeHeader x 200 = y7 at *
      obtain ⟨r2, s2⟩ := y7
      have hw' : s.ctx.written = false := by simpa using hw
      cases r2 with
      | error v => exact .inr ⟨hw', h2⟩
      | ok r2 =>
        refine .inr ⟨hw', ?_⟩
        simp only []
        rw [(use_ctx x s2 _).1]
        exact h2

theorem doOpen_header (x : Outside ρ ω) (s : OSt ρ ω) (code : Int) : (doOpen x s (.writeHeader code)).2 = (s.writeHeader x code).2 := by
  simp only [doOpen]
  rcases s.writeHeader x code with ⟨_ | _, s1⟩ <;> rfl

theorem doOpen_handlers (x : Outside ρ ω) (s : OSt ρ ω) (c : OCall ρ ω) : (doOpen x s c).2.ctx.handlers = s.ctx.handlers := by
  by_cases hp : PlainCall c
  · exact (doOpen_plain x hp s (.ok .unit)).2.2.2.2.2.1
  · cases c <;> simp only [PlainCall, not_true_eq_false] at hp
    · rw [doOpen_header, writeHeader_ctx]; split <;> rfl
    · rename_i data
      rcases write_ctx x s data with h | ⟨_, h⟩ <;> (simp only [doOpen]; rw [h])
    · rfl
    · rfl

/-- once written, written and the status stay -/
theorem doOpen_sticky (x : Outside ρ ω) (s : OSt ρ ω) (c : OCall ρ ω) (hw : s.ctx.written = true) :
    (doOpen x s c).2.ctx.written = true ∧ (doOpen x s c).2.ctx.status = s.ctx.status := by
  by_cases hp : PlainCall c
  · have h := doOpen_plain x hp s (.ok .unit)
    exact ⟨h.2.2.2.1.trans hw, h.2.2.2.2.1⟩
  · cases c <;> simp only [PlainCall, not_true_eq_false] at hp
    · rw [doOpen_header, writeHeader_ctx, if_pos hw]; exact ⟨hw, rfl⟩
    · rename_i data
      rcases write_ctx x s data with h | ⟨h', h⟩
      · simp only [doOpen]; rw [h]; exact ⟨hw, rfl⟩
      · rw [hw] at h'; cases h'
    · exact ⟨hw, rfl⟩
    · exact ⟨hw, rfl⟩

theorem handlers_kept (x : Outside ρ ω) (hs : List (OProg ρ ω)) : KeptBy x (fun _ => True) (fun s => s.ctx.handlers = hs) :=
  ⟨fun s c _ h => (doOpen_handlers x s c).trans h, fun _ _ h => h, fun _ h => h⟩

theorem runOpen_handlers (x : Outside ρ ω) (fuel : Nat) (s : OSt ρ ω) : (runOpen x fuel s).2.ctx.handlers = s.ctx.handlers :=
  runOpen_keeps (handlers_kept x s.ctx.handlers) (fun _ _ p _ => OCallsIn.all p) fuel s rfl

theorem sticky_kept (x : Outside ρ ω) (st : Int) :
    KeptBy x (fun _ => True) (fun s : OSt ρ ω => s.ctx.written = true ∧ s.ctx.status = st) :=
  ⟨fun s c _ h => ⟨(doOpen_sticky x s c h.1).1, (doOpen_sticky x s c h.1).2.trans h.2⟩, fun _ _ h => h, fun _ h => h⟩

/-! ### the writer is never nil -/

theorem doOpen_writer (x : Outside ρ ω) (s : OSt ρ ω) (c : OCall ρ ω) (hc : NoNilWriter c) (h : s.ctx.writer ≠ none) :
    (doOpen x s c).2.ctx.writer ≠ none := by
  cases c with
  | writeHeader code =>
    rw [doOpen_header, writeHeader_ctx]
    split <;> exact h
  | write data =>
    rcases write_ctx x s data with h' | ⟨_, h'⟩ <;> (simp only [doOpen]; rw [h']; exact h)
  | raw op => simp only [doOpen]; rw [(use_ctx x s op).1]; exact h
  | wrap f => exact hc _ _ h
  | written => exact h
  | status => exact h
  | fullPath => exact h
  | param k => simp only [doOpen]; cases s.ctx.params.bind (· k) <;> exact h
  | params f => exact h
  | envSet k v =>
    simp only [doOpen]
    cases s.ctx.environ with
    | none => exact h
    | some m => simp only []; split <;> exact h
  | envGet k => simp only [doOpen]; cases s.ctx.environ.bind (· k) <;> exact h
  | envMaybe k => exact h
  | environ f => exact h
  | request f => exact h
  | parseForm =>
    simp only [doOpen]
    split
    · exact h
    · cases s.ctx.request <;> exact h
  | world f => exact h

theorem writer_kept (x : Outside ρ ω) (hs : List (OProg ρ ω)) :
    KeptBy x NoNilWriter (fun s => s.ctx.writer ≠ none ∧ s.ctx.handlers = hs) :=
  ⟨fun s c hc h => ⟨doOpen_writer x s c hc h.1, (doOpen_handlers x s c).trans h.2⟩, fun _ _ h => h, fun _ h => h⟩

theorem use_safe {x : Outside ρ ω} (hx : SafeWriters x) {s : OSt ρ ω} (h : s.ctx.writer ≠ none) (op : WOp) : ∃ r, (s.use x op).1 = .ok r := by
  unfold OSt.use
  cases hw : s.ctx.writer with
  | none => exact absurd hw h
  | some a => exact hx a op s.world

theorem writeHeader_safe {x : Outside ρ ω} (hx : SafeWriters x) {s : OSt ρ ω} (h : s.ctx.writer ≠ none) (code : Int) :
    ∃ r, (s.writeHeader x code).1 = .ok r := by
  unfold OSt.writeHeader
  split
  · exact ⟨_, rfl⟩
  · exact use_safe (s := { s with ctx := { s.ctx with written := true, status := code } }) hx h _

theorem write_safe {x : Outside ρ ω} (hx : SafeWriters x) {s : OSt ρ ω} (h : s.ctx.writer ≠ none) (data : Str) :
    ∃ r, (s.write x data).1 = .ok r := by
  have hsn : ∃ r, (s.sniff x data).1 = .ok r := by
    unfold OSt.sniff
    split
    · obtain ⟨r, h1⟩ := use_safe hx h (.header (fun h => (h, .str (h.get kContentType))))
      have h2 := (use_ctx x s (.header (fun h => (h, .str (h.get kContentType))))).1
      generalize s.use x (.header (fun h => (h, .str (h.get kContentType)))) = y8 at *
      obtain ⟨r', s1⟩ := y8
      simp only at h1 h2
      subst h1
      simp only []
      split
      · exact use_safe hx (by rw [h2]; exact h) _
      · exact ⟨_, rfl⟩
    · exact ⟨_, rfl⟩
  unfold OSt.write
  split
  · exact use_safe hx h _
  · obtain ⟨r, h1⟩ := hsn
    have h2 := sniff_ctx x s data
    generalize s.sniff x data = y9 at *
    obtain ⟨r', s1⟩ := y9
    simp only at h1 h2
    subst h1
    simp only []
    have hw1 : s1.ctx.writer ≠ none := by rw [h2]; exact h
    obtain ⟨r2, h3⟩ := writeHeader_safe hx hw1 200
    have h4 := writeHeader_ctx x s1 200
    generalize s1.writeHeader x 200 = y10 at *
    obtain ⟨r3, s2⟩ := y10
    simp only at h3 h4
    subst h3
    simp only []
    refine use_safe hx ?_ _
    rw [h4]
    split <;> exact hw1

/-- calls that cannot panic with safe writers -/
def SafeCall : OCall ρ ω → Prop
  | .writeHeader _ | .write _ | .raw _ | .written => True
  | _ => False

theorem doOpen_safe {x : Outside ρ ω} (hx : SafeWriters x) {s : OSt ρ ω} (h : s.ctx.writer ≠ none) {c : OCall ρ ω} (hc : SafeCall c) :
    ∃ r, (doOpen x s c).1 = .ok r := by
  cases c <;> simp only [SafeCall] at hc
  · rename_i code
    obtain ⟨r, h1⟩ := writeHeader_safe hx h code
    simp only [doOpen]
    generalize s.writeHeader x code = y11 at *
    obtain ⟨r', s1⟩ := y11
    simp only at h1
    subst h1
    exact ⟨_, rfl⟩
  · rename_i data
    exact write_safe hx h data
  · rename_i op
    exact use_safe hx h op
  · exact ⟨_, rfl⟩

/-- code that returns -/
def OCalm : OProg ρ ω → Prop
  | .ret => True
  | .call c k => SafeCall c ∧ ∀ r, OCalm (k r)
  | _ => False

theorem OCalm.returns {x : Outside ρ ω} (hx : SafeWriters x) (nx : OSt ρ ω → Out × OSt ρ ω) (i : Nat) {p : OProg ρ ω} :
    OCalm p → ∀ {s : OSt ρ ω}, s.ctx.writer ≠ none → (execOpen x nx i p s).1 = .ret := by
  induction p with
  | ret => intro _ s _; rfl
  | panic v => intro h; exact h.elim
  | next k _ => intro h; exact h.elim
  | scope b f _ _ => intro h; exact h.elim
  | call c k ih =>
    intro hc s h
    obtain ⟨r, h1⟩ := doOpen_safe hx h hc.1
    have hn : NoNilWriter c := by cases c <;> first | trivial | exact hc.1.elim
    have h2 := doOpen_writer x s c hn h
    simp only [execOpen]
    generalize doOpen x s c = y12 at *
    obtain ⟨r', s1⟩ := y12
    simp only at h1 h2
    subst h1
    exact ih r (hc.2 r) h2

theorem recoveredOpen_calm (stable : Bool) (crash : Str → Str) (r : Option PVal) : OCalm (recoveredOpen stable crash r : OProg ρ ω) := by
  have hrest : ∀ msg, OCalm (if stable then .ret else
        .call (.writeHeader 500) (fun _ => .call (.raw (.header (fun h => (h.put kContentType mimeText, .unit)))) (fun _ =>
          .call (.write (crash msg)) (fun _ => .ret))) : OProg ρ ω) := by
    intro msg
    split
    · trivial
    · exact ⟨trivial, fun _ => ⟨trivial, fun _ => ⟨trivial, fun _ => trivial⟩⟩⟩
  rcases r with _ | ⟨_ | msg⟩
  · refine ⟨trivial, fun w => ?_⟩
    simp only []
    split
    · exact ⟨trivial, fun _ => trivial⟩
    · trivial
  · refine ⟨trivial, fun w => ?_⟩
    simp only []
    split
    · exact ⟨trivial, fun _ => trivial⟩
    · trivial
  · refine ⟨trivial, fun w => ?_⟩
    simp only []
    split
    · exact ⟨trivial, fun _ => hrest msg⟩
    · exact hrest msg

theorem OCalm.noNil {p : OProg ρ ω} : OCalm p → OCallsIn NoNilWriter p := by
  induction p with
  | ret => intro _; trivial
  | panic v => intro h; exact h.elim
  | next k _ => intro h; exact h.elim
  | scope b f _ _ => intro h; exact h.elim
  | call c k ih =>
    intro hc
    refine ⟨?_, fun r => ih r (hc.2 r)⟩
    cases c <;> first | trivial | exact hc.1.elim

theorem openRecovery_noNil (stable : Bool) (crash : Str → Str) : OCallsIn NoNilWriter (openRecovery stable crash : OProg ρ ω) :=
  ⟨trivial, fun r => (recoveredOpen_calm stable crash r).noNil⟩

/-- calm code keeps the flag -/
theorem OCalm.written (x : Outside ρ ω) (nx : OSt ρ ω → Out × OSt ρ ω) (i : Nat) {p : OProg ρ ω} :
    OCalm p → ∀ {s : OSt ρ ω}, s.ctx.written = true → (execOpen x nx i p s).2.ctx.written = true := by
  induction p with
  | ret => intro _ s h; exact h
  | panic v => intro h; exact h.elim
  | next k _ => intro h; exact h.elim
  | scope b f _ _ => intro h; exact h.elim
  | call c k ih =>
    intro hc s h
    have h2 := (doOpen_sticky x s c h).1
    simp only [execOpen]
    generalize doOpen x s c = y at *
    obtain ⟨r, s1⟩ := y
    cases r with
    | ok r => exact ih r (hc.2 r) h2
    | error v => exact h2

/-- after the deferred function of `Recovery` a response has been written -/
theorem recoveredOpen_written (x : Outside ρ ω) (nx : OSt ρ ω → Out × OSt ρ ω) (i : Nat) (stable : Bool) (crash : Str → Str) (r : Option PVal)
    (s : OSt ρ ω) : (execOpen x nx i (recoveredOpen stable crash r) s).2.ctx.written = true := by
  have hhead : ∀ code (k : Res → OProg ρ ω), (∀ r, OCalm (k r)) →
      (execOpen x nx i (.call (.writeHeader code) k) s).2.ctx.written = true := by
    intro code k hk
    have h1 : (doOpen x s (.writeHeader code)).2.ctx.written = true := by
      rw [doOpen_header, writeHeader_ctx]
      split
      · assumption
      · rfl
    simp only [execOpen]
    generalize doOpen x s (.writeHeader code) = y at *
    obtain ⟨r, s1⟩ := y
    cases r with
    | ok r => exact (hk r).written x nx i h1
    | error v => exact h1
  have hc := recoveredOpen_calm (ρ := ρ) (ω := ω) stable crash r
  by_cases hw : s.ctx.written = true
  · exact hc.written x nx i hw
  · have hw' : s.ctx.written = false := by simpa using hw
    rcases r with _ | ⟨_ | msg⟩
    · show (execOpen x nx i (if Res.bool s.ctx.written = .bool false then _ else _) s).2.ctx.written = true
      rw [hw', if_pos rfl]
      exact hhead 200 _ (fun _ => trivial)
    · show (execOpen x nx i (if Res.bool s.ctx.written = .bool false then _ else _) s).2.ctx.written = true
      rw [hw', if_pos rfl]
      exact hhead 200 _ (fun _ => trivial)
    · have hr := hc.2 (.bool false)
      simp only [if_true] at hr
      show (execOpen x nx i (if Res.bool s.ctx.written = .bool false then _ else _) s).2.ctx.written = true
      rw [hw', if_pos rfl]
      exact hhead 500 _ hr.2

/-! ### related writers and worlds -/

structure Twin (R : Nat → Nat → Prop) (W : ω → ω → Prop) (s t : OSt ρ ω) : Prop where
  writer : OptRel R s.ctx.writer t.ctx.writer
  world : W s.world t.world
  ctx : t.ctx = { s.ctx with writer := t.ctx.writer }
  trace : t.trace = s.trace

variable {R : Nat → Nat → Prop} {W : ω → ω → Prop}

theorem Twin.use {x : Outside ρ ω} (hx : Transparent x R W) {s t : OSt ρ ω} (h : Twin R W s t) (op : WOp) :
    (s.use x op).1 = (t.use x op).1 ∧ Twin R W (s.use x op).2 (t.use x op).2 := by
  unfold OSt.use
  have hw := h.writer
  cases hs : s.ctx.writer with
  | none =>
    cases ht : t.ctx.writer with
    | none => exact ⟨rfl, h⟩
    | some b => rw [hs, ht] at hw; exact hw.elim
  | some a =>
    cases ht : t.ctx.writer with
    | none => rw [hs, ht] at hw; exact hw.elim
    | some b =>
      rw [hs, ht] at hw
      obtain ⟨h1, h2⟩ := hx.device a b op _ _ hw h.world
      exact ⟨h1, h.writer, h2, h.ctx, h.trace⟩

theorem Twin.header {x : Outside ρ ω} (hx : Transparent x R W) {s t : OSt ρ ω} (h : Twin R W s t) (code : Int) :
    (s.writeHeader x code).1 = (t.writeHeader x code).1 ∧ Twin R W (s.writeHeader x code).2 (t.writeHeader x code).2 := by
  have hc := h.ctx
  have hwr : t.ctx.written = s.ctx.written := by rw [hc]
  unfold OSt.writeHeader
  rw [hwr]
  split
  · exact ⟨rfl, h⟩
  · refine Twin.use hx ?_ _
    refine ⟨h.writer, h.world, ?_, h.trace⟩
    simp only []
    rw [hc]

theorem Twin.sniffs {x : Outside ρ ω} (hx : Transparent x R W) {s t : OSt ρ ω} (h : Twin R W s t) (data : Str) :
    (s.sniff x data).1 = (t.sniff x data).1 ∧ Twin R W (s.sniff x data).2 (t.sniff x data).2 := by
  unfold OSt.sniff
  split
  · obtain ⟨h1, h2⟩ := h.use hx (.header (fun h => (h, .str (h.get kContentType))))
    generalize s.use x (.header (fun h => (h, .str (h.get kContentType)))) = y13 at *
    obtain ⟨r, s1⟩ := y13
    generalize t.use x (.header (fun h => (h, .str (h.get kContentType)))) = y14 at *
    obtain ⟨r', t1⟩ := y14
    simp only at h1 h2
    subst h1
    cases r with
    | error v => exact ⟨rfl, h2⟩
    | ok r =>
      simp only []
      split
      · exact h2.use hx _
      · exact ⟨rfl, h2⟩
  · exact ⟨rfl, h⟩

theorem Twin.writes {x : Outside ρ ω} (hx : Transparent x R W) {s t : OSt ρ ω} (h : Twin R W s t) (data : Str) :
    (s.write x data).1 = (t.write x data).1 ∧ Twin R W (s.write x data).2 (t.write x data).2 := by
  have hwr : t.ctx.written = s.ctx.written := by rw [h.ctx]
  unfold OSt.write
  rw [hwr]
  split
  · exact h.use hx _
  · obtain ⟨h1, h2⟩ := h.sniffs hx data
    generalize s.sniff x data = y15 at *
    obtain ⟨r, s1⟩ := y15
    generalize t.sniff x data = y16 at *
    obtain ⟨r', t1⟩ := y16
    simp only at h1 h2
    subst h1
    cases r with
    | error v => exact ⟨rfl, h2⟩
    | ok r =>
      simp only []
      obtain ⟨h3, h4⟩ := h2.header hx 200
      generalize s1.writeHeader x 200 = y17 at *
      obtain ⟨r2, s2⟩ := y17
      generalize t1.writeHeader x 200 = y18 at *
      obtain ⟨r2', t2⟩ := y18
      simp only at h3 h4
      subst h3
      cases r2 with
      | error v => exact ⟨rfl, h4⟩
      | ok r2 => exact h4.use hx _

theorem Twin.call {x : Outside ρ ω} (hx : Transparent x R W) {s t : OSt ρ ω} (h : Twin R W s t) {c : OCall ρ ω} (hc : Blind R W c) :
    (doOpen x s c).1 = (doOpen x t c).1 ∧ Twin R W (doOpen x s c).2 (doOpen x t c).2 := by
  obtain ⟨sc, sw, st⟩ := s
  obtain ⟨tc, tw, tt⟩ := t
  obtain ⟨e1, p1, q1, w1, h1, i1, wr1, st1, f1, pp1⟩ := sc
  obtain ⟨e2, p2, q2, w2, h2, i2, wr2, st2, f2, pp2⟩ := tc
  have hctx := h.ctx
  have htr := h.trace
  simp only [OCtx.mk.injEq, true_and] at hctx htr
  obtain ⟨rfl, rfl, rfl, rfl, rfl, rfl, rfl, rfl, rfl⟩ := hctx
  subst htr
  cases c with
  | writeHeader code =>
    obtain ⟨h1, h2⟩ := h.header hx code
    simp only [doOpen]
    generalize OSt.writeHeader x _ code = y19 at *
    obtain ⟨r, s1⟩ := y19
    generalize OSt.writeHeader x _ code = y20 at *
    obtain ⟨r', t1⟩ := y20
    simp only at h1 h2
    subst h1
    cases r <;> exact ⟨rfl, h2⟩
  | write data => exact h.writes hx data
  | raw op => exact h.use hx op
  | wrap f =>
    obtain ⟨h1, h2⟩ := hc _ _ _ _ h.writer h.world
    exact ⟨rfl, h1, h2, rfl, rfl⟩
  | written => exact ⟨rfl, h⟩
  | status => exact ⟨rfl, h⟩
  | fullPath => exact ⟨rfl, h⟩
  | param k => simp only [doOpen]; split <;> exact ⟨rfl, h⟩
  | params f => exact ⟨rfl, h.writer, h.world, rfl, rfl⟩
  | envSet k v =>
    simp only [doOpen]
    split
    · exact ⟨rfl, h⟩
    · split
      · exact ⟨rfl, h⟩
      · exact ⟨rfl, h.writer, h.world, rfl, rfl⟩
  | envGet k => simp only [doOpen]; split <;> exact ⟨rfl, h⟩
  | envMaybe k => exact ⟨rfl, h⟩
  | environ f => exact ⟨rfl, h.writer, h.world, rfl, rfl⟩
  | request f =>
    obtain ⟨h1, h2, h3⟩ := hc q2 _ _ h.world
    refine ⟨h1, h.writer, h3, ?_, rfl⟩
    simp only [doOpen]
    rw [h2]
  | parseForm =>
    simp only [doOpen]
    split
    · exact ⟨rfl, h⟩
    · cases q2 with
      | none => exact ⟨rfl, h.writer, h.world, rfl, rfl⟩
      | some r =>
        obtain ⟨h1, h2, h3⟩ := hx.parse (wantsMultipart (x.fields r)) r _ _ h.world
        refine ⟨?_, h.writer, h3, ?_, rfl⟩
        · simp only [h1]
        · simp only [h2]
  | world f =>
    obtain ⟨h1, h2⟩ := hc _ _ h.world
    exact ⟨h1, h.writer, h2, rfl, rfl⟩

theorem Twin.log {s t : OSt ρ ω} (h : Twin R W s t) (e : Event) : Twin R W (s.log e) (t.log e) :=
  ⟨h.writer, h.world, h.ctx, by simp [OSt.log, h.trace]⟩

theorem Twin.bump {s t : OSt ρ ω} (h : Twin R W s t) : Twin R W s.bump t.bump :=
  ⟨h.writer, h.world, by simp only [OSt.bump]; rw [h.ctx], h.trace⟩

theorem execOpen_twin {x : Outside ρ ω} (hx : Transparent x R W) {nx nx' : OSt ρ ω → Out × OSt ρ ω} {I : OSt ρ ω → Prop}
    (hk : KeptBy x (Blind R W) I) (hI : ∀ s, I s → I (nx s).2)
    (hnx : ∀ s t, I s → Twin R W s t → (nx s).1 = (nx' t).1 ∧ Twin R W (nx s).2 (nx' t).2) (i : Nat) (p : OProg ρ ω) :
    OCallsIn (Blind R W) p → ∀ {s t : OSt ρ ω}, I s → Twin R W s t →
      (execOpen x nx i p s).1 = (execOpen x nx' i p t).1 ∧ Twin R W (execOpen x nx i p s).2 (execOpen x nx' i p t).2 := by
  induction p with
  | ret => intro _ s t _ h; exact ⟨rfl, h⟩
  | panic v => intro _ s t _ h; exact ⟨rfl, h⟩
  | next k ih =>
    intro hp s t hi h
    have hi' := hk.2.2 _ (hk.2.1 s (.next i) hi)
    obtain ⟨h1, h2⟩ := hnx _ _ hi' (h.log (.next i)).bump
    have hi2 := hI _ hi'
    simp only [execOpen]
    generalize nx (s.log (.next i)).bump = y21 at *
    obtain ⟨out, s1⟩ := y21
    generalize nx' (t.log (.next i)).bump = y22 at *
    obtain ⟨out', t1⟩ := y22
    simp only at h1 h2
    subst h1
    cases out with
    | ret => exact ih hp (hk.2.1 _ _ hi2) (h2.log _)
    | panic v => exact ⟨rfl, h2.log _⟩
    | fuel => exact ⟨rfl, h2⟩
  | call c k ih =>
    intro hp s t hi h
    obtain ⟨h1, h2⟩ := h.call hx hp.1
    have hi2 := hk.1 s c hp.1 hi
    simp only [execOpen]
    generalize doOpen x s c = y23 at *
    obtain ⟨r, s1⟩ := y23
    generalize doOpen x t c = y24 at *
    obtain ⟨r', t1⟩ := y24
    simp only at h1 h2
    subst h1
    cases r with
    | ok r => exact ih r (hp.2 r) hi2 h2
    | error v => exact ⟨rfl, h2⟩
  | scope body fin ihb ihf =>
    intro hp s t hi h
    obtain ⟨h1, h2⟩ := ihb hp.1 hi h
    have hi2 := execOpen_keeps hk hI i body hp.1 s hi
    simp only [execOpen]
    generalize execOpen x nx i body s = y25 at *
    obtain ⟨out, s1⟩ := y25
    generalize execOpen x nx' i body t = y26 at *
    obtain ⟨out', t1⟩ := y26
    simp only at h1 h2
    subst h1
    cases out with
    | ret => exact ihf none (hp.2 _) hi2 h2
    | panic v => exact ihf (some v) (hp.2 _) hi2 h2
    | fuel => exact ⟨rfl, h2⟩

theorem runOpen_twin {x : Outside ρ ω} (hx : Transparent x R W) (hs : List (OProg ρ ω)) (hh : ∀ p ∈ hs, OCallsIn (Blind R W) p) :
    ∀ (fuel : Nat) {s t : OSt ρ ω}, s.ctx.handlers = hs → Twin R W s t →
      (runOpen x fuel s).1 = (runOpen x fuel t).1 ∧ Twin R W (runOpen x fuel s).2 (runOpen x fuel t).2
  | 0, _, _, _, h => ⟨rfl, h⟩
  | fuel + 1, s, t, hi, h => by
    have hk : KeptBy x (Blind R W) (fun s => s.ctx.handlers = hs) :=
      ⟨fun s c _ h => (doOpen_handlers x s c).trans h, fun _ _ h => h, fun _ h => h⟩
    have hth : t.ctx.handlers = s.ctx.handlers := by rw [h.ctx]
    have hti : t.ctx.index = s.ctx.index := by rw [h.ctx]
    simp only [runOpen, hth, hti]
    cases hp : s.ctx.handlers[s.ctx.index]? with
    | none => exact ⟨rfl, h⟩
    | some p =>
      have hI : ∀ s : OSt ρ ω, s.ctx.handlers = hs → (runOpen x fuel s).2.ctx.handlers = hs := fun s h => (runOpen_handlers x fuel s).trans h
      have hpb : OCallsIn (Blind R W) p := hh p (hi ▸ List.mem_of_getElem? hp)
      obtain ⟨h1, h2⟩ := execOpen_twin hx hk hI (fun s t hi h => runOpen_twin hx hs hh fuel hi h) s.ctx.index p hpb
        (s := s.log (.start s.ctx.index)) hi (h.log (.start s.ctx.index))
      have hi2 := execOpen_keeps hk hI s.ctx.index p hpb (s.log (.start s.ctx.index)) hi
      simp only []
      generalize execOpen x (runOpen x fuel) s.ctx.index p (s.log (.start s.ctx.index)) = y27 at *
      obtain ⟨out, s1⟩ := y27
      generalize execOpen x (runOpen x fuel) s.ctx.index p (t.log (.start s.ctx.index)) = y28 at *
      obtain ⟨out', t1⟩ := y28
      simp only at h1 h2 hi2
      subst h1
      cases out with
      | ret =>
        simp only []
        have hw : t1.ctx.written = s1.ctx.written := by rw [h2.ctx]
        rw [hw]
        have h3 := (h2.log (.stop s.ctx.index s1.ctx.written)).bump
        have hw2 : (t1.log (.stop s.ctx.index s1.ctx.written)).bump.ctx.written = (s1.log (.stop s.ctx.index s1.ctx.written)).bump.ctx.written := hw
        rw [hw2]
        split
        · exact ⟨rfl, h3⟩
        · exact runOpen_twin hx hs hh fuel hi2 h3
      | panic v => exact ⟨rfl, h2.log _⟩
      | fuel => exact ⟨rfl, h2⟩

/-! ### the same chain with any bound -/

theorem same_eq {x : Outside ρ ω} {s s' : OSt ρ ω} {t : St (Big ρ ω)} (h : SameRun x s t) (h' : SameRun x s' t)
    (hh : s.ctx.handlers = s'.ctx.handlers) : s = s' := by
  obtain ⟨c, w, tr⟩ := s
  obtain ⟨c', w', tr'⟩ := s'
  obtain ⟨e1, p1, q1, w1, h1, i1, wr1, st1, f1, pp1⟩ := c
  obtain ⟨e2, p2, q2, w2, h2, i2, wr2, st2, f2, pp2⟩ := c'
  obtain ⟨l, hl⟩ := h.world
  obtain ⟨l', hl'⟩ := h'.world
  have a := h.index; have b := h.written; have c := h.status; have d := h.trace
  have a' := h'.index; have b' := h'.written; have c' := h'.status; have d' := h'.trace
  rw [hl] at hl'
  simp only [bigOf, Big.mk.injEq] at hl'
  simp only at a b c d a' b' c' d' hh
  obtain ⟨rfl, rfl, rfl, rfl, rfl, rfl, rfl, -⟩ := hl'
  subst hh
  simp [← a, ← a', ← b, ← b', ← c, ← c', ← d, ← d']

end Water
