import Verif.Lemmas.Response
import Verif.Lemmas.Values
import Verif.Spec.Middleware
/- CORS and Logger. -/
namespace Water
open Spec
variable {ω : Type}

/-! ### The rest of the state does not matter to the calls -/

/-- replace what the calls do not look at -/
def St.reframe (s : St ω) (hs : List (Prog ω)) (idx : Nat) (w : ω) (tr : List Event) : St ω :=
  { s with ctx := { s.ctx with handlers := hs, index := idx }, world := w, trace := tr }

/-- not a call on the world -/
def NotWorld : Call ω → Prop
  | .world _ => False
  | _ => True

theorem reframe_doCall (o : Oracle) (req : Req) (s : St ω) (hs : List (Prog ω)) (idx : Nat) (w : ω) (tr : List Event)
    (c : Call ω) (hc : NotWorld c) :
    doCall o req (s.reframe hs idx w tr) c = ((doCall o req s c).1, (doCall o req s c).2.reframe hs idx w tr) := by
  have wh : ∀ (s : St ω) code, (s.reframe hs idx w tr).writeHeader o code =
      ((s.writeHeader o code).1, (s.writeHeader o code).2.reframe hs idx w tr) := by
    intro s code
    have e : (s.reframe hs idx w tr).ctx.written = s.ctx.written := rfl
    simp only [St.writeHeader, e]
    by_cases hw : s.ctx.written = true
    · simp only [hw, if_true]
    · simp only [hw]; rfl
  cases c with
  | world f => exact hc.elim
  | writeHeader code =>
    simp only [doCall, wh]
    rcases s.writeHeader o code with ⟨p, s2⟩
    cases p <;> rfl
  | write data =>
    have hw : (s.reframe hs idx w tr).write o data = ((s.write o data).1, (s.write o data).2.reframe hs idx w tr) := by
      simp only [St.write]
      have e : (s.reframe hs idx w tr).ctx.written = s.ctx.written := rfl
      rw [e]
      split
      · rfl
      · have e2 : (if data.length > 0 ∧ (s.reframe hs idx w tr).rw.header.get kContentType = [] then
            ({ (s.reframe hs idx w tr) with rw := { (s.reframe hs idx w tr).rw with header := (s.reframe hs idx w tr).rw.header.put kContentType (o.detect data) } } :
              St ω) else s.reframe hs idx w tr) =
            (if data.length > 0 ∧ s.rw.header.get kContentType = [] then
              ({ s with rw := { s.rw with header := s.rw.header.put kContentType (o.detect data) } } : St ω) else s).reframe hs idx w tr := by
          have e3 : (s.reframe hs idx w tr).rw = s.rw := rfl
          rw [e3]
          split <;> rfl
        rw [e2, wh]
        rcases St.writeHeader o _ 200 with ⟨p, s2⟩
        cases p <;> rfl
    simp only [doCall, hw]
    rcases s.write o data with ⟨p, s2⟩
    cases p <;> rfl
  | rawWriteHeader code =>
    simp only [doCall]
    have e : (s.reframe hs idx w tr).rw = s.rw := rfl
    rw [e]
    rcases s.rw.writeHeader o.bad code with ⟨p, rw⟩
    cases p <;> rfl
  | param k =>
    simp only [doCall]
    have e : (s.reframe hs idx w tr).ctx.params = s.ctx.params := rfl
    rw [e]
    split <;> rfl
  | envSet k v =>
    simp only [doCall]
    have e : (s.reframe hs idx w tr).ctx.environ = s.ctx.environ := rfl
    rw [e]
    split <;> rfl
  | envGet k =>
    simp only [doCall]
    have e : (s.reframe hs idx w tr).ctx.environ = s.ctx.environ := rfl
    rw [e]
    split <;> rfl
  | readBody l =>
    simp only [doCall]
    have e : (s.reframe hs idx w tr).body = s.body := rfl
    rw [e]
    split <;> rfl
  | parseForm =>
    simp only [doCall, St.parseForm]
    have e : (s.reframe hs idx w tr).ctx.parsedParams = s.ctx.parsedParams := rfl
    have e2 : (s.reframe hs idx w tr).body = s.body := rfl
    rw [e, e2]
    cases s.ctx.parsedParams
    · simp only [Bool.false_eq_true, if_false]
      cases (o.parse req (wantsMultipart req) s.body).fails <;> rfl
    · rfl
  | readForm f =>
    simp only [doCall, St.parseForm]
    have e : (s.reframe hs idx w tr).ctx.parsedParams = s.ctx.parsedParams := rfl
    have e2 : (s.reframe hs idx w tr).body = s.body := rfl
    rw [e, e2]
    cases s.ctx.parsedParams
    · simp only [Bool.false_eq_true, if_false]
      cases (o.parse req (wantsMultipart req) s.body).fails <;> rfl
    · rfl
  | _ => rfl

theorem doCall_world {o : Oracle} {req : Req} {s : St ω} {c : Call ω} (hc : NotWorld c) :
    (doCall o req s c).2.world = s.world := by
  have h := reframe_doCall o req s s.ctx.handlers s.ctx.index s.world s.trace c hc
  have e : s.reframe s.ctx.handlers s.ctx.index s.world s.trace = s := rfl
  rw [e] at h
  have := congrArg (fun x => x.2.world) h
  simpa [St.reframe] using this

/-! ### A chain with one more handler -/

/-- `t` is `s` in a chain with the handler `L` inserted after `pre`, up to the index. -/
structure Rel (pre rest : List (Prog ω)) (L : Prog ω) (W : ω → ω → Prop) (s t : St ω) : Prop where
  hs : s.ctx.handlers = pre ++ rest
  same : t = s.reframe (pre ++ L :: rest) t.ctx.index t.world t.trace
  world : W s.world t.world
  trace : s.trace = t.trace.filterMap (dropEv pre.length)

variable {pre rest : List (Prog ω)} {L : Prog ω} {W : ω → ω → Prop} {s t : St ω}

theorem Rel.ht (h : Rel pre rest L W s t) : t.ctx.handlers = pre ++ L :: rest := by rw [h.same]; rfl
theorem Rel.written (h : Rel pre rest L W s t) : t.ctx.written = s.ctx.written := by rw [h.same]; rfl
theorem Rel.body (h : Rel pre rest L W s t) : t.body = s.body := by rw [h.same]; rfl

theorem Rel.doCall {o : Oracle} {req : Req} (h : Rel pre rest L W s t) (c : Call ω)
    (hc : ∀ f, c = .world f → ∀ w w', W w w' → W (f w).1 (f w').1 ∧ (f w').2 = (f w).2) :
    (doCall o req t c).1 = (doCall o req s c).1 ∧ Rel pre rest L W (doCall o req s c).2 (doCall o req t c).2 ∧
    (doCall o req s c).2.ctx.index = s.ctx.index ∧ (doCall o req t c).2.ctx.index = t.ctx.index := by
  have fs := doCall_frame o req s c
  have ft := doCall_frame o req t c
  by_cases hw : NotWorld c
  · have e := reframe_doCall o req s (pre ++ L :: rest) t.ctx.index t.world t.trace c hw
    rw [← h.same] at e
    refine ⟨by rw [e], ⟨fs.1.trans h.hs, ?_, ?_, ?_⟩, fs.2.2.1, ft.2.2.1⟩
    · rw [e]; rfl
    · rw [doCall_world hw, doCall_world hw]; exact h.world
    · rw [fs.2.1, ft.2.1]; exact h.trace
  · cases c with
    | world f =>
      obtain ⟨h1, h2⟩ := hc f rfl _ _ h.world
      refine ⟨by simp only [Water.doCall]; rw [h2], ⟨h.hs, ?_, h1, h.trace⟩, rfl, rfl⟩
      simp only [Water.doCall]
      rw [h.same]; rfl
    | _ => exact absurd trivial hw

theorem Rel.log {e e' : Event} (h : Rel pre rest L W s t) (he : dropEv pre.length e' = some e) :
    Rel pre rest L W (s.log e) (t.log e') := by
  refine ⟨h.hs, ?_, h.world, ?_⟩
  · conv => lhs; rw [h.same]
    rfl
  · simp only [St.log, List.filterMap_append, ← h.trace]; simp [he]

theorem Rel.logR {e' : Event} (h : Rel pre rest L W s t) (he : dropEv pre.length e' = none) :
    Rel pre rest L W s (t.log e') := by
  refine ⟨h.hs, ?_, h.world, ?_⟩
  · conv => lhs; rw [h.same]
    rfl
  · simp only [St.log, List.filterMap_append, ← h.trace]; simp [he]

theorem Rel.bump (h : Rel pre rest L W s t) : Rel pre rest L W s.bump t.bump := by
  refine ⟨h.hs, ?_, h.world, h.trace⟩
  conv => lhs; rw [h.same]
  rfl

theorem Rel.bumpR (h : Rel pre rest L W s t) : Rel pre rest L W s t.bump := by
  refine ⟨h.hs, ?_, h.world, h.trace⟩
  conv => lhs; rw [h.same]
  rfl

theorem Rel.mono {W' : ω → ω → Prop} (h : Rel pre rest L W s t) (hw : ∀ w w', W w w' → W' w w') : Rel pre rest L W' s t :=
  ⟨h.hs, h.same, hw _ _ h.world, h.trace⟩

/-- the handlers after the inserted one: same state, index moved by one -/
def Shift (pre rest : List (Prog ω)) (L : Prog ω) (s t : St ω) : Prop :=
  Rel pre rest L Eq s t ∧ t.ctx.index = s.ctx.index + 1 ∧ pre.length ≤ s.ctx.index

theorem worldEq (c : Call ω) : ∀ f, c = .world f → ∀ w w', w = w' → (f w).1 = (f w').1 ∧ (f w').2 = (f w).2 := by
  rintro f _ w w' rfl; exact ⟨rfl, rfl⟩

theorem dropEv_after {k i : Nat} (h : k ≤ i) : dropEv k (.start (i + 1)) = some (.start i) ∧
    (∀ w, dropEv k (.stop (i + 1) w) = some (.stop i w)) ∧ dropEv k (.crash (i + 1)) = some (.crash i) ∧
    dropEv k (.next (i + 1)) = some (.next i) ∧ dropEv k (.back (i + 1)) = some (.back i) ∧
    dropEv k (.thrown (i + 1)) = some (.thrown i) := by
  have h1 : ¬ i + 1 = k := by omega
  have h2 : k < i + 1 := by omega
  simp [dropEv, h1, h2]

theorem dropEv_before {k i : Nat} (h : i < k) : dropEv k (.start i) = some (.start i) ∧
    (∀ w, dropEv k (.stop i w) = some (.stop i w)) ∧ dropEv k (.crash i) = some (.crash i) ∧
    dropEv k (.next i) = some (.next i) ∧ dropEv k (.back i) = some (.back i) ∧ dropEv k (.thrown i) = some (.thrown i) := by
  have h1 : ¬ i = k := by omega
  have h2 : ¬ k < i := by omega
  simp [dropEv, h1, h2]

theorem dropEv_self {k : Nat} : dropEv k (.start k) = none ∧ (∀ w, dropEv k (.stop k w) = none) ∧ dropEv k (.crash k) = none ∧
    dropEv k (.next k) = none ∧ dropEv k (.back k) = none ∧ dropEv k (.thrown k) = none := by
  simp [dropEv]

theorem shift_exec (o : Oracle) (req : Req) (nx : St ω → Out × St ω)
    (hnx : ∀ s t, Shift pre rest L s t → (nx t).1 = (nx s).1 ∧ Shift pre rest L (nx s).2 (nx t).2) {i : Nat}
    (hi : pre.length ≤ i) (p : Prog ω) : ∀ s t, Shift pre rest L s t →
      (exec o req nx (i + 1) p t).1 = (exec o req nx i p s).1 ∧
      Shift pre rest L (exec o req nx i p s).2 (exec o req nx (i + 1) p t).2 := by
  have de := dropEv_after hi
  induction p with
  | ret => exact fun s t h => ⟨rfl, h⟩
  | panic v => exact fun s t h => ⟨rfl, h⟩
  | next k ih =>
    intro s t h
    simp only [exec]
    have h1 : Shift pre rest L (s.log (.next i)).bump (t.log (.next (i + 1))).bump :=
      ⟨(h.1.log de.2.2.2.1).bump, by simp only [St.bump, St.log]; have := h.2.1; omega,
        by simp only [St.bump, St.log]; have := h.2.2; omega⟩
    obtain ⟨h2, h3⟩ := hnx _ _ h1
    rcases hs : nx (s.log (.next i)).bump with ⟨out, s1⟩
    rcases ht : nx (t.log (.next (i + 1))).bump with ⟨out', t1⟩
    rw [hs, ht] at h2 h3
    simp only at h2 h3
    subst h2
    cases out' with
    | fuel => exact ⟨rfl, h3⟩
    | panic v => exact ⟨rfl, h3.1.log de.2.2.2.2.2, h3.2⟩
    | ret => exact ih _ _ ⟨h3.1.log de.2.2.2.2.1, h3.2⟩
  | call c k ih =>
    intro s t h
    simp only [exec]
    obtain ⟨h1, h2, h3, h4⟩ := h.1.doCall (o := o) (req := req) c (worldEq c)
    rcases hs : doCall o req s c with ⟨out, s1⟩
    rcases ht : doCall o req t c with ⟨out', t1⟩
    rw [hs] at h1 h2 h3; rw [ht] at h1 h2 h4
    simp only at h1 h2 h3 h4
    subst h1
    have h5 : Shift pre rest L s1 t1 := ⟨h2, by rw [h3, h4]; exact h.2.1, by rw [h3]; exact h.2.2⟩
    cases out' with
    | error v => exact ⟨rfl, h5⟩
    | ok r => exact ih r _ _ h5
  | scope b f ihb ihf =>
    intro s t h
    simp only [exec]
    obtain ⟨h1, h2⟩ := ihb s t h
    rcases hs : exec o req nx i b s with ⟨out, s1⟩
    rcases ht : exec o req nx (i + 1) b t with ⟨out', t1⟩
    rw [hs, ht] at h1 h2
    simp only at h1 h2
    subst h1
    cases out' with
    | fuel => exact ⟨rfl, h2⟩
    | ret => exact ihf _ _ _ h2
    | panic v => exact ihf _ _ _ h2

theorem shift_get {k : Nat} (h : pre.length ≤ k) : (pre ++ L :: rest)[k + 1]? = (pre ++ rest)[k]? := by
  rw [List.getElem?_append_right (by omega), List.getElem?_append_right h, show k + 1 - pre.length = (k - pre.length) + 1 by omega,
    List.getElem?_cons_succ]

theorem shift_run (o : Oracle) (req : Req) (fuel : Nat) : ∀ s t, Shift pre rest L s t →
    (run o req fuel t).1 = (run o req fuel s).1 ∧ Shift pre rest L (run o req fuel s).2 (run o req fuel t).2 := by
  induction fuel with
  | zero => exact fun s t h => ⟨rfl, h⟩
  | succ fuel ih =>
    intro s t h
    simp only [run]
    have e : t.ctx.handlers[t.ctx.index]? = s.ctx.handlers[s.ctx.index]? := by
      rw [h.1.ht, h.1.hs, h.2.1]; exact shift_get h.2.2
    rw [e]
    cases hp : s.ctx.handlers[s.ctx.index]? with
    | none => exact ⟨rfl, h⟩
    | some p =>
      have de := dropEv_after h.2.2
      simp only [h.2.1]
      have h0 : Shift pre rest L (s.log (.start s.ctx.index)) (t.log (.start (s.ctx.index + 1))) :=
        ⟨h.1.log de.1, h.2⟩
      obtain ⟨h1, h2⟩ := shift_exec o req (run o req fuel) ih h.2.2 p _ _ h0
      rcases hs : exec o req (run o req fuel) s.ctx.index p (s.log (.start s.ctx.index)) with ⟨out, s1⟩
      rcases ht : exec o req (run o req fuel) (s.ctx.index + 1) p (t.log (.start (s.ctx.index + 1))) with ⟨out', t1⟩
      rw [hs, ht] at h1 h2
      simp only at h1 h2
      subst h1
      cases out' with
      | fuel => exact ⟨rfl, h2⟩
      | panic v => exact ⟨rfl, h2.1.log de.2.2.1, h2.2⟩
      | ret =>
        simp only
        have hw : t1.ctx.written = s1.ctx.written := h2.1.written
        have h3 : Shift pre rest L (s1.log (.stop s.ctx.index s1.ctx.written)).bump (t1.log (.stop (s.ctx.index + 1) t1.ctx.written)).bump := by
          refine ⟨(h2.1.log ?_).bump, ?_, ?_⟩
          · rw [hw]; exact de.2.1 _
          · simp only [St.bump, St.log]; have := h2.2.1; omega
          · simp only [St.bump, St.log]; have := h2.2.2; omega
        have hw' : (t1.log (.stop (s.ctx.index + 1) t1.ctx.written)).bump.ctx.written =
          (s1.log (.stop s.ctx.index s1.ctx.written)).bump.ctx.written := h3.1.written
        rw [hw']
        split
        · exact ⟨rfl, h3⟩
        · exact ih _ _ h3

theorem shift_runAll (o : Oracle) (req : Req) (h : Shift pre rest L s t) :
    (runAll o req t).1 = (runAll o req s).1 ∧ Shift pre rest L (runAll o req s).2 (runAll o req t).2 := by
  have ht : t.ctx.handlers.length = s.ctx.handlers.length + 1 := by rw [h.1.ht, h.1.hs]; simp; omega
  have e : run o req (t.ctx.handlers.length + 1) s = runAll o req s := by
    apply run_eq_runAll; omega
  have := shift_run o req (t.ctx.handlers.length + 1) s t h
  rw [e] at this
  exact this

/-- A chain that ends without panic and without a response has come to its end. -/
theorem run_finished (o : Oracle) (req : Req) (fuel : Nat) : ∀ s : St ω, (run o req fuel s).1 = .ret →
    (run o req fuel s).2.ctx.written = false → (run o req fuel s).2.ctx.handlers.length ≤ (run o req fuel s).2.ctx.index := by
  induction fuel with
  | zero => intro s h; cases h
  | succ fuel ih =>
    intro s
    simp only [run]
    cases hp : s.ctx.handlers[s.ctx.index]? with
    | none => intro _ _; exact List.getElem?_eq_none_iff.1 hp
    | some p =>
      simp only
      rcases hs : exec o req (run o req fuel) s.ctx.index p (s.log (.start s.ctx.index)) with ⟨out, s1⟩
      cases out with
      | fuel => intro h; cases h
      | panic v => intro h; cases h
      | ret =>
        simp only
        split
        · rename_i hw; intro _ h; rw [hw] at h; cases h
        · exact ih _

/-- the call respects the relation on worlds -/
def Resp (W : ω → ω → Prop) (c : Call ω) : Prop :=
  ∀ f, c = .world f → ∀ w w', W w w' → W (f w).1 (f w').1 ∧ (f w').2 = (f w).2

theorem callsIn_mono {A B : Call ω → Prop} (h : ∀ c, A c → B c) (p : Prog ω) : CallsIn A p → CallsIn B p := by
  induction p with
  | ret => exact id
  | panic v => exact id
  | next k ih => exact ih
  | call c k ih => exact fun hp => ⟨h _ hp.1, fun r => ih r (hp.2 r)⟩
  | scope b f ihb ihf => exact fun hp => ⟨ihb hp.1, fun r => ihf r (hp.2 r)⟩

theorem unaware_resp {R : ω → ω → Prop} (c : Call ω) (h : Unaware R c) : Resp R c := by
  rintro f rfl; exact h

theorem noNext_exec (o : Oracle) (req : Req) (nx nx' : St ω → Out × St ω) (i j : Nat) (p : Prog ω) :
    NoNext p → CallsIn (Resp W) p → ∀ s t, Rel pre rest L W s t →
      (exec o req nx' j p t).1 = (exec o req nx i p s).1 ∧ Rel pre rest L W (exec o req nx i p s).2 (exec o req nx' j p t).2 ∧
      (exec o req nx i p s).2.ctx.index = s.ctx.index ∧ (exec o req nx' j p t).2.ctx.index = t.ctx.index := by
  induction p with
  | ret => exact fun _ _ s t h => ⟨rfl, h, rfl, rfl⟩
  | panic v => exact fun _ _ s t h => ⟨rfl, h, rfl, rfl⟩
  | next k ih => exact fun h => h.elim
  | call c k ih =>
    intro hn hc s t h
    simp only [exec]
    obtain ⟨h1, h2, h3, h4⟩ := h.doCall (o := o) (req := req) c hc.1
    rcases hs : doCall o req s c with ⟨out, s1⟩
    rcases ht : doCall o req t c with ⟨out', t1⟩
    rw [hs] at h1 h2 h3; rw [ht] at h1 h2 h4
    simp only at h1 h2 h3 h4
    subst h1
    cases out' with
    | error v => exact ⟨rfl, h2, h3, h4⟩
    | ok r =>
      obtain ⟨g1, g2, g3, g4⟩ := ih r (hn r) (hc.2 r) _ _ h2
      exact ⟨g1, g2, g3.trans h3, g4.trans h4⟩
  | scope b f ihb ihf =>
    intro hn hc s t h
    simp only [exec]
    obtain ⟨h1, h2, h3, h4⟩ := ihb hn.1 hc.1 s t h
    rcases hs : exec o req nx i b s with ⟨out, s1⟩
    rcases ht : exec o req nx' j b t with ⟨out', t1⟩
    rw [hs] at h1 h2 h3; rw [ht] at h1 h2 h4
    simp only at h1 h2 h3 h4
    subst h1
    cases out' with
    | fuel => exact ⟨rfl, h2, h3, h4⟩
    | ret =>
      obtain ⟨g1, g2, g3, g4⟩ := ihf _ (hn.2 _) (hc.2 _) _ _ h2
      exact ⟨g1, g2, g3.trans h3, g4.trans h4⟩
    | panic v =>
      obtain ⟨g1, g2, g3, g4⟩ := ihf _ (hn.2 _) (hc.2 _) _ _ h2
      exact ⟨g1, g2, g3.trans h3, g4.trans h4⟩

/-- what the calls preserve, code without `Next` preserves -/
theorem noNext_inv (o : Oracle) (req : Req) (nx : St ω → Out × St ω) (i : Nat) (P : St ω → Prop) (A : Call ω → Prop)
    (hP : ∀ s c, A c → P s → P (doCall o req s c).2) (p : Prog ω) :
    NoNext p → CallsIn A p → ∀ s, P s → P (exec o req nx i p s).2 := by
  induction p with
  | ret => exact fun _ _ s h => h
  | panic v => exact fun _ _ s h => h
  | next k ih => exact fun h => h.elim
  | call c k ih =>
    intro hn hc s h
    simp only [exec]
    have h1 := hP s c hc.1 h
    rcases hs : doCall o req s c with ⟨out, s1⟩
    rw [hs] at h1
    cases out with
    | error v => exact h1
    | ok r => exact ih r (hn r) (hc.2 r) _ h1
  | scope b f ihb ihf =>
    intro hn hc s h
    simp only [exec]
    have h1 := ihb hn.1 hc.1 s h
    rcases hs : exec o req nx i b s with ⟨out, s1⟩
    rw [hs] at h1
    cases out with
    | fuel => exact h1
    | ret => exact ihf _ (hn.2 _) (hc.2 _) _ h1
    | panic v => exact ihf _ (hn.2 _) (hc.2 _) _ h1

/-! ### Logger in the chain -/

theorem doCall_body {R : ω → ω → Prop} (o : Oracle) (req : Req) (s : St ω) (c : Call ω) (hc : Unaware R c) :
    (doCall o req s c).2.body = s.body ∨ ∃ d n, s.body = some d ∧ (doCall o req s c).2.body = some (d.drop n) := by
  have hwh : ∀ (s : St ω) code, (s.writeHeader o code).2.body = s.body := by
    intro s code
    simp only [St.writeHeader]
    split <;> rfl
  cases c with
  | setBody d => exact hc.elim
  | readBody l =>
    simp only [doCall]
    cases hb : s.body with
    | none => exact .inl hb
    | some d => exact .inr ⟨d, _, rfl, rfl⟩
  | writeHeader code =>
    left
    simp only [doCall]
    rw [← hwh s code]
    rcases s.writeHeader o code with ⟨_ | _, s1⟩ <;> rfl
  | write d =>
    left
    have : (s.write o d).2.body = s.body := by
      simp only [St.write]
      split
      · rfl
      · rcases h : St.writeHeader o (if d.length > 0 ∧ s.rw.header.get kContentType = [] then
            { s with rw := { s.rw with header := s.rw.header.put kContentType (o.detect d) } } else s) 200 with ⟨p, s2⟩
        have h2 := hwh (if d.length > 0 ∧ s.rw.header.get kContentType = [] then
            { s with rw := { s.rw with header := s.rw.header.put kContentType (o.detect d) } } else s) 200
        rw [h] at h2
        have h3 : (if d.length > 0 ∧ s.rw.header.get kContentType = [] then
            ({ s with rw := { s.rw with header := s.rw.header.put kContentType (o.detect d) } } : St ω) else s).body = s.body := by
          split <;> rfl
        rw [h3] at h2
        cases p <;> exact h2
    simp only [doCall]
    rw [← this]
    rcases s.write o d with ⟨_ | _, s1⟩ <;> rfl
  | rawWriteHeader code =>
    left
    simp only [doCall]
    rcases s.rw.writeHeader o.bad code with ⟨_ | _, rw⟩ <;> rfl
  | param k => left; simp only [doCall]; split <;> rfl
  | envSet k v => left; simp only [doCall]; split <;> rfl
  | envGet k => left; simp only [doCall]; split <;> rfl
  | parseForm =>
    simp only [doCall, St.parseForm]
    cases s.ctx.parsedParams
    · simp only [Bool.false_eq_true, if_false]
      cases hb : s.body with
      | none => left; cases (o.parse req (wantsMultipart req) none).fails <;> rfl
      | some d => exact .inr ⟨d, _, rfl, by cases (o.parse req (wantsMultipart req) (some d)).fails <;> rfl⟩
    · exact .inl rfl
  | readForm f =>
    simp only [doCall, St.parseForm]
    cases s.ctx.parsedParams
    · simp only [Bool.false_eq_true, if_false]
      cases hb : s.body with
      | none => left; cases (o.parse req (wantsMultipart req) none).fails <;> rfl
      | some d => exact .inr ⟨d, _, rfl, by cases (o.parse req (wantsMultipart req) (some d)).fails <;> rfl⟩
    · exact .inl rfl
  | _ => left; rfl

theorem bodyKept_doCall {R : ω → ω → Prop} {closed withBody : Bool} (o : Oracle) (req : Req) (s : St ω) (c : Call ω)
    (hc : Unaware R c) (h : BodyKept closed withBody req s.body) : BodyKept closed withBody req (doCall o req s c).2.body := by
  rcases doCall_body o req s c hc with hb | ⟨d, n, hd, hb⟩
  · rw [hb]; exact h
  · rw [hb]
    rcases h with h | h | h | h | ⟨d', h, hl⟩
    · exact .inl h
    · exact .inr (.inl h)
    · rw [hd] at h; cases h
    · exact .inr (.inr (.inr (.inl h)))
    · rw [hd] at h; cases h
      exact .inr (.inr (.inr (.inr ⟨_, rfl, by rw [List.length_drop]; omega⟩)))

theorem unwriting_doCall (o : Oracle) (req : Req) (s : St ω) (c : Call ω) (hc : Unwriting c) (h : s.ctx.written = false) :
    (doCall o req s c).2.ctx.written = false := by
  cases c with
  | writeHeader code => exact hc.elim
  | write d => exact hc.elim
  | rawWriteHeader code =>
    simp only [doCall]
    rcases s.rw.writeHeader o.bad code with ⟨_ | _, rw⟩ <;> exact h
  | param k => simp only [doCall]; split <;> exact h
  | envSet k v => simp only [doCall]; split <;> exact h
  | envGet k => simp only [doCall]; split <;> exact h
  | readBody l => simp only [doCall]; split <;> exact h
  | parseForm =>
    simp only [doCall, St.parseForm]
    cases s.ctx.parsedParams
    · simp only [Bool.false_eq_true, if_false]
      cases (o.parse req (wantsMultipart req) s.body).fails <;> exact h
    · exact h
  | readForm f =>
    simp only [doCall, St.parseForm]
    cases s.ctx.parsedParams
    · simp only [Bool.false_eq_true, if_false]
      cases (o.parse req (wantsMultipart req) s.body).fails <;> exact h
    · exact h
  | _ => exact h

section logger
variable (pre rest) (closed withBody : Bool) (emit : List Str → Int → Str → ω → ω) (R : ω → ω → Prop) (req : Req)

/-- before the inserted Logger -/
def Tight (s t : St ω) : Prop :=
  Rel pre rest (logger closed withBody emit) Eq s t ∧ t.ctx.index = s.ctx.index ∧ s.ctx.index < pre.length ∧
  BodyKept closed withBody req s.body

/-- at the start of a run of the chain, not behind the inserted Logger -/
def Entry (s t : St ω) : Prop :=
  Rel pre rest (logger closed withBody emit) Eq s t ∧ t.ctx.index = s.ctx.index ∧ s.ctx.index ≤ pre.length ∧
  BodyKept closed withBody req s.body ∧ (closed = true → s.ctx.written = false)

/-- no handler will start any more -/
def Over (s t : St ω) : Prop :=
  Rel pre rest (logger closed withBody emit) R s t ∧
  (s.ctx.written = true ∨ (pre ++ rest).length ≤ s.ctx.index ∧ (pre ++ rest).length + 1 ≤ t.ctx.index)

/-- after code of handler `i` -/
def After (i : Nat) (s t : St ω) : Prop :=
  (Tight pre rest closed withBody emit req s t ∧ i ≤ s.ctx.index) ∨ Shift pre rest (logger closed withBody emit) s t ∨
  Over pre rest closed withBody emit R s t

end logger

section insert
variable {closed withBody : Bool} {emit : List Str → Int → Str → ω → ω} {R : ω → ω → Prop} {req : Req}

theorem After.log {i : Nat} {e e' : Event} (h : After pre rest closed withBody emit R req i s t)
    (he : dropEv pre.length e' = some e) : After pre rest closed withBody emit R req i (s.log e) (t.log e') := by
  rcases h with h | h | h
  · exact .inl ⟨⟨h.1.1.log he, h.1.2⟩, h.2⟩
  · exact .inr (.inl ⟨h.1.log he, h.2⟩)
  · exact .inr (.inr ⟨h.1.log he, h.2⟩)

theorem noNext_after (o : Oracle) (nx nx' : St ω → Out × St ω) (i j : Nat) (p : Prog ω) (hn : NoNext p)
    (hc : CallsIn (Unaware R) p) (m : Nat) (h : After pre rest closed withBody emit R req m s t) :
    (exec o req nx' j p t).1 = (exec o req nx i p s).1 ∧
    After pre rest closed withBody emit R req m (exec o req nx i p s).2 (exec o req nx' j p t).2 := by
  have hEq : CallsIn (Resp Eq) p := callsIn_mono (A := fun _ => True) (fun c _ => worldEq c) p (callsIn_true p)
  rcases h with h | h | h
  · obtain ⟨h1, h2, h3, h4⟩ := noNext_exec o req nx nx' i j p hn hEq _ _ h.1.1
    refine ⟨h1, .inl ⟨⟨h2, by rw [h3, h4]; exact h.1.2.1, by rw [h3]; exact h.1.2.2.1, ?_⟩, by rw [h3]; exact h.2⟩⟩
    exact noNext_inv o req nx i (fun s => BodyKept closed withBody req s.body) (Unaware R)
      (fun s c hc hs => bodyKept_doCall o req s c hc hs) p hn hc s h.1.2.2.2
  · obtain ⟨h1, h2, h3, h4⟩ := noNext_exec o req nx nx' i j p hn hEq _ _ h.1
    exact ⟨h1, .inr (.inl ⟨h2, by rw [h3, h4]; exact h.2.1, by rw [h3]; exact h.2.2⟩)⟩
  · obtain ⟨h1, h2, h3, h4⟩ := noNext_exec o req nx nx' i j p hn (callsIn_mono unaware_resp p hc) _ _ h.1
    refine ⟨h1, .inr (.inr ⟨h2, ?_⟩)⟩
    rcases h.2 with h | h
    · left
      refine noNext_inv o req nx i (fun s => s.ctx.written = true) (fun _ => True) (fun s c _ hs => ?_) p hn (callsIn_true p) s h
      rcases (doCall_frame o req s c).2.2.2 with e | e
      · exact e.trans hs
      · exact e
    · right; rw [h3, h4]; exact h

theorem once_exec (o : Oracle) (nx nx' : St ω → Out × St ω) (i : Nat) (hi : i < pre.length)
    (hnx : ∀ s t, Entry pre rest closed withBody emit req s t → i < s.ctx.index → (nx' t).1 = (nx s).1 ∧
      After pre rest closed withBody emit R req i (nx s).2 (nx' t).2) (p : Prog ω) :
    Once (fun c => closed = true → Unwriting c) p → CallsIn (Unaware R) p → ∀ s t, Tight pre rest closed withBody emit req s t →
      i ≤ s.ctx.index → (closed = true → s.ctx.written = false) →
      (exec o req nx' i p t).1 = (exec o req nx i p s).1 ∧
      After pre rest closed withBody emit R req i (exec o req nx i p s).2 (exec o req nx' i p t).2 := by
  have de := dropEv_before hi
  induction p with
  | ret => exact fun _ _ s t h hi _ => ⟨rfl, .inl ⟨h, hi⟩⟩
  | panic v => exact fun _ _ s t h hi _ => ⟨rfl, .inl ⟨h, hi⟩⟩
  | next k ih =>
    intro hn hc s t h hi hw
    simp only [exec]
    have h1 : Entry pre rest closed withBody emit req (s.log (.next i)).bump (t.log (.next i)).bump :=
      ⟨(h.1.log de.2.2.2.1).bump, by simp only [St.bump, St.log]; have := h.2.1; omega,
        by simp only [St.bump, St.log]; have := h.2.2.1; omega, h.2.2.2, hw⟩
    obtain ⟨h2, h3⟩ := hnx _ _ h1 (by simp only [St.bump, St.log]; omega)
    rcases hs : nx (s.log (.next i)).bump with ⟨out, s1⟩
    rcases ht : nx' (t.log (.next i)).bump with ⟨out', t1⟩
    rw [hs, ht] at h2 h3
    simp only at h2 h3
    subst h2
    cases out' with
    | fuel => exact ⟨rfl, h3⟩
    | panic v => exact ⟨rfl, h3.log de.2.2.2.2.2⟩
    | ret => exact noNext_after o nx nx' i i k hn hc i (h3.log de.2.2.2.2.1)
  | call c k ih =>
    intro hn hc s t h hi hw
    simp only [exec]
    obtain ⟨h1, h2, h3, h4⟩ := h.1.doCall (o := o) (req := req) c (worldEq c)
    have hb := bodyKept_doCall o req s c hc.1 h.2.2.2
    have hw' : closed = true → (doCall o req s c).2.ctx.written = false := fun hcl =>
      unwriting_doCall o req s c (hn.1 hcl) (hw hcl)
    rcases hs : doCall o req s c with ⟨out, s1⟩
    rcases ht : doCall o req t c with ⟨out', t1⟩
    rw [hs] at h1 h2 h3 hb hw'; rw [ht] at h1 h2 h4
    simp only at h1 h2 h3 h4 hb hw'
    subst h1
    have h5 : Tight pre rest closed withBody emit req s1 t1 :=
      ⟨h2, by rw [h3, h4]; exact h.2.1, by rw [h3]; exact h.2.2.1, hb⟩
    cases out' with
    | error v => exact ⟨rfl, .inl ⟨h5, by rw [h3]; exact hi⟩⟩
    | ok r => exact ih r (hn.2 r) (hc.2 r) _ _ h5 (by rw [h3]; exact hi) hw'
  | scope b f ihb ihf =>
    intro hn hc s t h hi hw
    simp only [exec]
    rcases hn with hn | hn
    · obtain ⟨h1, h2⟩ := ihb hn.1 hc.1 s t h hi hw
      rcases hs : exec o req nx i b s with ⟨out, s1⟩
      rcases ht : exec o req nx' i b t with ⟨out', t1⟩
      rw [hs, ht] at h1 h2
      simp only at h1 h2
      subst h1
      cases out' with
      | fuel => exact ⟨rfl, h2⟩
      | ret => exact noNext_after o nx nx' i i _ (hn.2 _) (hc.2 _) i h2
      | panic v => exact noNext_after o nx nx' i i _ (hn.2 _) (hc.2 _) i h2
    · have hEq : CallsIn (Resp Eq) b := callsIn_mono (A := fun _ => True) (fun c _ => worldEq c) b (callsIn_true b)
      obtain ⟨h1, h2, h3, h4⟩ := noNext_exec o req nx nx' i i b hn.1 hEq _ _ h.1
      have hb := noNext_inv o req nx i (fun s => BodyKept closed withBody req s.body) (Unaware R)
        (fun s c hc hs => bodyKept_doCall o req s c hc hs) b hn.1 hc.1 s h.2.2.2
      have hw' : closed = true → (exec o req nx i b s).2.ctx.written = false := fun hcl =>
        noNext_inv o req nx i (fun s => s.ctx.written = false) (fun c => closed = true → Unwriting c)
          (fun s c hc hs => unwriting_doCall o req s c (hc hcl) hs) b hn.1 hn.2.1 s (hw hcl)
      rcases hs : exec o req nx i b s with ⟨out, s1⟩
      rcases ht : exec o req nx' i b t with ⟨out', t1⟩
      rw [hs] at h1 h2 h3 hb hw'; rw [ht] at h1 h2 h4
      simp only at h1 h2 h3 h4 hb hw'
      subst h1
      have h5 : Tight pre rest closed withBody emit req s1 t1 :=
        ⟨h2, by rw [h3, h4]; exact h.2.1, by rw [h3]; exact h.2.2.1, hb⟩
      cases out' with
      | fuel => exact ⟨rfl, .inl ⟨h5, by rw [h3]; exact hi⟩⟩
      | ret => exact ihf _ (hn.2.2 _) (hc.2 _) _ _ h5 (by rw [h3]; exact hi) hw'
      | panic v => exact ihf _ (hn.2.2 _) (hc.2 _) _ _ h5 (by rw [h3]; exact hi) hw'

/-- An open Logger: the body, and then the rest. -/
theorem logger_tail (o : Oracle) (req : Req) (nx : St ω → Out × St ω) (i : Nat) (t : St ω) (withBody : Bool) :
    ∃ b, exec o req nx i (logger false withBody emit) t =
      exec o req nx i (loggerTail emit b) { t with body := loggedBody withBody req t.body } := by
  unfold logger loggedBody
  simp only [Bool.false_eq_true, if_false]
  cases withBody with
  | false => exact ⟨[], rfl⟩
  | true =>
    simp only [Bool.not_true, Bool.false_eq_true, if_false, exec, doCall, Bool.true_and]
    by_cases hj : containsStr (req.header.get kContentType) b!"application/json" = true
    · simp only [hj, if_true]
      rcases t with ⟨ctx, rw', body, forms, w, tr⟩
      cases body with
      | none => exact ⟨[], rfl⟩
      | some d => exact ⟨10 :: d.take logLimit, by simp [exec, doCall, Prog.do, hj]⟩
    · have hj' : containsStr (req.header.get kContentType) b!"application/json" = false := by simpa using hj
      simp only [hj', Bool.false_eq_true, if_false]
      rcases t with ⟨ctx, rw', body, forms, w, tr⟩
      cases body with
      | none => exact ⟨[], rfl⟩
      | some d => exact ⟨[], by simp [exec, doCall, hj']⟩

/-- An open Logger that keeps the body does nothing before `Next`. -/
theorem logger_open (o : Oracle) (nx : St ω → Out × St ω) (i : Nat) (t : St ω) (hb : BodyKept false withBody req t.body) :
    ∃ b, exec o req nx i (logger false withBody emit) t = exec o req nx i (loggerTail emit b) t := by
  unfold logger
  simp only [Bool.false_eq_true, if_false]
  cases withBody with
  | false => exact ⟨[], rfl⟩
  | true =>
    simp only [Bool.not_true, Bool.false_eq_true, if_false, exec, doCall]
    cases ht : t.body with
    | none => exact ⟨[], rfl⟩
    | some d =>
      simp only [Option.isSome_some, if_true, exec, doCall]
      by_cases hj : containsStr (req.header.get kContentType) b!"application/json" = true
      · simp only [hj, if_true, exec, doCall, ht, Option.getD_some]
        have hd : d.length ≤ logLimit := by
          rcases hb with h | h | h | h | ⟨d', h, hl⟩
          · cases h
          · cases h
          · rw [ht] at h; cases h
          · exact absurd ((containsStr_iff (by decide)).1 hj) h
          · rw [ht] at h; cases h; exact hl
        refine ⟨10 :: d.take logLimit, ?_⟩
        simp only [Prog.do, exec, doCall]
        rw [List.take_of_length_le hd]
        congr 1
        cases t; cases ht; rfl
      · simp only [hj]; exact ⟨[], rfl⟩

theorem insert_runAll (o : Oracle) (hpre : ∀ p ∈ pre, Once (fun c => closed = true → Unwriting c) p ∧ CallsIn (Unaware R) p)
    (hR : ∀ w, R w w) (hem : ∀ a st b w, R w (emit a st b w)) :
    ∀ d s t, pre.length - s.ctx.index = d → Entry pre rest closed withBody emit req s t →
      (runAll o req t).1 = (runAll o req s).1 ∧
      After pre rest closed withBody emit R req s.ctx.index (runAll o req s).2 (runAll o req t).2 := by
  have hRE : ∀ w w' : ω, w = w' → R w w' := by rintro w _ rfl; exact hR w
  intro d
  induction d using Nat.strongRecOn with
  | ind d ih =>
    intro s t hd h
    by_cases hk : s.ctx.index < pre.length
    · -- a handler before Logger
      obtain ⟨p, hp, hmem⟩ : ∃ p, pre[s.ctx.index]? = some p ∧ p ∈ pre :=
        ⟨pre[s.ctx.index], List.getElem?_eq_getElem hk, List.getElem_mem hk⟩
      have de := dropEv_before hk
      rw [runAll_unfold o req s, runAll_unfold o req t, h.1.hs, h.1.ht, h.2.1, List.getElem?_append_left hk,
        List.getElem?_append_left hk, hp]
      simp only
      have h0 : Tight pre rest closed withBody emit req (s.log (.start s.ctx.index)) (t.log (.start s.ctx.index)) :=
        ⟨h.1.log de.1, h.2.1, hk, h.2.2.2.1⟩
      obtain ⟨h1, h2⟩ := once_exec o (runAll o req) (runAll o req) s.ctx.index hk (R := R) (rest := rest) (fun s' t' he hlt => by
        obtain ⟨g1, g2⟩ := ih (pre.length - s'.ctx.index) (by have := he.2.2.1; omega) s' t' rfl he
        refine ⟨g1, ?_⟩
        rcases g2 with g | g | g
        · exact .inl ⟨g.1, by have := g.2; omega⟩
        · exact .inr (.inl g)
        · exact .inr (.inr g)) p (hpre p hmem).1 (hpre p hmem).2 _ _ h0 (Nat.le_refl _) h.2.2.2.2
      rcases hs : exec o req (runAll o req) s.ctx.index p (s.log (.start s.ctx.index)) with ⟨out, s1⟩
      rcases ht : exec o req (runAll o req) s.ctx.index p (t.log (.start s.ctx.index)) with ⟨out', t1⟩
      rw [hs, ht] at h1 h2
      simp only at h1 h2
      subst h1
      cases out' with
      | fuel => exact ⟨rfl, h2⟩
      | panic v => exact ⟨rfl, h2.log de.2.2.1⟩
      | ret =>
        simp only
        have hw : t1.ctx.written = s1.ctx.written := by
          rcases h2 with g | g | g
          · exact g.1.1.written
          · exact g.1.written
          · exact g.1.written
        rw [hw]
        have h3 := h2.log (e := .stop s.ctx.index s1.ctx.written) (e' := .stop s.ctx.index s1.ctx.written) (de.2.1 _)
        have e1 : (s1.log (.stop s.ctx.index s1.ctx.written)).bump.ctx.written = s1.ctx.written := rfl
        have e2 : (t1.log (.stop s.ctx.index s1.ctx.written)).bump.ctx.written = s1.ctx.written := hw
        rw [e1, e2]
        by_cases hwr : s1.ctx.written = true
        · rw [if_pos hwr, if_pos hwr]
          refine ⟨rfl, ?_⟩
          rcases h3 with g | g | g
          · exact .inr (.inr ⟨(g.1.1.mono hRE).bump, .inl hwr⟩)
          · exact .inr (.inr ⟨(g.1.mono hRE).bump, .inl hwr⟩)
          · exact .inr (.inr ⟨g.1.bump, .inl hwr⟩)
        · rw [if_neg hwr, if_neg hwr]
          rcases h3 with g | g | g
          · have hen : Entry pre rest closed withBody emit req (s1.log (.stop s.ctx.index s1.ctx.written)).bump
                (t1.log (.stop s.ctx.index s1.ctx.written)).bump :=
              ⟨g.1.1.bump, by simp only [St.bump]; rw [g.1.2.1], by simp only [St.bump]; exact g.1.2.2.1, g.1.2.2.2,
                fun _ => by rw [e1]; simpa using hwr⟩
            have hlt : s.ctx.index < (s1.log (.stop s.ctx.index s1.ctx.written)).bump.ctx.index := by
              simp only [St.bump]; have := g.2; omega
            obtain ⟨g1, g2⟩ := ih (pre.length - (s1.log (.stop s.ctx.index s1.ctx.written)).bump.ctx.index)
              (by omega) _ _ rfl hen
            refine ⟨g1, ?_⟩
            rcases g2 with g | g | g
            · exact .inl ⟨g.1, by have := g.2; omega⟩
            · exact .inr (.inl g)
            · exact .inr (.inr g)
          · have hsh : Shift pre rest (logger closed withBody emit) (s1.log (.stop s.ctx.index s1.ctx.written)).bump
                (t1.log (.stop s.ctx.index s1.ctx.written)).bump :=
              ⟨g.1.bump, by simp only [St.bump]; rw [g.2.1], by simp only [St.bump]; have := g.2.2; omega⟩
            obtain ⟨g1, g2⟩ := shift_runAll o req hsh
            exact ⟨g1, .inr (.inl g2)⟩
          · rcases g.2 with g3 | g3
            · exact absurd g3 hwr
            · have n1 : (s1.log (.stop s.ctx.index s1.ctx.written)).bump.ctx.handlers[
                  (s1.log (.stop s.ctx.index s1.ctx.written)).bump.ctx.index]? = none := by
                rw [g.1.bump.hs]; apply List.getElem?_eq_none; simp only [St.bump]; omega
              have n2 : (t1.log (.stop s.ctx.index s1.ctx.written)).bump.ctx.handlers[
                  (t1.log (.stop s.ctx.index s1.ctx.written)).bump.ctx.index]? = none := by
                rw [g.1.bump.ht]; apply List.getElem?_eq_none; simp only [St.bump]
                have := g3.2; simp only [List.length_append, List.length_cons] at *; omega
              rw [runAll_unfold o req (s1.log _).bump, runAll_unfold o req (t1.log _).bump, n1, n2]
              exact ⟨rfl, .inr (.inr ⟨g.1.bump, .inr (by simp only [St.bump]; omega)⟩)⟩
    · -- Logger
      have hk' : s.ctx.index = pre.length := by have := h.2.2.1; omega
      have de := dropEv_self (k := pre.length)
      have hg : t.ctx.handlers[t.ctx.index]? = some (logger closed withBody emit) := by
        rw [h.1.ht, h.2.1, hk', List.getElem?_append_right (Nat.le_refl _)]; simp
      rw [runAll_unfold o req t, hg]
      simp only [h.2.1, hk']
      by_cases hcl : closed = true
      · subst hcl
        have hw := h.2.2.2.2 rfl
        simp only [logger, if_true, exec]
        have hsh : Shift pre rest (logger true withBody emit) s
            ((t.log (.start pre.length)).log (.stop pre.length (t.log (.start pre.length)).ctx.written)).bump :=
          ⟨((h.1.logR de.1).logR (de.2.1 _)).bumpR, by simp only [St.bump, St.log]; rw [h.2.1], by omega⟩
        rw [if_neg (by rw [hsh.1.written, hw]; decide)]
        obtain ⟨g1, g2⟩ := shift_runAll o req hsh
        exact ⟨g1, .inr (.inl g2)⟩
      · have hcl : closed = false := by simpa using hcl
        subst hcl
        obtain ⟨b, hb⟩ := logger_open o (emit := emit) (runAll o req) pre.length (t.log (.start pre.length))
          (by show BodyKept false withBody req t.body; rw [h.1.body]; exact h.2.2.2.1)
        rw [hb]
        simp only [loggerTail, exec]
        have hsh : Shift pre rest (logger false withBody emit) s ((t.log (.start pre.length)).log (.next pre.length)).bump :=
          ⟨((h.1.logR de.1).logR de.2.2.2.1).bumpR, by simp only [St.bump, St.log]; rw [h.2.1], by omega⟩
        obtain ⟨g1, g2⟩ := shift_runAll o req hsh
        have hfin := run_finished o req (s.ctx.handlers.length + 1) s
        have hfin : (runAll o req s).1 = .ret → (runAll o req s).2.ctx.written = false →
          (runAll o req s).2.ctx.handlers.length ≤ (runAll o req s).2.ctx.index := hfin
        rcases hs : runAll o req s with ⟨out, s1⟩
        rcases ht : runAll o req ((t.log (.start pre.length)).log (.next pre.length)).bump with ⟨out', t1⟩
        rw [hs, ht] at g1 g2
        rw [hs] at hfin
        simp only at g1 g2 hfin
        subst g1
        cases out' with
        | fuel => exact ⟨rfl, .inr (.inl g2)⟩
        | panic v => exact ⟨rfl, .inr (.inl ⟨(g2.1.logR de.2.2.2.2.2).logR de.2.2.1, g2.2⟩)⟩
        | ret =>
          simp only [doCall, Prog.do, exec]
          have hR1 : Rel pre rest (logger false withBody emit) R s1
              ({ (t1.log (.back pre.length)) with world := emit (asked req) t1.ctx.status b t1.world } : St ω) := by
            have g3 := g2.1.logR (e' := .back pre.length) de.2.2.2.2.1
            refine ⟨g3.hs, ?_, ?_, g3.trace⟩
            · conv => lhs; rw [g3.same]
              rfl
            · rw [g3.world]; exact hem _ _ _ _
          have hR2 := (hR1.logR (e' := .stop pre.length t1.ctx.written) (de.2.1 _)).bumpR
          have fin : ∀ t2 : St ω, Rel pre rest (logger false withBody emit) R s1 t2 → t2.ctx.index = t1.ctx.index + 1 →
              (if t2.ctx.written = true then (Out.ret, t2) else runAll o req t2).1 = .ret ∧
              After pre rest false withBody emit R req pre.length s1 (if t2.ctx.written = true then (Out.ret, t2) else runAll o req t2).2 := by
            intro t2 h2 hi2
            by_cases hw' : t2.ctx.written = true
            · rw [if_pos hw']
              exact ⟨rfl, .inr (.inr ⟨h2, .inl (h2.written.symm.trans hw')⟩)⟩
            · rw [if_neg hw']
              have hw2 : s1.ctx.written = false := by rw [← h2.written]; simpa using hw'
              have hf := hfin rfl hw2
              rw [h2.hs] at hf
              have hidx := g2.2.1
              have n2 : t2.ctx.handlers[t2.ctx.index]? = none := by
                rw [h2.ht]; apply List.getElem?_eq_none
                simp only [List.length_append, List.length_cons] at *; omega
              rw [runAll_unfold o req t2, n2]
              exact ⟨rfl, .inr (.inr ⟨h2, .inr ⟨hf, by show _ ≤ t2.ctx.index; omega⟩⟩)⟩
          exact fin _ hR2 rfl

end insert

/-- `run_inv` where only the handlers reached have to make allowed calls. -/
theorem run_inv_at (o : Oracle) (req : Req) (P : St ω → Prop) (A : Call ω → Prop)
    (hlog : ∀ s e, P s → P (s.log e)) (hbump : ∀ s, P s → P s.bump)
    (hcall : ∀ s c, A c → P s → P (doCall o req s c).2)
    (hP : ∀ s, P s → ∀ h, s.ctx.handlers[s.ctx.index]? = some h → CallsIn A h) (fuel : Nat) :
    ∀ s, P s → P (run o req fuel s).2 := by
  induction fuel with
  | zero => intro s hs; exact hs
  | succ fuel ih =>
    intro s hs
    simp only [run]
    rcases hh : s.ctx.handlers[s.ctx.index]? with _ | h
    · exact hs
    · simp only
      have h1 := exec_inv o req P A (run o req fuel) (fun s e _ => hlog s e) hbump hcall ih s.ctx.index h
        (hP s hs h hh) _ (hlog s (.start s.ctx.index) hs)
      rcases hr : exec o req (run o req fuel) s.ctx.index h (s.log (.start s.ctx.index)) with ⟨out, s1⟩
      rw [hr] at h1
      cases out with
      | fuel => exact h1
      | panic v => exact hlog _ _ h1
      | ret =>
        have h2 := hbump _ (hlog s1 (.stop s.ctx.index s1.ctx.written) h1)
        simp only
        split
        · exact h2
        · exact ih _ h2

/-! ### CORS -/

theorem exec_addHeader (o : Oracle) (req : Req) (nx : St ω → Out × St ω) (i : Nat) (k v : Str) (p : Prog ω) (s : St ω) :
    exec o req nx i (.addHeader k v p) s = exec o req nx i p (withHeader s (s.rw.header.add k v)) := rfl

theorem exec_setHeader (o : Oracle) (req : Req) (nx : St ω → Out × St ω) (i : Nat) (k v : Str) (p : Prog ω) (s : St ω) :
    exec o req nx i (.do (.setHeader k v) p) s = exec o req nx i p (withHeader s (s.rw.header.put k v)) := rfl

theorem exec_setHeaderIf (o : Oracle) (req : Req) (nx : St ω → Out × St ω) (i : Nat) (b : Bool) (k v : Str) (p : Prog ω) (s : St ω) :
    exec o req nx i (.setHeaderIf b k v p) s =
      exec o req nx i p (withHeader s (if b then s.rw.header.put k v else s.rw.header)) := by
  cases b <;> rfl

theorem withHeader_withHeader (s : St ω) (h h' : Header) : withHeader (withHeader s h) h' = withHeader s h' := rfl
theorem withHeader_header (s : St ω) (h : Header) : (withHeader s h).rw.header = h := rfl

theorem allowed_corsOrigin (origins : List Str) (origin : Str) : Allowed origins origin (corsOrigin origins origin) := by
  unfold corsOrigin Allowed
  induction origins with
  | nil => exact .inr ⟨rfl, by simp⟩
  | cons o os ih =>
    by_cases h : (o == b!"*" || o == origin) = true
    · simp only [List.find?_cons, h]
      left
      refine ⟨[], os, rfl, ?_, by simp⟩
      simpa [LetsIn] using h
    · have h' : (o == b!"*" || o == origin) = false := by simpa using h
      have hn : ¬ LetsIn origin o := by simpa [LetsIn] using h'
      simp only [List.find?_cons, h']
      rcases ih with ⟨p, q, h1, h2, h3⟩ | ⟨h1, h2⟩
      · left
        refine ⟨o :: p, q, by rw [List.cons_append, ← h1], h2, ?_⟩
        intro x hx
        rcases List.mem_cons.1 hx with rfl | hx
        · exact hn
        · exact h3 x hx
      · right
        refine ⟨h1, ?_⟩
        intro x hx
        rcases List.mem_cons.1 hx with rfl | hx
        · exact hn
        · exact h2 x hx

theorem corsDefaults_origins (c : CORSConfig) : (corsDefaults c).allowOrigins = originsOf c := by
  unfold corsDefaults originsOf
  by_cases h1 : c.allowOrigins = [] <;> by_cases h2 : c.allowMethods = [] <;> simp [h1, h2, List.length_eq_zero_iff, defaultCORS]

theorem corsDefaults_methods (c : CORSConfig) : (corsDefaults c).allowMethods = methodsOf c := by
  unfold corsDefaults methodsOf
  by_cases h1 : c.allowOrigins = [] <;> by_cases h2 : c.allowMethods = [] <;> simp [h1, h2, List.length_eq_zero_iff, defaultCORS]

theorem corsDefaults_rest (c : CORSConfig) : (corsDefaults c).allowHeaders = c.allowHeaders ∧
    (corsDefaults c).allowCredentials = c.allowCredentials ∧ (corsDefaults c).exposeHeaders = c.exposeHeaders ∧
    (corsDefaults c).maxAge = c.maxAge := by
  unfold corsDefaults
  by_cases h1 : c.allowOrigins = [] <;> by_cases h2 : c.allowMethods = [] <;> simp [h1, h2, List.length_eq_zero_iff]

theorem put_canon {k : Str} (hk : canonKey k = k) (h : Header) (v : Str) : h.put k v = Map.set h k [v] := by
  unfold Header.put; rw [hk]
theorem add_canon {k : Str} (hk : canonKey k = k) (h : Header) (v : Str) : h.add k v = Map.set h k ((h k).getD [] ++ [v]) := by
  unfold Header.add; rw [hk]

theorem set_ne {κ ν : Type} [DecidableEq κ] (m : Map κ ν) {k k' : κ} (v : ν) (h : k' ≠ k) : Map.set m k v k' = m k' := by
  simp [Map.set, h]
theorem set_eq {κ ν : Type} [DecidableEq κ] (m : Map κ ν) (k : κ) (v : ν) : Map.set m k v k = some v := by
  simp [Map.set]

/-- set on a condition -/
def setIf (b : Bool) (h : Header) (k : Str) (v : List Str) : Header := if b then Map.set h k v else h

theorem setIf_ne (b : Bool) (h : Header) {k k' : Str} (v : List Str) (hk : k' ≠ k) : setIf b h k v k' = h k' := by
  cases b
  · rfl
  · exact set_ne h v hk
theorem setIf_eq (b : Bool) (h : Header) (k : Str) (v : List Str) : setIf b h k v k = if b then some v else h k := by
  cases b
  · rfl
  · exact set_eq h k v

theorem put_setIf {k : Str} (hk : canonKey k = k) (b : Bool) (h : Header) (v : Str) :
    (if b then h.put k v else h) = setIf b h k [v] := by
  rw [put_canon hk]; rfl

/-- the header map after CORS for a request that is no preflight -/
def simpleH (cfg : CORSConfig) (req : Req) (h : Header) : Header :=
  let h := Map.set h hVary ((h hVary).getD [] ++ [hOrigin])
  let h := Map.set h hAllowOrigin [corsOrigin (originsOf cfg) (req.header.get hOrigin)]
  let h := setIf cfg.allowCredentials h hAllowCredentials [b!"true"]
  setIf (join b!"," cfg.exposeHeaders != []) h hExposeHeaders [join b!"," cfg.exposeHeaders]

theorem simpleH_spec (cfg : CORSConfig) (req : Req) (h : Header) : SimpleHeaders cfg req h (simpleH cfg req h) := by
  have a : hExposeHeaders = b!"Access-Control-Expose-Headers" := rfl
  have b : hAllowCredentials = b!"Access-Control-Allow-Credentials" := rfl
  have c : hAllowOrigin = b!"Access-Control-Allow-Origin" := rfl
  have d : hVary = b!"Vary" := rfl
  constructor
  · simp only [simpleH]
    rw [setIf_ne _ _ _ (by decide), setIf_ne _ _ _ (by decide), set_ne _ _ (by decide), d, set_eq]
    rfl
  · refine ⟨_, ?_, allowed_corsOrigin _ _⟩
    simp only [simpleH]
    rw [setIf_ne _ _ _ (by decide), setIf_ne _ _ _ (by decide), c, set_eq]
    rfl
  · simp only [simpleH]
    rw [setIf_ne _ _ _ (by decide), b, setIf_eq, set_ne _ _ (by decide), set_ne _ _ (by decide)]
  · simp only [simpleH]
    rw [a, setIf_eq, setIf_ne _ _ _ (by decide), set_ne _ _ (by decide), set_ne _ _ (by decide)]
    by_cases hj : join b!"," cfg.exposeHeaders = [] <;> simp [hj]
  · intro k hk
    simp only [List.mem_cons, List.not_mem_nil, or_false, not_or] at hk
    simp only [simpleH]
    rw [setIf_ne _ _ _ (by rw [a]; exact hk.2.2.2), setIf_ne _ _ _ (by rw [b]; exact hk.2.2.1), set_ne _ _ (by rw [c]; exact hk.2.1),
      set_ne _ _ (by rw [d]; exact hk.1)]

theorem cors_simple (o : Oracle) (req : Req) (nx : St ω → Out × St ω) (i : Nat) (cfg : CORSConfig) (s : St ω)
    (hm : req.method ≠ mOPTIONS) :
    exec o req nx i (cors cfg) s = exec o req nx i (.next .ret) (withHeader s (simpleH cfg req s.rw.header)) := by
  have hm' : (Res.str req.method != .str mOPTIONS) = true := by simpa using hm
  obtain ⟨e1, e2, e3, e4⟩ := corsDefaults_rest cfg
  have e0 : exec o req nx i (cors cfg) s =
      exec o req nx i (corsSimple (corsDefaults cfg) (corsOrigin (corsDefaults cfg).allowOrigins (req.header.get hOrigin))) s := by
    simp only [cors, exec, doCall, hm', if_true]
  rw [e0, corsDefaults_origins, corsSimple, e2, e3]
  simp only [exec_addHeader, exec_setHeader, exec_setHeaderIf, withHeader_withHeader, withHeader_header,
    add_canon (show canonKey hVary = hVary by decide), put_canon (show canonKey hAllowOrigin = hAllowOrigin by decide),
    put_setIf (show canonKey hAllowCredentials = hAllowCredentials by decide),
    put_setIf (show canonKey hExposeHeaders = hExposeHeaders by decide)]
  rfl

/-- the header map after CORS for a preflight request -/
def preflightH (cfg : CORSConfig) (req : Req) (h : Header) : Header :=
  let h := Map.set h hVary ((h hVary).getD [] ++ [hOrigin] ++ [hRequestMethod] ++ [hRequestHeaders])
  let h := Map.set h hAllowOrigin [corsOrigin (originsOf cfg) (req.header.get hOrigin)]
  let h := Map.set h hAllowMethods [join b!"," (methodsOf cfg)]
  let h := setIf cfg.allowCredentials h hAllowCredentials [b!"true"]
  let h := if join b!"," cfg.allowHeaders != [] then Map.set h hAllowHeaders [join b!"," cfg.allowHeaders]
    else setIf (req.header.get hRequestHeaders != []) h hAllowHeaders [req.header.get hRequestHeaders]
  setIf (decide (cfg.maxAge > 0)) h hMaxAge [itoa cfg.maxAge]

theorem set_set {κ ν : Type} [DecidableEq κ] (m : Map κ ν) (k : κ) (v w : ν) : Map.set (Map.set m k v) k w = Map.set m k w := by
  funext x; simp only [Map.set]; split <;> rfl

theorem ite_setIf_ne (b c : Bool) (h : Header) {k k' : Str} (v w : List Str) (hk : k' ≠ k) :
    (if b then Map.set h k v else setIf c h k w) k' = h k' := by
  cases b
  · exact setIf_ne c h w hk
  · exact set_ne h v hk

theorem preflightH_spec (cfg : CORSConfig) (req : Req) (h : Header) : PreflightHeaders cfg req h (preflightH cfg req h) := by
  have a : hMaxAge = b!"Access-Control-Max-Age" := rfl
  have b : hAllowHeaders = b!"Access-Control-Allow-Headers" := rfl
  have b' : hAllowCredentials = b!"Access-Control-Allow-Credentials" := rfl
  have b'' : hAllowMethods = b!"Access-Control-Allow-Methods" := rfl
  have c : hAllowOrigin = b!"Access-Control-Allow-Origin" := rfl
  have d : hVary = b!"Vary" := rfl
  have d' : hRequestHeaders = b!"Access-Control-Request-Headers" := rfl
  constructor
  · simp only [preflightH]
    rw [setIf_ne _ _ _ (by decide), ite_setIf_ne _ _ _ _ _ (by decide), setIf_ne _ _ _ (by decide), set_ne _ _ (by decide),
      set_ne _ _ (by decide), d, set_eq]
    simp only [List.append_assoc]
    rfl
  · refine ⟨_, ?_, allowed_corsOrigin _ _⟩
    simp only [preflightH]
    rw [setIf_ne _ _ _ (by decide), ite_setIf_ne _ _ _ _ _ (by decide), setIf_ne _ _ _ (by decide), set_ne _ _ (by decide),
      c, set_eq]
    rfl
  · simp only [preflightH]
    rw [setIf_ne _ _ _ (by decide), ite_setIf_ne _ _ _ _ _ (by decide), setIf_ne _ _ _ (by decide), b'', set_eq]
  · simp only [preflightH]
    rw [setIf_ne _ _ _ (by decide), ite_setIf_ne _ _ _ _ _ (by decide), b', setIf_eq, set_ne _ _ (by decide), set_ne _ _ (by decide),
      set_ne _ _ (by decide)]
  · simp only [preflightH]
    rw [setIf_ne _ _ _ (by decide), b, d']
    by_cases hj : join b!"," cfg.allowHeaders = []
    · simp only [hj, bne_self_eq_false, Bool.false_eq_true, if_false, ne_eq, not_true_eq_false]
      rw [setIf_eq, setIf_ne _ _ _ (by decide), set_ne _ _ (by decide), set_ne _ _ (by decide), set_ne _ _ (by decide)]
      by_cases hr : req.header.get b!"Access-Control-Request-Headers" = []
      · simp [hr]
      · simp [hr]
    · have hj' : (join b!"," cfg.allowHeaders != []) = true := by simpa using hj
      simp only [hj', if_true, ne_eq, hj, not_false_eq_true]
      rw [set_eq]
  · simp only [preflightH]
    rw [a, setIf_eq, ite_setIf_ne _ _ _ _ _ (by decide), setIf_ne _ _ _ (by decide), set_ne _ _ (by decide), set_ne _ _ (by decide),
      set_ne _ _ (by decide)]
    by_cases hj : cfg.maxAge > 0 <;> simp [hj]
  · intro k hk
    simp only [List.mem_cons, List.not_mem_nil, or_false, not_or] at hk
    obtain ⟨k1, k2, k3, k4, k5, k6⟩ := hk
    simp only [preflightH]
    rw [setIf_ne _ _ _ (by rw [a]; exact k6), ite_setIf_ne _ _ _ _ _ (by rw [b]; exact k5), setIf_ne _ _ _ (by rw [b']; exact k4),
      set_ne _ _ (by rw [b'']; exact k3), set_ne _ _ (by rw [c]; exact k2), set_ne _ _ (by rw [d]; exact k1)]

theorem cors_preflight (o : Oracle) (req : Req) (nx : St ω → Out × St ω) (i : Nat) (cfg : CORSConfig) (s : St ω)
    (hm : req.method = mOPTIONS) :
    exec o req nx i (cors cfg) s = exec o req nx i (.do (.writeHeader 204) .ret) (withHeader s (preflightH cfg req s.rw.header)) := by
  have hm' : (Res.str req.method != .str mOPTIONS) = false := by simpa using hm
  obtain ⟨e1, e2, e3, e4⟩ := corsDefaults_rest cfg
  have e0 : exec o req nx i (cors cfg) s =
      exec o req nx i (corsPreflight (corsDefaults cfg) (corsOrigin (corsDefaults cfg).allowOrigins (req.header.get hOrigin))) s := by
    simp only [cors, exec, doCall, hm', Bool.false_eq_true, if_false]
  rw [e0, corsDefaults_origins, corsPreflight, corsDefaults_methods, e1, e2, e4]
  by_cases hj : (join b!"," cfg.allowHeaders != []) = true
  · simp only [hj, if_true, exec_addHeader, exec_setHeader, exec_setHeaderIf, withHeader_withHeader, withHeader_header,
      add_canon (show canonKey hVary = hVary by decide), put_canon (show canonKey hAllowOrigin = hAllowOrigin by decide),
      put_canon (show canonKey hAllowMethods = hAllowMethods by decide),
      put_canon (show canonKey hAllowHeaders = hAllowHeaders by decide),
      put_setIf (show canonKey hAllowCredentials = hAllowCredentials by decide),
      put_setIf (show canonKey hMaxAge = hMaxAge by decide), set_eq, set_set, Option.getD_some]
    simp only [preflightH, hj, if_true]
  · have hj' : (join b!"," cfg.allowHeaders != []) = false := by simpa using hj
    have hex : ∀ (f : Res → Prog ω) (s : St ω), exec o req nx i (.call (.reqHeader hRequestHeaders) f) s =
      exec o req nx i (f (.str (req.header.get hRequestHeaders))) s := fun _ _ => rfl
    simp only [hj', Bool.false_eq_true, if_false, hex, exec_addHeader, exec_setHeader, exec_setHeaderIf, withHeader_withHeader,
      withHeader_header, add_canon (show canonKey hVary = hVary by decide),
      put_canon (show canonKey hAllowOrigin = hAllowOrigin by decide),
      put_canon (show canonKey hAllowMethods = hAllowMethods by decide),
      put_setIf (show canonKey hAllowHeaders = hAllowHeaders by decide),
      put_setIf (show canonKey hAllowCredentials = hAllowCredentials by decide),
      put_setIf (show canonKey hMaxAge = hMaxAge by decide), set_eq, set_set, Option.getD_some]
    simp only [preflightH, hj', Bool.false_eq_true, if_false]

end Water
