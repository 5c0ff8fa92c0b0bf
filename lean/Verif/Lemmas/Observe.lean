import Verif.Spec.Observe
import Verif.Lemmas.Chain
/- The diary kept by instrumented handlers is the trace. -/
namespace Water
open Spec
variable {ω : Type}

/-- the context of the instrumented chain -/
def upCtx (c : Ctx ω) : Ctx (ω × List Event) where
  environ := c.environ
  params := c.params
  handlers := c.handlers.mapIdx diary
  index := c.index
  written := c.written
  status := c.status
  fullPath := c.fullPath
  parsedParams := c.parsedParams

/-- the state of the instrumented chain: the diary is `d` -/
def upSt (s : St ω) (d : List Event) : St (ω × List Event) where
  ctx := upCtx s.ctx
  rw := s.rw
  body := s.body
  forms := s.forms
  world := (s.world, d)
  trace := s.trace
  form := s.form

theorem upSt_doCall (o : Oracle) (req : Req) (s : St ω) (d : List Event) (c : Call ω) :
    doCall o req (upSt s d) (liftCall c) = ((doCall o req s c).1, upSt (doCall o req s c).2 d) := by
  have wh : ∀ (s : St ω) code, (upSt s d).writeHeader o code = ((s.writeHeader o code).1, upSt (s.writeHeader o code).2 d) := by
    intro s code
    have e : (upSt s d).ctx.written = s.ctx.written := rfl
    simp only [St.writeHeader, e]
    by_cases hw : s.ctx.written = true
    · simp only [hw, if_true]
    · simp only [hw]; rfl
  cases c with
  | writeHeader code =>
    simp only [liftCall, doCall, wh]
    rcases s.writeHeader o code with ⟨p, s2⟩
    cases p <;> rfl
  | write data =>
    have hw : (upSt s d).write o data = ((s.write o data).1, upSt (s.write o data).2 d) := by
      simp only [St.write]
      have e : (upSt s d).ctx.written = s.ctx.written := rfl
      rw [e]
      split
      · rfl
      · have e2 : (if data.length > 0 ∧ (upSt s d).rw.header.get kContentType = [] then
            ({ (upSt s d) with rw := { (upSt s d).rw with header := (upSt s d).rw.header.put kContentType (o.detect data) } } :
              St (ω × List Event)) else upSt s d) =
            upSt (if data.length > 0 ∧ s.rw.header.get kContentType = [] then
              ({ s with rw := { s.rw with header := s.rw.header.put kContentType (o.detect data) } } : St ω) else s) d := by
          have e3 : (upSt s d).rw = s.rw := rfl
          rw [e3]
          split <;> rfl
        rw [e2, wh]
        rcases St.writeHeader o _ 200 with ⟨p, s2⟩
        cases p <;> rfl
    simp only [liftCall, doCall, hw]
    rcases s.write o data with ⟨p, s2⟩
    cases p <;> rfl
  | rawWriteHeader code =>
    simp only [liftCall, doCall]
    have e : (upSt s d).rw = s.rw := rfl
    rw [e]
    rcases s.rw.writeHeader o.bad code with ⟨p, rw⟩
    cases p <;> rfl
  | param k =>
    simp only [liftCall, doCall]
    have e : (upSt s d).ctx.params = s.ctx.params := rfl
    rw [e]
    split <;> rfl
  | envSet k v =>
    simp only [liftCall, doCall]
    have e : (upSt s d).ctx.environ = s.ctx.environ := rfl
    rw [e]
    split <;> rfl
  | envGet k =>
    simp only [liftCall, doCall]
    have e : (upSt s d).ctx.environ = s.ctx.environ := rfl
    rw [e]
    split <;> rfl
  | readBody l =>
    simp only [liftCall, doCall]
    have e : (upSt s d).body = s.body := rfl
    rw [e]
    split <;> rfl
  | parseForm =>
    simp only [liftCall, doCall, St.parseForm]
    have e : (upSt s d).ctx.parsedParams = s.ctx.parsedParams := rfl
    have e2 : (upSt s d).body = s.body := rfl
    rw [e, e2]
    cases s.ctx.parsedParams
    · simp only [Bool.false_eq_true, if_false]
      cases (o.parse req (wantsMultipart req) s.body).fails <;> rfl
    · rfl
  | readForm f =>
    simp only [liftCall, doCall, St.parseForm]
    have e : (upSt s d).ctx.parsedParams = s.ctx.parsedParams := rfl
    have e2 : (upSt s d).body = s.body := rfl
    rw [e, e2]
    cases s.ctx.parsedParams
    · simp only [Bool.false_eq_true, if_false]
      cases (o.parse req (wantsMultipart req) s.body).fails <;> rfl
    · rfl
  | _ => rfl

theorem exec_note (o : Oracle) (req : Req) (nx : St (ω × List Event) → Out × St (ω × List Event)) (i : Nat) (e : Event)
    (k : Prog (ω × List Event)) (s : St ω) (d : List Event) :
    exec o req nx i (note e k) (upSt s d) = exec o req nx i k (upSt s (d ++ [e])) := rfl

/-- Running the instrumented body from a diary that agrees with the trace. -/
theorem exec_lift (o : Oracle) (req : Req) (nx : St ω → Out × St ω)
    (nx' : St (ω × List Event) → Out × St (ω × List Event))
    (hnx : ∀ s, nx' (upSt s s.trace) = ((nx s).1, upSt (nx s).2 (nx s).2.trace)) (i : Nat) (p : Prog ω) :
    ∀ s, exec o req nx' i (liftBody i p) (upSt s s.trace) =
      ((exec o req nx i p s).1, upSt (exec o req nx i p s).2 (exec o req nx i p s).2.trace) := by
  induction p with
  | ret => intro s; rfl
  | panic v => intro s; rfl
  | next k ih =>
    intro s
    simp only [liftBody, exec_note]
    simp only [exec]
    have e : ((upSt s (s.trace ++ [.next i])).log (.next i)).bump =
      upSt (s.log (.next i)).bump (s.log (.next i)).bump.trace := rfl
    rw [e, hnx]
    rcases nx (s.log (.next i)).bump with ⟨out, s1⟩
    cases out with
    | ret =>
      have e : (upSt s1 s1.trace).log (.back i) = upSt (s1.log (.back i)) s1.trace := rfl
      simp only [e, exec_note]
      exact ih (s1.log (.back i))
    | panic v => rfl
    | fuel => rfl
  | call c k ih =>
    intro s
    simp only [liftBody, exec, upSt_doCall]
    have h := (doCall_frame o req s c).2.1
    rcases hr : doCall o req s c with ⟨out, s1⟩
    rw [hr] at h
    simp only at h
    rw [← h]
    cases out with
    | error v => rfl
    | ok r => exact ih r s1
  | scope b f ihb ihf =>
    intro s
    simp only [liftBody, exec]
    rw [ihb]
    rcases exec o req nx i b s with ⟨out, s1⟩
    cases out with
    | ret => exact ihf none s1
    | panic v => exact ihf (some v) s1
    | fuel => rfl

theorem run_lift (o : Oracle) (req : Req) (fuel : Nat) :
    ∀ s : St ω, run o req fuel (upSt s s.trace) = ((run o req fuel s).1, upSt (run o req fuel s).2 (run o req fuel s).2.trace) := by
  induction fuel with
  | zero => intro s; rfl
  | succ fuel ih =>
    intro s
    simp only [run]
    have e : (upSt s s.trace).ctx.handlers[(upSt s s.trace).ctx.index]? =
        (s.ctx.handlers[s.ctx.index]?).map (diary s.ctx.index) := by
      simp [upSt, upCtx]
    rw [e]
    rcases s.ctx.handlers[s.ctx.index]? with _ | h
    · rfl
    · simp only [Option.map_some]
      have ei : (upSt s s.trace).ctx.index = s.ctx.index := rfl
      rw [ei]
      generalize hi : s.ctx.index = i
      have e2 : (upSt s s.trace).log (.start i) = upSt (s.log (.start i)) s.trace := rfl
      have e3 : s.trace ++ [.start i] = (s.log (.start i)).trace := rfl
      rw [e2, diary, exec_note, e3]
      simp only [exec]
      rw [exec_lift o req (run o req fuel) (run o req fuel) ih]
      rcases exec o req (run o req fuel) i h (s.log (.start i)) with ⟨out, s1⟩
      cases out with
      | fuel => rfl
      | panic v => rfl
      | ret =>
        simp only [doCall, exec_note]
        simp only [exec]
        have e4 : (upSt s1 (s1.trace ++ [.stop i (Res.bool (upSt s1 s1.trace).ctx.written == Res.bool true)])).ctx.written =
          s1.ctx.written := rfl
        have e5 : (Res.bool (upSt s1 s1.trace).ctx.written == Res.bool true) = s1.ctx.written := by
          have : (upSt s1 s1.trace).ctx.written = s1.ctx.written := rfl
          rw [this]
          cases s1.ctx.written <;> rfl
        rw [e4, e5]
        have e6 : ((upSt s1 (s1.trace ++ [.stop i s1.ctx.written])).log (.stop i s1.ctx.written)).bump =
          upSt (s1.log (.stop i s1.ctx.written)).bump (s1.log (.stop i s1.ctx.written)).bump.trace := rfl
        rw [e6]
        generalize (s1.log (.stop i s1.ctx.written)).bump = s2
        have e7 : (upSt s2 s2.trace).ctx.written = s2.ctx.written := rfl
        rw [e7]
        split
        · rfl
        · exact ih s2

end Water
