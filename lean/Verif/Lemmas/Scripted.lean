import Verif.Spec.Scripted
import Verif.Lemmas.Machine
/-
Replaying a request is running it alone in a world that gives the recorded answers.
-/
namespace Water
open Spec
variable {ω : Type}

/-- the state, asking the list -/
def scriptSt (s : St ω) (rs : List Res) : St (List Res) :=
  { ctx := { environ := s.ctx.environ, params := s.ctx.params, handlers := s.ctx.handlers.map scriptProg, index := s.ctx.index,
             written := s.ctx.written, status := s.ctx.status, fullPath := s.ctx.fullPath, parsedParams := s.ctx.parsedParams },
    rw := s.rw, body := s.body, forms := s.forms, world := rs, trace := s.trace, form := s.form }

def scriptFrame : Frame ω → Frame (List Res)
  | .handler i => .handler i
  | .after i k => .after i (scriptProg k)
  | .deferred i fin => .deferred i (fun v => scriptProg (fin v))

def scriptPhase : Phase ω → Phase (List Res)
  | .loop => .loop
  | .code i p => .code i (scriptProg p)
  | .done r => .done r

def scriptMachine (m : Machine ω) (rs : List Res) : Machine (List Res) :=
  ⟨scriptPhase m.mode, m.stack.map scriptFrame, scriptSt m.st rs⟩

theorem doCall_script (o : Oracle) (req : Req) (s : St ω) (c : Call ω) (hc : ∀ f, c ≠ .world f) (rs : List Res) :
    doCall o req (scriptSt s rs) (scriptCall c) = ((doCall o req s c).1, scriptSt (doCall o req s c).2 rs) := by
  have hwh : ∀ (s : St ω) code, (scriptSt s rs).writeHeader o code = ((s.writeHeader o code).1, scriptSt (s.writeHeader o code).2 rs) := by
    intro s code
    simp only [St.writeHeader]
    cases hw : s.ctx.written with
    | true => simp [scriptSt, hw]
    | false => simp [scriptSt, hw]
  have hpf : (scriptSt s rs).parseForm o req = ((s.parseForm o req).1, scriptSt (s.parseForm o req).2 rs) := by
    simp only [St.parseForm]
    cases hw : s.ctx.parsedParams with
    | true => simp [scriptSt, hw]
    | false => simp [scriptSt, hw]
  cases c with
  | world f => exact absurd rfl (hc f)
  | writeHeader code =>
    simp only [doCall, scriptCall, hwh]
    rcases s.writeHeader o code with ⟨_ | _, s1⟩ <;> rfl
  | write data =>
    have hw : (scriptSt s rs).write o data = ((s.write o data).1, scriptSt (s.write o data).2 rs) := by
      simp only [St.write]
      cases hw : s.ctx.written with
      | true => simp [scriptSt, hw]
      | false =>
        simp only [show (scriptSt s rs).ctx.written = false from hw]
        by_cases hd : data.length > 0 ∧ s.rw.header.get kContentType = []
        · have hd' : data.length > 0 ∧ (scriptSt s rs).rw.header.get kContentType = [] := hd
          simp only [hd, hd', and_self, if_true, Bool.false_eq_true, if_false]
          have := hwh { s with rw := { s.rw with header := s.rw.header.put kContentType (o.detect data) } } 200
          simp only [scriptSt] at this ⊢
          rw [this]
          rcases St.writeHeader o { s with rw := { s.rw with header := s.rw.header.put kContentType (o.detect data) } } 200 with ⟨_ | _, s1⟩ <;> rfl
        · have hd' : ¬ (data.length > 0 ∧ (scriptSt s rs).rw.header.get kContentType = []) := hd
          simp only [hd, hd', Bool.false_eq_true, if_false]
          rw [hwh]
          rcases s.writeHeader o 200 with ⟨_ | _, s1⟩ <;> rfl
    simp only [doCall, scriptCall, hw]
    rcases s.write o data with ⟨_ | _, s1⟩ <;> rfl
  | setHeader k v => rfl
  | header f => rfl
  | rawWriteHeader code =>
    simp only [doCall, scriptCall, scriptSt]
    rcases s.rw.writeHeader o.bad code with ⟨_ | _, s1⟩ <;> rfl
  | rawWrite data => rfl
  | written => rfl
  | status => rfl
  | fullPath => rfl
  | param k =>
    simp only [doCall, scriptCall, scriptSt]
    cases s.ctx.params k <;> rfl
  | envSet k v =>
    simp only [doCall, scriptCall]
    cases hk : (s.ctx.environ k).isSome <;> simp [scriptSt, hk]
  | envGet k =>
    simp only [doCall, scriptCall, scriptSt]
    cases s.ctx.environ k <;> rfl
  | envMaybe k => rfl
  | reqMethod => rfl
  | reqTexts f => rfl
  | reqPath => rfl
  | reqHeader k => rfl
  | readBody limit =>
    obtain ⟨ctx, rw, body, forms, world, trace, form⟩ := s
    cases body <;> rfl
  | hasBody => rfl
  | setBody data => rfl
  | parseForm =>
    simp only [doCall, scriptCall, hpf]
    rcases s.parseForm o req with ⟨_ | _, s1⟩ <;> rfl
  | readForm f =>
    simp only [doCall, scriptCall, hpf]
    rcases s.parseForm o req with ⟨_ | _, s1⟩ <;> rfl

theorem leave_script (i : Nat) (K : List (Frame ω)) (s : St ω) (rs : List Res) :
    Machine.leave i (K.map scriptFrame) (scriptSt s rs) = scriptMachine (Machine.leave i K s) rs := by
  unfold Machine.leave
  cases hw : s.ctx.written with
  | true => simp [St.bump, St.log, scriptSt, hw, scriptMachine, scriptPhase]
  | false => simp [St.bump, St.log, scriptSt, hw, scriptMachine, scriptPhase]

/-- one action with the answer given is one action in the world of the list -/
theorem step_script (o : Oracle) (req : Req) (m : Machine ω) (rs : List Res) :
    (scriptMachine m rs).step o req = scriptMachine (m.replay o req rs).1 (m.replay o req rs).2 := by
  obtain ⟨mode, K, s⟩ := m
  cases mode with
  | loop =>
    simp only [scriptMachine, scriptPhase, Machine.step, Machine.replay]
    have : (scriptSt s rs).ctx.handlers[(scriptSt s rs).ctx.index]? = (s.ctx.handlers[s.ctx.index]?).map scriptProg := by
      simp [scriptSt]
    rw [this]
    cases s.ctx.handlers[s.ctx.index]? <;> rfl
  | done r =>
    simp only [scriptMachine, scriptPhase, Machine.step, Machine.replay]
    cases K with
    | nil => rfl
    | cons f K =>
      cases f with
      | handler i =>
        cases r with
        | none => exact leave_script i K s rs
        | some v => rfl
      | after i k => cases r <;> rfl
      | deferred i fin => rfl
  | code i p =>
    cases p with
    | ret => rfl
    | panic v => rfl
    | next k => rfl
    | scope b f => rfl
    | call c k =>
      by_cases hc : ∃ f, c = .world f
      · obtain ⟨f, rfl⟩ := hc
        rfl
      · have hc' : ∀ f, c ≠ .world f := fun f h => hc ⟨f, h⟩
        have hrep : Machine.replay o req ⟨.code i (.call c k), K, s⟩ rs = (Machine.step o req ⟨.code i (.call c k), K, s⟩, rs) := by
          cases c <;> first | rfl | exact absurd rfl (hc' _)
        rw [hrep]
        simp only [scriptMachine, scriptPhase, Machine.step, scriptProg]
        rw [doCall_script o req s c hc' rs]
        rcases doCall o req s c with ⟨_ | _, s1⟩ <;> rfl

theorem replays_script (o : Oracle) (req : Req) (n : Nat) (m : Machine ω) (rs : List Res) :
    (scriptMachine m rs).iter o req n = scriptMachine (m.replays o req n rs).1 (m.replays o req n rs).2 := by
  induction n with
  | zero => rfl
  | succ n ih =>
    rw [Machine.iter_add, ih]
    exact step_script o req _ _

end Water
