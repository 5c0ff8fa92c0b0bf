import Verif.Model.Concurrent
/-
The machine of Model/Concurrent.lean does what `run` and `exec` do, stops, and depends on the world only through what it is told.
-/
namespace Water
variable {ω : Type}

/-- `n` actions -/
def Machine.iter (o : Oracle) (req : Req) : Nat → Machine ω → Machine ω
  | 0, m => m
  | n + 1, m => Machine.iter o req n (m.step o req)

/-- some number of actions -/
def Machine.Goes (o : Oracle) (req : Req) (m m' : Machine ω) : Prop := ∃ n, m.iter o req n = m'

theorem Machine.iter_add (o : Oracle) (req : Req) (n k : Nat) (m : Machine ω) :
    m.iter o req (n + k) = (m.iter o req n).iter o req k := by
  induction n generalizing m with
  | zero => rw [Nat.zero_add]; rfl
  | succ n ih => rw [Nat.succ_add]; exact ih _

theorem Machine.Goes.refl {o : Oracle} {req : Req} (m : Machine ω) : Machine.Goes o req m m := ⟨0, rfl⟩

theorem Machine.Goes.trans {o : Oracle} {req : Req} {a b c : Machine ω} (h1 : Machine.Goes o req a b) (h2 : Machine.Goes o req b c) :
    Machine.Goes o req a c := by
  obtain ⟨n, h1⟩ := h1
  obtain ⟨k, h2⟩ := h2
  exact ⟨n + k, by rw [Machine.iter_add, h1, h2]⟩

theorem Machine.Goes.first {o : Oracle} {req : Req} {a b : Machine ω} (h : Machine.Goes o req (a.step o req) b) :
    Machine.Goes o req a b := Machine.Goes.trans ⟨1, rfl⟩ h

/-- how code ended, as the machine says it -/
def Out.phase : Out → Phase ω
  | .ret => .done none
  | .panic v => .done (some v)
  | .fuel => .loop

theorem exec_goes {o : Oracle} {req : Req} {nx : St ω → Out × St ω}
    (hnx : ∀ s K, (nx s).1 ≠ .fuel → Machine.Goes o req ⟨.loop, K, s⟩ ⟨(nx s).1.phase, K, (nx s).2⟩) (i : Nat) (p : Prog ω) :
    ∀ s K, (exec o req nx i p s).1 ≠ .fuel →
      Machine.Goes o req ⟨.code i p, K, s⟩ ⟨(exec o req nx i p s).1.phase, K, (exec o req nx i p s).2⟩ := by
  induction p with
  | ret => intro s K _; exact ⟨1, rfl⟩
  | panic v => intro s K _; exact ⟨1, rfl⟩
  | next k ih =>
    intro s K hf
    refine .first ?_
    show Machine.Goes o req ⟨.loop, .after i k :: K, (s.log (.next i)).bump⟩ _
    have h1 := hnx (s.log (.next i)).bump (.after i k :: K)
    rcases hr : nx (s.log (.next i)).bump with ⟨out, s1⟩
    rw [hr] at h1
    simp only [exec, hr] at hf ⊢
    cases out with
    | ret => exact (h1 (by simp)).trans (.first (ih _ _ hf))
    | panic v => exact (h1 (by simp)).trans ⟨1, rfl⟩
    | fuel => exact absurd rfl hf
  | call c k ih =>
    intro s K hf
    refine .first ?_
    simp only [exec] at hf ⊢
    simp only [Machine.step]
    rcases hr : doCall o req s c with ⟨r, s1⟩
    rw [hr] at hf
    cases r with
    | ok r => exact ih r _ _ hf
    | error v => exact .refl _
  | scope body fin ihb ihf =>
    intro s K hf
    refine .first ?_
    show Machine.Goes o req ⟨.code i body, .deferred i fin :: K, s⟩ _
    have h1 := ihb s (.deferred i fin :: K)
    rcases hr : exec o req nx i body s with ⟨out, s1⟩
    rw [hr] at h1
    simp only [exec, hr] at hf ⊢
    cases out with
    | ret => exact (h1 (by simp)).trans (.first (ihf none _ _ hf))
    | panic v => exact (h1 (by simp)).trans (.first (ihf (some v) _ _ hf))
    | fuel => exact absurd rfl hf

theorem run_goes (o : Oracle) (req : Req) (fuel : Nat) : ∀ (s : St ω) (K : List (Frame ω)), (run o req fuel s).1 ≠ .fuel →
    Machine.Goes o req ⟨.loop, K, s⟩ ⟨(run o req fuel s).1.phase, K, (run o req fuel s).2⟩ := by
  induction fuel with
  | zero => intro s K hf; exact absurd rfl hf
  | succ fuel ih =>
    intro s K hf
    refine .first ?_
    simp only [run] at hf ⊢
    simp only [Machine.step]
    cases hh : s.ctx.handlers[s.ctx.index]? with
    | none => exact .refl _
    | some h =>
      rw [hh] at hf
      simp only [] at hf ⊢
      have h1 := exec_goes (o := o) (req := req) ih s.ctx.index h (s.log (.start s.ctx.index)) (.handler s.ctx.index :: K)
      rcases hr : exec o req (run o req fuel) s.ctx.index h (s.log (.start s.ctx.index)) with ⟨out, s1⟩
      rw [hr] at h1
      rw [hr] at hf
      cases out with
      | ret =>
        simp only [] at hf ⊢
        refine (h1 (by simp)).trans (.first ?_)
        show Machine.Goes o req (Machine.leave s.ctx.index K s1) _
        unfold Machine.leave
        simp only []
        by_cases hw : ((s1.log (.stop s.ctx.index s1.ctx.written)).bump).ctx.written = true
        · rw [if_pos hw]; rw [if_pos hw]; exact .refl _
        · rw [if_neg hw] at hf
          rw [if_neg hw]; rw [if_neg hw]; exact ih _ _ hf
      | panic v => exact (h1 (by simp)).trans ⟨1, rfl⟩
      | fuel => exact absurd rfl hf

/-! ### the world -/

/-- the same request in another world -/
def Machine.inWorld (m : Machine ω) (w : ω) : Machine ω := ⟨m.mode, m.stack, { m.st with world := w }⟩

/-- One action with the answer of the world given: if the action asks the world it gets the first of the answers, and leaves the
world alone. -/
def Machine.replay (o : Oracle) (req : Req) (m : Machine ω) (rs : List Res) : Machine ω × List Res :=
  match m.mode with
  | .code i (.call (.world _) k) => (⟨.code i (k (rs.headD .unit)), m.stack, m.st⟩, rs.tail)
  | _ => (m.step o req, rs)

/-- `n` actions with the answers of the world given -/
def Machine.replays (o : Oracle) (req : Req) : Nat → Machine ω → List Res → Machine ω × List Res
  | 0, m, rs => (m, rs)
  | n + 1, m, rs =>
    match Machine.replays o req n m rs with
    | (m, rs) => m.replay o req rs

theorem doCall_inWorld (o : Oracle) (req : Req) (s : St ω) (c : Call ω) (hc : ∀ f, c ≠ .world f) (w : ω) :
    (doCall o req s c).2.world = s.world ∧
      doCall o req { s with world := w } c = ((doCall o req s c).1, { (doCall o req s c).2 with world := w }) := by
  cases c with
  | world f => exact absurd rfl (hc f)
  | writeHeader code =>
    simp only [doCall, St.writeHeader]
    cases hw : s.ctx.written with
    | true => simp
    | false =>
      simp only [Bool.false_eq_true, if_false]
      rcases s.rw.writeHeader o.bad code with ⟨_ | _, rw⟩ <;> simp
  | write data =>
    simp only [doCall, St.write, St.writeHeader]
    cases hw : s.ctx.written with
    | true => simp
    | false =>
      simp only [Bool.false_eq_true, if_false]
      by_cases hd : data.length > 0 ∧ s.rw.header.get kContentType = []
      · simp only [if_pos hd, hw, Bool.false_eq_true, if_false]
        rcases Writer.writeHeader o.bad _ 200 with ⟨_ | _, rw⟩ <;> simp
      · simp only [if_neg hd, hw, Bool.false_eq_true, if_false]
        rcases Writer.writeHeader o.bad _ 200 with ⟨_ | _, rw⟩ <;> simp
  | rawWriteHeader code =>
    simp only [doCall]
    rcases s.rw.writeHeader o.bad code with ⟨_ | _, rw⟩ <;> simp
  | param k => simp only [doCall]; cases s.ctx.params k <;> simp
  | envSet k v => simp only [doCall]; split <;> simp
  | envGet k => simp only [doCall]; cases s.ctx.environ k <;> simp
  | readBody l => simp only [doCall]; cases hb : s.body <;> simp [hb]
  | parseForm =>
    simp only [doCall, St.parseForm]
    cases s.ctx.parsedParams with
    | true => simp
    | false =>
      simp only [Bool.false_eq_true, if_false]
      cases (o.parse req (wantsMultipart req) s.body).fails <;> simp
  | readForm f =>
    simp only [doCall, St.parseForm]
    cases s.ctx.parsedParams with
    | true => simp
    | false =>
      simp only [Bool.false_eq_true, if_false]
      cases (o.parse req (wantsMultipart req) s.body).fails <;> simp
  | _ => exact ⟨rfl, rfl⟩

theorem leave_world (i : Nat) (K : List (Frame ω)) (s : St ω) (w : ω) :
    Machine.leave i K { s with world := w } = (Machine.leave i K s).inWorld w := by
  unfold Machine.leave
  cases hw : s.ctx.written with
  | true => rw [if_pos (by exact hw), if_pos (by exact hw)]; rfl
  | false => rw [if_neg (by simp [St.bump, St.log, hw]), if_neg (by simp [St.bump, St.log, hw])]; rfl

theorem leave_keeps (i : Nat) (K : List (Frame ω)) (s : St ω) : (Machine.leave i K s).st.world = s.world := by
  unfold Machine.leave
  dsimp only
  split <;> rfl

/-- An action is the same in every world, but for what it is told. -/
theorem step_replay (o : Oracle) (req : Req) (m : Machine ω) (w : ω) (rest : List Res) :
    (m.inWorld w).replay o req (m.told.toList ++ rest) = ((m.step o req).inWorld w, rest) := by
  obtain ⟨mode, K, s⟩ := m
  cases mode with
  | loop =>
    simp only [Machine.inWorld, Machine.replay, Machine.step, Machine.told]
    cases s.ctx.handlers[s.ctx.index]? <;> rfl
  | done r =>
    simp only [Machine.inWorld, Machine.replay, Machine.step, Machine.told]
    cases K with
    | nil => rfl
    | cons f K =>
      cases f with
      | handler i =>
        cases r with
        | none =>
          simp only [Option.toList, List.nil_append, leave_world]
          rfl
        | some v => rfl
      | after i k => cases r <;> rfl
      | deferred i fin => rfl
  | code i p =>
    cases p with
    | call c k =>
      by_cases hc : ∃ f, c = .world f
      · obtain ⟨f, rfl⟩ := hc
        rfl
      · have hc' : ∀ f, c ≠ .world f := fun f hf => hc ⟨f, hf⟩
        have h := doCall_inWorld o req s c hc' w
        have e1 : (Machine.mk (.code i (.call c k)) K s).told = none := by
          cases c <;> first | rfl | exact absurd rfl (hc' _)
        have e2 : ∀ s : St ω, (Machine.mk (.code i (.call c k)) K s).replay o req rest = ((Machine.mk (.code i (.call c k)) K s).step o req, rest) := by
          intro s
          cases c <;> first | rfl | exact absurd rfl (hc' _)
        rw [e1]
        simp only [Option.toList, List.nil_append, Machine.inWorld]
        rw [e2]
        simp only [Machine.step]
        rw [h.2]
        rcases doCall o req s c with ⟨_ | _, s1⟩ <;> rfl
    | _ => rfl

theorem step_noworld {o : Oracle} {req : Req} {m : Machine ω} (h : m.told = none) : (m.step o req).st.world = m.st.world := by
  obtain ⟨mode, K, s⟩ := m
  cases mode with
  | loop =>
    simp only [Machine.step]
    cases s.ctx.handlers[s.ctx.index]? <;> rfl
  | done r =>
    simp only [Machine.step]
    cases K with
    | nil => rfl
    | cons f K =>
      cases f with
      | handler i =>
        cases r with
        | none =>
          exact leave_keeps i K s
        | some v => rfl
      | after i k => cases r <;> rfl
      | deferred i fin => rfl
  | code i p =>
    cases p with
    | call c k =>
      have hc : ∀ f, c ≠ .world f := by rintro f rfl; cases h
      have := doCall_inWorld o req s c hc s.world
      simp only [Machine.step]
      rcases hr : doCall o req s c with ⟨_ | _, s1⟩ <;> rw [hr] at this <;> exact this.1
    | _ => rfl

end Water
