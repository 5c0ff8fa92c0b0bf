import Verif.Lemmas.Machine
import Verif.Lemmas.Serve
import Verif.Lemmas.Chain
/-
What every state of the server satisfies: no context object is shared, every request is where a replay of its own history is,
and cannot go on forever.
-/
namespace Water
variable {ω : Type}

/-! ### no request goes on forever -/

/-- The request comes to an end, whatever the others do to the world in between. -/
inductive Halts (o : Oracle) (req : Req) : Machine ω → Prop where
  | done (r : Option PVal) (s : St ω) : Halts o req ⟨.done r, [], s⟩
  | step (m : Machine ω) : (∀ w, Halts o req ((m.inWorld w).step o req)) → Halts o req m

theorem Halts.inWorld {o : Oracle} {req : Req} {m : Machine ω} (h : Halts o req m) (w : ω) : Halts o req (m.inWorld w) := by
  cases h with
  | done r s => exact .done r _
  | step _ h => exact .step _ (fun w' => h w')

/-- how many handlers are left -/
def St.room (s : St ω) : Nat := s.ctx.handlers.length - s.ctx.index

theorem doCall_room (o : Oracle) (req : Req) (s : St ω) (c : Call ω) : (doCall o req s c).2.room = s.room := by
  obtain ⟨h1, _, h2, _⟩ := doCall_frame o req s c
  unfold St.room
  rw [h1, h2]

theorem halts_code {o : Oracle} {req : Req} {n : Nat}
    (hloop : ∀ (K : List (Frame ω)) (s : St ω), s.room ≤ n → (∀ r (s' : St ω), s'.room ≤ n → Halts o req ⟨.done r, K, s'⟩) →
      Halts o req ⟨.loop, K, s⟩) (i : Nat) (p : Prog ω) :
    ∀ (K : List (Frame ω)) (s : St ω), s.room ≤ n + 1 → (∀ r (s' : St ω), s'.room ≤ n + 1 → Halts o req ⟨.done r, K, s'⟩) →
      Halts o req ⟨.code i p, K, s⟩ := by
  induction p with
  | ret => intro K s hs hk; exact .step _ (fun w => hk none _ hs)
  | panic v => intro K s hs hk; exact .step _ (fun w => hk (some v) _ hs)
  | next k ih =>
    intro K s hs hk
    refine .step _ (fun w => ?_)
    refine hloop (.after i k :: K) _ ?_ ?_
    · have : s.room ≤ n + 1 := hs
      simp only [St.room, St.bump, St.log, Machine.inWorld] at this ⊢
      omega
    · intro r s' hs'
      refine .step _ (fun w => ?_)
      cases r with
      | none => exact ih K _ (Nat.le_succ_of_le hs') hk
      | some v => exact hk (some v) _ (Nat.le_succ_of_le hs')
  | call c k ih =>
    intro K s hs hk
    refine .step _ (fun w => ?_)
    have hr := doCall_room o req { s with world := w } c
    simp only [Machine.inWorld, Machine.step]
    rcases hd : doCall o req { s with world := w } c with ⟨r, s1⟩
    rw [hd] at hr
    have hs1 : s1.room ≤ n + 1 := by rw [hr]; exact hs
    cases r with
    | ok r => exact ih r K s1 hs1 hk
    | error v => exact hk (some v) s1 hs1
  | scope body fin ihb ihf =>
    intro K s hs hk
    refine .step _ (fun w => ?_)
    refine ihb (.deferred i fin :: K) _ hs ?_
    intro r s' hs'
    exact .step _ (fun w => ihf r K _ hs' hk)

theorem halts_loop (o : Oracle) (req : Req) (n : Nat) : ∀ (K : List (Frame ω)) (s : St ω), s.room ≤ n →
    (∀ r (s' : St ω), s'.room ≤ n → Halts o req ⟨.done r, K, s'⟩) → Halts o req ⟨.loop, K, s⟩ := by
  induction n with
  | zero =>
    intro K s hs hk
    refine .step _ (fun w => ?_)
    simp only [Machine.inWorld, Machine.step]
    have : s.ctx.handlers[s.ctx.index]? = none := by
      rw [List.getElem?_eq_none]
      unfold St.room at hs; omega
    rw [this]
    exact hk none _ hs
  | succ n ih =>
    intro K s hs hk
    refine .step _ (fun w => ?_)
    simp only [Machine.inWorld, Machine.step]
    cases hh : s.ctx.handlers[s.ctx.index]? with
    | none => exact hk none _ hs
    | some h =>
      refine halts_code ih s.ctx.index h _ _ hs ?_
      intro r s' hs'
      refine .step _ (fun w => ?_)
      cases r with
      | some v => exact hk (some v) _ hs'
      | none =>
        show Halts o req (Machine.leave s.ctx.index K { s' with world := w })
        have hb : (((({ s' with world := w } : St ω)).log (.stop s.ctx.index s'.ctx.written)).bump).room ≤ n := by
          simp only [St.room, St.bump, St.log] at hs' ⊢
          omega
        unfold Machine.leave
        dsimp only
        split
        · exact hk none _ (Nat.le_succ_of_le hb)
        · exact ih K _ hb (fun r s'' h'' => hk r s'' (Nat.le_succ_of_le h''))

theorem halts_start (rx : Regex) (o : Oracle) (e : Engine (Prog ω)) (c : Ctx ω) (req : Req) (i : Nat) (rw : Writer) (body : Option Str)
    (w : ω) : Halts o req (Machine.start rx o e c req i rw body w) := by
  unfold Machine.start
  dsimp only
  split
  · exact .done _ _
  · exact halts_loop o req _ [] _ (Nat.le_refl _) (fun r s' _ => .done r s')

/-! ### replaying -/

/-- Where `t` is with content `c` in its context object is where a replay of its own request, with what it was told, leads; `c₀`
was the content of the context object when the request came. -/
def Replays (rx : Regex) (o : Oracle) (e : Engine (Prog ω)) (t : Thread ω) (c : Ctx ω) : Prop :=
  ∃ (c₀ : Ctx ω) (i n : Nat), refused t.req = false ∧ methodIndex t.req.method = some i ∧ ∀ w rest,
    Machine.replays o t.req n (Machine.start rx o e c₀ t.req i t.rw₀ t.body₀ w) (t.told ++ rest) = (t.machine c w, rest)

theorem start_inWorld (rx : Regex) (o : Oracle) (e : Engine (Prog ω)) (c : Ctx ω) (req : Req) (i : Nat) (rw : Writer) (body : Option Str)
    (w w' : ω) : (Machine.start rx o e c req i rw body w).inWorld w' = Machine.start rx o e c req i rw body w' := by
  unfold Machine.start
  dsimp only
  split
  · rw [St.writeHeader_fresh (by rfl), St.writeHeader_fresh (by rfl)]
    rfl
  · rfl

theorem fresh_machine (id : Nat) (req : Req) (rw : Writer) (body : Option Str) (c : Nat) (m : Machine ω) (w : ω) :
    (Thread.fresh id req rw body c m).machine m.st.ctx w = m.inWorld w := rfl

theorem fresh_replays {rx : Regex} {o : Oracle} {e : Engine (Prog ω)} {c₀ : Ctx ω} {id : Nat} {req : Req} {i c : Nat} {rw : Writer}
    {body : Option Str} {w : ω} (h1 : refused req = false) (h2 : methodIndex req.method = some i) :
    Replays rx o e (Thread.fresh id req rw body c (Machine.start rx o e c₀ req i rw body w))
      (Machine.start rx o e c₀ req i rw body w).st.ctx := by
  refine ⟨c₀, i, 0, h1, h2, fun w' rest => ?_⟩
  rw [fresh_machine, start_inWorld]
  rfl

theorem put_machine (t : Thread ω) (m : Machine ω) (r : Option Res) (w : ω) : (t.put m r).machine m.st.ctx w = m.inWorld w := rfl

theorem act_replays {rx : Regex} {o : Oracle} {e : Engine (Prog ω)} {t : Thread ω} {c : Ctx ω} {w : ω} (h : Replays rx o e t c) :
    Replays rx o e (t.put ((t.machine c w).step o t.req) (t.machine c w).told) ((t.machine c w).step o t.req).st.ctx := by
  obtain ⟨c₀, i, n, h1, h2, h3⟩ := h
  refine ⟨c₀, i, n + 1, h1, h2, fun w' rest => ?_⟩
  rw [put_machine]
  have h4 := h3 w' ((t.machine c w).told.toList ++ rest)
  rw [← List.append_assoc] at h4
  show (match Machine.replays o t.req n (Machine.start rx o e c₀ t.req i t.rw₀ t.body₀ w') (t.told ++ (t.machine c w).told.toList ++ rest) with
    | (m, rs) => m.replay o t.req rs) = _
  rw [h4]
  exact step_replay o t.req (t.machine c w) w' rest

/-! ### the invariant -/

/-- how a request that is done ended -/
def endOut : Option PVal → Out
  | none => .ret
  | some v => .panic v

/-- What holds in every state of the server. -/
structure Server.Good (rx : Regex) (o : Oracle) (e : Engine (Prog ω)) (s : Server ω) : Prop where
  nodup : (s.free ++ s.live.map (·.ctx)).Nodup
  bound : ∀ c ∈ s.free ++ s.live.map (·.ctx), c < s.made
  ids : (s.live.map (·.id)).Nodup
  idBound : ∀ t ∈ s.live, t.id < s.next
  live : ∀ t ∈ s.live, Replays rx o e t (s.store t.ctx) ∧ ∀ w, Halts o t.req (t.machine (s.store t.ctx) w)
  gone : ∀ a ∈ s.gone, ∃ t c r, Replays rx o e t c ∧ t.mode = .done r ∧ t.stack = [] ∧ a = t.answer (endOut r)

theorem setStore_same (st : Nat → Ctx ω) (c : Nat) (x : Ctx ω) : setStore st c x c = x := by simp [setStore]

theorem setStore_other (st : Nat → Ctx ω) {c d : Nat} (x : Ctx ω) (h : d ≠ c) : setStore st c x d = st d := by simp [setStore, h]

theorem good_arrive {rx : Regex} {o : Oracle} {e : Engine (Prog ω)} {s : Server ω} (hg : s.Good rx o e) {free : List Nat} {c made i : Nat}
    {c₀ : Ctx ω} {req : Req} {rw : Writer} {body : Option Str} (h1 : refused req = false) (h2 : methodIndex req.method = some i)
    (hn : (free ++ (s.live.map (·.ctx) ++ [c])).Nodup) (hb : ∀ d ∈ free ++ (s.live.map (·.ctx) ++ [c]), d < made) :
    Server.Good rx o e
      { s with
        next := s.next + 1
        made := made
        free := free
        store := setStore s.store c (Machine.start rx o e c₀ req i rw body s.world).st.ctx
        live := s.live ++ [Thread.fresh s.next req rw body c (Machine.start rx o e c₀ req i rw body s.world)] } := by
  have hne : ∀ t ∈ s.live, t.ctx ≠ c := by
    intro t ht hc
    have h3 := (List.nodup_append.1 (List.nodup_append.1 hn).2.1).2.2 t.ctx (List.mem_map_of_mem ht) c (by simp)
    exact h3 hc
  constructor
  · simp only [List.map_append, List.map_cons, List.map_nil]; exact hn
  · simp only [List.map_append, List.map_cons, List.map_nil]; exact hb
  · simp only [List.map_append, List.map_cons, List.map_nil]
    refine List.nodup_append.2 ⟨hg.ids, by simp, ?_⟩
    intro a ha b hb' hab
    obtain ⟨t, ht, rfl⟩ := List.mem_map.1 ha
    have := hg.idBound t ht
    simp only [List.mem_singleton] at hb'
    rw [hab, hb'] at this
    exact Nat.lt_irrefl _ this
  · intro t ht
    rcases List.mem_append.1 ht with ht | ht
    · exact Nat.lt_succ_of_lt (hg.idBound t ht)
    · simp only [List.mem_singleton] at ht
      subst ht
      exact Nat.lt_succ_self _
  · intro t ht
    rcases List.mem_append.1 ht with ht | ht
    · dsimp only
      rw [setStore_other _ _ (hne t ht)]
      exact hg.live t ht
    · simp only [List.mem_singleton] at ht
      subst ht
      have e1 : (Thread.fresh s.next req rw body c (Machine.start rx o e c₀ req i rw body s.world)).ctx = c := rfl
      dsimp only
      rw [e1, setStore_same]
      refine ⟨fresh_replays h1 h2, fun w => ?_⟩
      rw [fresh_machine]
      exact (halts_start rx o e c₀ req i rw body s.world).inWorld w
  · exact hg.gone

theorem Server.good {rx : Regex} {o : Oracle} {e : Engine (Prog ω)} {s s' : Server ω} {h : Happening} (hg : s.Good rx o e)
    (hs : Server.Step rx o e s h s') : s'.Good rx o e := by
  cases hs with
  | @arriveOld a b c i req rw body hf h1 h2 =>
    refine good_arrive hg h1 h2 ?_ ?_
    · have := hg.nodup
      rw [hf] at this
      refine (List.Perm.nodup_iff ?_).1 this
      rw [List.append_assoc, List.append_assoc]
      refine List.Perm.append_left a ?_
      rw [List.cons_append, ← List.append_assoc]
      exact (List.perm_append_singleton c (b ++ s.live.map (·.ctx))).symm
    · intro d hd
      refine hg.bound d ?_
      rw [hf]
      simp only [List.mem_append, List.mem_cons, List.not_mem_nil, or_false] at hd ⊢
      rcases hd with (h | h) | h | h
      · exact .inl (.inl h)
      · exact .inl (.inr (.inr h))
      · exact .inr h
      · exact .inl (.inr (.inl h))
  | @arriveNew i req rw body h1 h2 =>
    refine good_arrive hg h1 h2 ?_ ?_
    · rw [← List.append_assoc]
      refine List.nodup_append.2 ⟨hg.nodup, by simp, ?_⟩
      intro x hx y hy hxy
      have := hg.bound x hx
      simp only [List.mem_singleton] at hy
      rw [hxy, hy] at this
      exact Nat.lt_irrefl _ this
    · intro d hd
      rw [← List.append_assoc] at hd
      rcases List.mem_append.1 hd with h | h
      · exact Nat.lt_succ_of_lt (hg.bound d h)
      · simp only [List.mem_singleton] at h
        rw [h]
        exact Nat.lt_succ_self _
  | @act a b t m hl hd hm =>
    subst hm
    have hmap : (a ++ t.put ((t.machine (s.store t.ctx) s.world).step o t.req) (t.machine (s.store t.ctx) s.world).told :: b).map (·.ctx) =
        s.live.map (·.ctx) := by
      rw [hl]; simp [Thread.put]
    have hmapi : (a ++ t.put ((t.machine (s.store t.ctx) s.world).step o t.req) (t.machine (s.store t.ctx) s.world).told :: b).map (·.id) =
        s.live.map (·.id) := by
      rw [hl]; simp [Thread.put]
    have hctx : (s.live.map (·.ctx)).Nodup := (List.nodup_append.1 hg.nodup).2.1
    have hne : ∀ u, u ∈ a ∨ u ∈ b → u.ctx ≠ t.ctx := by
      intro u hu hc
      rw [hl] at hctx
      simp only [List.map_append, List.map_cons] at hctx
      obtain ⟨_, n2, n3⟩ := List.nodup_append.1 hctx
      rcases hu with hu | hu
      · exact n3 u.ctx (List.mem_map_of_mem hu) t.ctx (by simp) hc
      · exact (List.nodup_cons.1 n2).1 (by rw [← hc]; exact List.mem_map_of_mem hu)
    have ht := hg.live t (by rw [hl]; simp)
    constructor
    · dsimp only; rw [hmap]; exact hg.nodup
    · dsimp only; rw [hmap]; exact hg.bound
    · dsimp only; rw [hmapi]; exact hg.ids
    · intro u hu
      dsimp only at hu
      rcases List.mem_append.1 hu with hu | hu
      · exact hg.idBound u (by rw [hl]; simp [hu])
      · rcases List.mem_cons.1 hu with rfl | hu
        · exact hg.idBound t (by rw [hl]; simp)
        · exact hg.idBound u (by rw [hl]; simp [hu])
    · intro u hu
      dsimp only at hu ⊢
      have hold : u ∈ a ∨ u ∈ b → Replays rx o e u (setStore s.store t.ctx ((t.machine (s.store t.ctx) s.world).step o t.req).st.ctx u.ctx) ∧
          ∀ w, Halts o u.req (u.machine (setStore s.store t.ctx ((t.machine (s.store t.ctx) s.world).step o t.req).st.ctx u.ctx) w) := by
        intro hu
        rw [setStore_other _ _ (hne u hu)]
        exact hg.live u (by rw [hl]; rcases hu with h | h <;> simp [h])
      rcases List.mem_append.1 hu with hu | hu
      · exact hold (.inl hu)
      · rcases List.mem_cons.1 hu with rfl | hu
        · have e1 : (t.put ((t.machine (s.store t.ctx) s.world).step o t.req) (t.machine (s.store t.ctx) s.world).told).ctx = t.ctx := rfl
          rw [e1, setStore_same]
          refine ⟨act_replays ht.1, fun w => ?_⟩
          rw [put_machine]
          have h3 := ht.2 s.world
          refine Halts.inWorld ?_ w
          cases hm : t.machine (s.store t.ctx) s.world with
          | mk mode K st =>
            rw [hm] at h3
            cases h3 with
            | done r st' =>
              exfalso
              refine hd r ⟨?_, ?_⟩
              · exact congrArg Machine.mode hm
              · exact congrArg Machine.stack hm
            | step _ h =>
              have := h s.world
              have e2 : (Machine.mk mode K st).inWorld s.world = Machine.mk mode K st := by
                rw [← hm]; rfl
              rw [e2] at this
              exact this
        · exact hold (.inr hu)
    · exact hg.gone
  | @leave a b t hl h1 h2 =>
    have hp : (s.free ++ [t.ctx] ++ (a ++ b).map (·.ctx)).Perm (s.free ++ s.live.map (·.ctx)) := by
      rw [hl]
      simp only [List.map_append, List.map_cons, List.append_assoc]
      refine List.Perm.append_left _ ?_
      exact (List.perm_middle (l₁ := a.map (·.ctx)) (a := t.ctx) (l₂ := b.map (·.ctx))).symm
    have hsub : (a ++ b).Sublist s.live := by
      rw [hl]
      exact (List.sublist_cons_self t b).append_left a
    constructor
    · exact (hp.nodup_iff).2 hg.nodup
    · intro c hc
      exact hg.bound c (hp.mem_iff.1 hc)
    · exact hg.ids.sublist (hsub.map _)
    · intro u hu; exact hg.idBound u (hsub.subset hu)
    · intro u hu; exact hg.live u (hsub.subset hu)
    · intro x hx
      dsimp only at hx
      rcases List.mem_append.1 hx with hx | hx
      · exact hg.gone x hx
      · simp only [List.mem_singleton] at hx
        exact ⟨t, s.store t.ctx, none, (hg.live t (by rw [hl]; simp)).1, h1, h2, hx⟩
  | @crash a b t v hl h1 h2 =>
    have hsub : (a ++ b).Sublist s.live := by
      rw [hl]
      exact (List.sublist_cons_self t b).append_left a
    constructor
    · exact hg.nodup.sublist ((hsub.map _).append_left _)
    · intro c hc
      exact hg.bound c (((hsub.map _).append_left _).subset hc)
    · exact hg.ids.sublist (hsub.map _)
    · intro u hu; exact hg.idBound u (hsub.subset hu)
    · intro u hu; exact hg.live u (hsub.subset hu)
    · intro x hx
      dsimp only at hx
      rcases List.mem_append.1 hx with hx | hx
      · exact hg.gone x hx
      · simp only [List.mem_singleton] at hx
        exact ⟨t, s.store t.ctx, some v, (hg.live t (by rw [hl]; simp)).1, h1, h2, hx⟩
  | @drop a b c hf =>
    have hsub : (a ++ b).Sublist s.free := by
      rw [hf]
      exact (List.sublist_cons_self c b).append_left a
    constructor
    · exact hg.nodup.sublist (hsub.append_right _)
    · intro d hd
      exact hg.bound d ((hsub.append_right _).subset hd)
    · exact hg.ids
    · exact hg.idBound
    · exact hg.live
    · exact hg.gone

theorem Server.Reach.good {rx : Regex} {o : Oracle} {e : Engine (Prog ω)} {s : Server ω} (h : Server.Reach rx o e s) : s.Good rx o e := by
  induction h with
  | init w =>
    refine ⟨by simp [Server.init], by simp [Server.init], by simp [Server.init], ?_, ?_, ?_⟩
    · intro t ht; simp [Server.init] at ht
    · intro t ht; simp [Server.init] at ht
    · intro t ht; simp [Server.init] at ht
  | step _ hs ih => exact Server.good ih hs

end Water
