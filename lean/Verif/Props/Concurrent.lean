import Verif.Lemmas.Concurrent
import Verif.Props.Serve
/-
C78: requests served at the same time, under every interleaving of their actions.
-/
namespace Water
open Spec
variable {ω : Type}

theorem iter_done (o : Oracle) (req : Req) (n : Nat) (r : Option PVal) (s : St ω) :
    Machine.iter o req n ⟨.done r, [], s⟩ = ⟨.done r, [], s⟩ := by
  induction n with
  | zero => rfl
  | succ n ih => exact ih

/-- the end is the end, however long one waits -/
theorem iter_ends {o : Oracle} {req : Req} {m : Machine ω} {n k : Nat} {r r' : Option PVal} {s s' : St ω}
    (h : m.iter o req n = ⟨.done r, [], s⟩) (h' : m.iter o req k = ⟨.done r', [], s'⟩) : r = r' ∧ s = s' := by
  have h1 : m.iter o req (n + k) = ⟨.done r, [], s⟩ := by rw [Machine.iter_add, h, iter_done]
  have h2 : m.iter o req (k + n) = ⟨.done r', [], s'⟩ := by rw [Machine.iter_add, h', iter_done]
  rw [Nat.add_comm, h2] at h1
  injection h1 with h3 _ h4
  injection h3 with h3
  exact ⟨h3.symm, h4.symm⟩

theorem replay_length (o : Oracle) (req : Req) (m : Machine ω) (rs : List Res) : (m.replay o req rs).2.length ≤ rs.length := by
  unfold Machine.replay
  split
  · simp
  · exact Nat.le_refl _

theorem replays_length (o : Oracle) (req : Req) (n : Nat) (m : Machine ω) (rs : List Res) : (m.replays o req n rs).2.length ≤ rs.length := by
  induction n with
  | zero => exact Nat.le_refl _
  | succ n ih =>
    simp only [Machine.replays]
    exact Nat.le_trans (replay_length o req _ _) ih

/-- a replay that uses up no answer is a run -/
theorem replays_quiet {o : Oracle} {req : Req} {n : Nat} : ∀ {m m' : Machine ω} {rs : List Res}, rs ≠ [] →
    m.replays o req n rs = (m', rs) → m.iter o req n = m' := by
  induction n with
  | zero =>
    intro m m' rs _ h
    injection h with h _
  | succ n ih =>
    intro m m' rs hne h
    simp only [Machine.replays] at h
    have hlen := replays_length o req n m rs
    rcases hr : m.replays o req n rs with ⟨m1, rs1⟩
    rw [hr] at h hlen
    simp only [] at h hlen
    have hl2 := replay_length o req m1 rs1
    rw [h] at hl2
    have hl : rs1.length = rs.length := Nat.le_antisymm hlen hl2
    unfold Machine.replay at h
    split at h
    · injection h with _ h
      exfalso
      have : rs1.tail.length = rs.length := by rw [h]
      rw [List.length_tail, hl] at this
      have := List.length_pos_iff.2 hne
      omega
    · injection h with h1 h2
      subst h2
      have := ih hne hr
      rw [show n + 1 = n + 1 from rfl, Machine.iter_add, this]
      exact h1

theorem replays_done (o : Oracle) (req : Req) (n : Nat) (r : Option PVal) (s : St ω) (rs : List Res) :
    Machine.replays o req n ⟨.done r, [], s⟩ rs = (⟨.done r, [], s⟩, rs) := by
  induction n with
  | zero => rfl
  | succ n ih => simp only [Machine.replays]; rw [ih]; rfl

theorem replays_add (o : Oracle) (req : Req) (n k : Nat) (m : Machine ω) (rs : List Res) :
    m.replays o req (n + k) rs = (m.replays o req n rs).1.replays o req k (m.replays o req n rs).2 := by
  induction k with
  | zero => rfl
  | succ k ih =>
    show (match m.replays o req (n + k) rs with | (m, rs) => m.replay o req rs) = _
    rw [ih]
    rfl

theorem replays_ends {o : Oracle} {req : Req} {m : Machine ω} {n k : Nat} {r r' : Option PVal} {s s' : St ω} {rs x x' : List Res}
    (h : m.replays o req n rs = (⟨.done r, [], s⟩, x)) (h' : m.replays o req k rs = (⟨.done r', [], s'⟩, x')) : r = r' ∧ s = s' := by
  have h1 : m.replays o req (n + k) rs = (⟨.done r, [], s⟩, x) := by rw [replays_add, h, replays_done]
  have h2 : m.replays o req (k + n) rs = (⟨.done r', [], s'⟩, x') := by rw [replays_add, h', replays_done]
  rw [Nat.add_comm, h2] at h1
  injection h1 with h1 _
  injection h1 with h3 _ h4
  injection h3 with h3
  exact ⟨h3.symm, h4.symm⟩

/-- unless it hits the static map a request begins in the same way whatever context it gets -/
theorem start_any {rx : Regex} {o : Oracle} {e : Engine (Prog ω)} {req : Req} {i : Nat} (hl' : (lookup rx e i req.path).2 ≠ none) (c c' : Ctx ω)
    (rw : Writer) (body : Option Str) (w : ω) :
    Machine.start rx o e c req i rw body w = Machine.start rx o e c' req i rw body w ∨
      ∃ r s s', Machine.start rx o e c req i rw body w = ⟨.done r, [], s⟩ ∧ Machine.start rx o e c' req i rw body w = ⟨.done r, [], s'⟩ ∧
        s.rw = s'.rw ∧ s.forms = s'.forms ∧ s.trace = s'.trace := by
  unfold Machine.start
  dsimp only
  cases hc : chainFor e (lookup rx e i req.path).1 with
  | none =>
    right
    dsimp only
    rw [St.writeHeader_fresh (by rfl), St.writeHeader_fresh (by rfl)]
    exact ⟨_, _, _, rfl, rfl, rfl, rfl, rfl⟩
  | some hs' =>
    left
    cases hl : (lookup rx e i req.path).2 with
    | none => exact absurd hl hl'
    | some ps => cases ps <;> rfl

/-! ### C78 -/

theorem alone {rx : Regex} {o : Oracle} {e : Engine (Prog ω)} {s : Server ω}
    (h : Server.Reach rx o e s) {a : Answer ω} (ha : a ∈ s.gone) (ht : a.told = [])
    (hp : ∀ i, methodIndex a.req.method = some i → (lookup rx e i a.req.path).2 ≠ none) (c : Ctx ω) (w : ω) :
    let sv := serve rx o e c a.req a.rw₀ a.body₀ w
    a.out = sv.out ∧ a.rw = sv.rw ∧ a.forms = sv.forms ∧ a.trace = sv.trace ∧ sv.world = w := by
  intro sv
  obtain ⟨t, c', r, ⟨c₀, i, n, h1, h2, h3⟩, h4, h5, rfl⟩ := h.good.gone a ha
  have ht' : t.told = [] := ht
  have h6 := h3 w [.unit]
  rw [ht', List.nil_append] at h6
  have h7 := replays_quiet (by simp) h6
  have h8 : t.machine c' w = ⟨.done r, [], ⟨c', t.rw, t.body, t.forms, w, t.trace, t.form⟩⟩ := by
    unfold Thread.machine
    rw [h4, h5]
  rw [h8] at h7
  obtain ⟨k1, k2, k3, k4, k5, _⟩ := serve_same (rx := rx) (o := o) (e := e) (req := t.req) (fun i hi => .inl (hp i hi)) c c₀ t.rw₀ t.body₀ w
  show endOut r = (serve rx o e c t.req t.rw₀ t.body₀ w).out ∧ t.rw = (serve rx o e c t.req t.rw₀ t.body₀ w).rw ∧
    t.forms = (serve rx o e c t.req t.rw₀ t.body₀ w).forms ∧ t.trace = (serve rx o e c t.req t.rw₀ t.body₀ w).trace ∧
    (serve rx o e c t.req t.rw₀ t.body₀ w).world = w
  rw [k1, k2, k3, k4, k5]
  have hg : ¬ Gated t.req := by
    intro hg
    have := (gate_iff t.req).2 hg
    unfold refused at h1
    rw [h1] at this
    cases this
  rw [serve_routed hg h2]
  cases hc : chainFor e (lookup rx e i t.req.path).1 with
  | none =>
    obtain ⟨cx, hr⟩ := serveRouted_none (o := o) (c := c₀) (req := t.req) (rw := t.rw₀) (body := t.body₀) (w := w)
      (params := (lookup rx e i t.req.path).2) hc
    rw [hr]
    unfold Machine.start at h7
    simp only [hc] at h7
    rw [St.writeHeader_fresh (by rfl), iter_done] at h7
    injection h7 with g1 _ g2
    injection g1 with g1
    have g3 := congrArg St.rw g2
    have g4 := congrArg St.forms g2
    have g5 := congrArg St.trace g2
    dsimp only at g1 g3 g4 g5 ⊢
    refine ⟨?_, g3.symm, g4.symm, g5.symm, rfl⟩
    rw [← g1]
    cases (t.rw₀.writeHeader o.bad 404).1 <;> rfl
  | some hs' =>
    rw [serveRouted_chain hc]
    have hstart : Machine.start rx o e c₀ t.req i t.rw₀ t.body₀ w =
        ⟨.loop, [], startSt c₀ hs' ((lookup rx e i t.req.path).1.map (·.uri)) (lookup rx e i t.req.path).2 t.rw₀ t.body₀ w⟩ := by
      unfold Machine.start
      simp only [hc]
      rfl
    rw [hstart] at h7
    have hne := (runAll_drives o t.req _ (startSt c₀ hs' ((lookup rx e i t.req.path).1.map (·.uri)) (lookup rx e i t.req.path).2 t.rw₀ t.body₀ w)
      rfl (by exact Nat.zero_le _)).1
    generalize startSt c₀ hs' ((lookup rx e i t.req.path).1.map (·.uri)) (lookup rx e i t.req.path).2 t.rw₀ t.body₀ w = S at h7 hne ⊢
    obtain ⟨N, hN⟩ := run_goes o t.req (S.ctx.handlers.length + 1) S [] hne
    dsimp only
    unfold runAll at hne ⊢
    rcases hr : run o t.req (S.ctx.handlers.length + 1) S with ⟨out, s1⟩
    rw [hr] at hN hne
    cases out with
    | fuel => exact absurd rfl hne
    | ret =>
      obtain ⟨g1, g2⟩ := iter_ends h7 hN
      subst g1 g2
      exact ⟨rfl, rfl, rfl, rfl, rfl⟩
    | panic v =>
      obtain ⟨g1, g2⟩ := iter_ends h7 hN
      subst g1 g2
      exact ⟨rfl, rfl, rfl, rfl, rfl⟩

theorem determined {rx : Regex} {o : Oracle} {e : Engine (Prog ω)} {s s' : Server ω}
    (h : Server.Reach rx o e s) (h' : Server.Reach rx o e s') {a a' : Answer ω} (ha : a ∈ s.gone) (ha' : a' ∈ s'.gone)
    (hp : ∀ i, methodIndex a'.req.method = some i → (lookup rx e i a'.req.path).2 ≠ none)
    (h1 : a.req = a'.req) (h2 : a.rw₀ = a'.rw₀) (h3 : a.body₀ = a'.body₀) (h4 : a.told = a'.told) :
    a.out = a'.out ∧ a.rw = a'.rw ∧ a.forms = a'.forms ∧ a.trace = a'.trace := by
  obtain ⟨t, c, r, ⟨c₀, i, n, _, f2, f3⟩, f4, f5, rfl⟩ := h.good.gone a ha
  obtain ⟨t', c', r', ⟨c₀', i', n', _, g2, g3⟩, g4, g5, rfl⟩ := h'.good.gone a' ha'
  have e1 : t.req = t'.req := h1
  have e2 : t.rw₀ = t'.rw₀ := h2
  have e3 : t.body₀ = t'.body₀ := h3
  have e4 : t.told = t'.told := h4
  rw [e1, g2] at f2
  injection f2 with f2
  subst f2
  have k1 := f3 s.world []
  have k2 := g3 s.world []
  rw [e1, e2, e3, e4] at k1
  unfold Thread.machine at k1 k2
  rw [f4, f5] at k1
  rw [g4, g5] at k2
  show endOut r = endOut r' ∧ t.rw = t'.rw ∧ t.forms = t'.forms ∧ t.trace = t'.trace
  rcases start_any (rx := rx) (o := o) (e := e) (req := t'.req) (hp i' g2) c₀ c₀' t'.rw₀ t'.body₀ s.world with hst | ⟨q, x, x', q1, q2, q3, q4, q5⟩
  · rw [hst] at k1
    obtain ⟨p1, p2⟩ := replays_ends k1 k2
    injection p2 with _ p2 _ p3 _ p4
    exact ⟨by rw [p1], p2, p3, p4⟩
  · rw [q1, replays_done] at k1
    rw [q2, replays_done] at k2
    injection k1 with k1 _
    injection k2 with k2 _
    injection k1 with k1 _ k3
    injection k2 with k2 _ k4
    injection k1 with k1
    injection k2 with k2
    rw [k3] at q3 q4 q5
    rw [k4] at q3 q4 q5
    exact ⟨by rw [← k1, ← k2], q3, q4, q5⟩

/-- C78, partial. A request that asked nothing of the world is answered as if it were alone: whatever other requests did in the
meantime, and whatever context object it got, its end, its response, its form parsings and the events in its chain are those of
`serve` in any context and any world, which is left alone. Missing: a hit in the static map under the static-route option, for
which it is false (`C78_refuted`). -/
theorem C78_alone_partial {rx : Regex} {ops : List (Op (Prog ω))} {heap : Heap (Prog ω)} (h : runOps [] ops = .ok heap)
    {r : Nat} {opts : List (Opt (Prog ω))} {e : Engine (Prog ω)} (he : handler rx heap r opts = .ok e) {o : Oracle} {s : Server ω}
    (hr : Server.Reach rx o e s) {a : Answer ω} (ha : a ∈ s.gone) (ht : a.told = [])
    (hp : ¬ (e.enableStatic = true ∧ StaticHit ops r a.req.method a.req.path)) (c : Ctx ω) (w : ω) :
    let sv := serve rx o e c a.req a.rw₀ a.body₀ w
    a.out = sv.out ∧ a.rw = sv.rw ∧ a.forms = sv.forms ∧ a.trace = sv.trace ∧ sv.world = w :=
  alone hr ha ht (fun _ hi hl => hp ⟨(lookup_hit h he hi hl).1, (lookup_hit h he hi hl).2.1⟩) c w

/-- C78, partial. What a request is answered depends on the request and on what the world told its handlers, and on nothing else:
in any two runs of the server, with any other requests in any order, and any context objects, equal requests that were told the
same are answered the same. Missing as above. -/
theorem C78_determined_partial {rx : Regex} {ops : List (Op (Prog ω))} {heap : Heap (Prog ω)} (h : runOps [] ops = .ok heap)
    {r : Nat} {opts : List (Opt (Prog ω))} {e : Engine (Prog ω)} (he : handler rx heap r opts = .ok e) {o : Oracle} {s s' : Server ω}
    (hr : Server.Reach rx o e s) (hr' : Server.Reach rx o e s') {a a' : Answer ω} (ha : a ∈ s.gone) (ha' : a' ∈ s'.gone)
    (hp : ¬ (e.enableStatic = true ∧ StaticHit ops r a'.req.method a'.req.path))
    (h1 : a.req = a'.req) (h2 : a.rw₀ = a'.rw₀) (h3 : a.body₀ = a'.body₀) (h4 : a.told = a'.told) :
    a.out = a'.out ∧ a.rw = a'.rw ∧ a.forms = a'.forms ∧ a.trace = a'.trace :=
  determined hr hr' ha ha' (fun _ hi hl => hp ⟨(lookup_hit h he hi hl).1, (lookup_hit h he hi hl).2.1⟩) h1 h2 h3 h4

/-- C78. A request in progress is never stuck: it can act, or it is done and can leave. -/
theorem C78_enabled {rx : Regex} {o : Oracle} {e : Engine (Prog ω)} {s : Server ω} {t : Thread ω} (ht : t ∈ s.live) :
    ∃ s', Server.Step rx o e s (.act t.id) s' ∨ Server.Step rx o e s (.leave t.id) s' := by
  obtain ⟨a, b, hl⟩ := List.append_of_mem ht
  by_cases hd : ∃ r, t.mode = .done r ∧ t.stack = []
  · obtain ⟨r, h1, h2⟩ := hd
    cases r with
    | none => exact ⟨_, .inr (.leave hl h1 h2)⟩
    | some v => exact ⟨_, .inr (.crash hl h1 h2)⟩
  · exact ⟨_, .inl (.act hl (fun r hr => hd ⟨r, hr⟩) rfl)⟩

theorem unique_id {rx : Regex} {o : Oracle} {e : Engine (Prog ω)} {s : Server ω} (hg : s.Good rx o e) {t u : Thread ω} (ht : t ∈ s.live)
    (hu : u ∈ s.live) (h : t.id = u.id) : t = u := by
  have hn := hg.ids
  obtain ⟨i, hi, rfl⟩ := List.mem_iff_getElem.1 ht
  obtain ⟨j, hj, rfl⟩ := List.mem_iff_getElem.1 hu
  rw [List.nodup_iff_pairwise_ne, List.pairwise_iff_getElem] at hn
  rcases Nat.lt_trichotomy i j with hij | hij | hij
  · exact absurd (by rw [List.getElem_map, List.getElem_map]; exact h) (hn i j (by simpa using hi) (by simpa using hj) hij)
  · subst hij; rfl
  · exact absurd (by rw [List.getElem_map, List.getElem_map]; exact h.symm) (hn j i (by simpa using hj) (by simpa using hi) hij)

/-- the request `k` is over -/
def Server.Over (s : Server ω) (k : Nat) : Prop := k < s.next ∧ ∀ t ∈ s.live, t.id ≠ k

theorem over_step {rx : Regex} {o : Oracle} {e : Engine (Prog ω)} {s s' : Server ω} {h : Happening} {k : Nat} (hs : Server.Step rx o e s h s')
    (ho : s.Over k) : s'.Over k ∧ h ≠ .act k := by
  obtain ⟨h1, h2⟩ := ho
  cases hs with
  | @arriveOld a b c i req rw body hf g1 g2 =>
    refine ⟨⟨Nat.lt_succ_of_lt h1, ?_⟩, by simp⟩
    intro t ht
    rcases List.mem_append.1 ht with ht | ht
    · exact h2 t ht
    · simp only [List.mem_singleton] at ht; subst ht; exact Ne.symm (Nat.ne_of_lt h1)
  | @arriveNew i req rw body g1 g2 =>
    refine ⟨⟨Nat.lt_succ_of_lt h1, ?_⟩, by simp⟩
    intro t ht
    rcases List.mem_append.1 ht with ht | ht
    · exact h2 t ht
    · simp only [List.mem_singleton] at ht; subst ht; exact Ne.symm (Nat.ne_of_lt h1)
  | @act a b t m hl hd hm =>
    have htk := h2 t (by rw [hl]; simp)
    refine ⟨⟨h1, ?_⟩, by intro hh; injection hh with hh; exact htk hh⟩
    intro u hu
    dsimp only at hu
    rcases List.mem_append.1 hu with hu | hu
    · exact h2 u (by rw [hl]; simp [hu])
    · rcases List.mem_cons.1 hu with rfl | hu
      · exact htk
      · exact h2 u (by rw [hl]; simp [hu])
  | @leave a b t hl g1 g2 =>
    refine ⟨⟨h1, ?_⟩, by simp⟩
    intro u hu
    exact h2 u (by rw [hl]; rcases List.mem_append.1 hu with h | h <;> simp [h])
  | @crash a b t v hl g1 g2 =>
    refine ⟨⟨h1, ?_⟩, by simp⟩
    intro u hu
    exact h2 u (by rw [hl]; rcases List.mem_append.1 hu with h | h <;> simp [h])
  | drop hf => exact ⟨⟨h1, h2⟩, by simp⟩

/-- a request that does not act itself stays where it is, with its context, or is over -/
theorem waits {rx : Regex} {o : Oracle} {e : Engine (Prog ω)} {s s' : Server ω} {h : Happening} (hg : s.Good rx o e) {t : Thread ω}
    (ht : t ∈ s.live) (hs : Server.Step rx o e s h s') (hne : h ≠ .act t.id) :
    (t ∈ s'.live ∧ s'.store t.ctx = s.store t.ctx) ∨ s'.Over t.id := by
  have hctx : (s.live.map (·.ctx)).Nodup := (List.nodup_append.1 hg.nodup).2.1
  cases hs with
  | @arriveOld a b c i req rw body hf g1 g2 =>
    left
    refine ⟨List.mem_append_left _ ht, ?_⟩
    refine setStore_other _ _ ?_
    intro hc
    refine (List.nodup_append.1 hg.nodup).2.2 c (by rw [hf]; simp) t.ctx (List.mem_map_of_mem ht) hc.symm
  | @arriveNew i req rw body g1 g2 =>
    left
    refine ⟨List.mem_append_left _ ht, ?_⟩
    exact setStore_other _ _ (Nat.ne_of_lt (hg.bound t.ctx (List.mem_append_right _ (List.mem_map_of_mem ht))))
  | @act a b u m hl hd hm =>
    have hut : u ≠ t := by rintro rfl; exact hne rfl
    left
    constructor
    · dsimp only
      rw [hl] at ht
      rcases List.mem_append.1 ht with h | h
      · exact List.mem_append_left _ h
      · rcases List.mem_cons.1 h with h | h
        · exact absurd h.symm hut
        · exact List.mem_append_right _ (List.mem_cons_of_mem _ h)
    · refine setStore_other _ _ ?_
      intro hc
      rw [hl] at hctx ht
      simp only [List.map_append, List.map_cons] at hctx
      obtain ⟨_, n2, n3⟩ := List.nodup_append.1 hctx
      rcases List.mem_append.1 ht with h | h
      · exact n3 t.ctx (List.mem_map_of_mem h) u.ctx (by simp) hc
      · rcases List.mem_cons.1 h with h | h
        · exact hut h.symm
        · exact (List.nodup_cons.1 n2).1 (by rw [← hc]; exact List.mem_map_of_mem h)
  | @leave a b u hl g1 g2 =>
    by_cases hut : u = t
    · subst hut
      right
      refine ⟨hg.idBound u ht, ?_⟩
      intro x hx hid
      have hxu := unique_id hg (t := x) (u := u) (by rw [hl]; rcases List.mem_append.1 hx with h | h <;> simp [h]) ht hid
      subst hxu
      rw [hl] at hctx
      simp only [List.map_append, List.map_cons] at hctx
      obtain ⟨_, n2, n3⟩ := List.nodup_append.1 hctx
      rcases List.mem_append.1 hx with h | h
      · exact n3 x.ctx (List.mem_map_of_mem h) x.ctx (by simp) rfl
      · exact (List.nodup_cons.1 n2).1 (List.mem_map_of_mem h)
    · left
      refine ⟨?_, rfl⟩
      rw [hl] at ht
      rcases List.mem_append.1 ht with h | h
      · exact List.mem_append_left _ h
      · rcases List.mem_cons.1 h with h | h
        · exact absurd h.symm hut
        · exact List.mem_append_right _ h
  | @crash a b u v hl g1 g2 =>
    by_cases hut : u = t
    · subst hut
      right
      refine ⟨hg.idBound u ht, ?_⟩
      intro x hx hid
      have hxu := unique_id hg (t := x) (u := u) (by rw [hl]; rcases List.mem_append.1 hx with h | h <;> simp [h]) ht hid
      subst hxu
      rw [hl] at hctx
      simp only [List.map_append, List.map_cons] at hctx
      obtain ⟨_, n2, n3⟩ := List.nodup_append.1 hctx
      rcases List.mem_append.1 hx with h | h
      · exact n3 x.ctx (List.mem_map_of_mem h) x.ctx (by simp) rfl
      · exact (List.nodup_cons.1 n2).1 (List.mem_map_of_mem h)
    · left
      refine ⟨?_, rfl⟩
      rw [hl] at ht
      rcases List.mem_append.1 ht with h | h
      · exact List.mem_append_left _ h
      · rcases List.mem_cons.1 h with h | h
        · exact absurd h.symm hut
        · exact List.mem_append_right _ h
  | drop hf => exact .inl ⟨ht, rfl⟩

theorem act_inv {rx : Regex} {o : Oracle} {e : Engine (Prog ω)} {s s' : Server ω} {k : Nat} (hs : Server.Step rx o e s (.act k) s') :
    ∃ a b t m, s.live = a ++ t :: b ∧ t.id = k ∧ (∀ r, ¬ (t.mode = .done r ∧ t.stack = [])) ∧
      m = (t.machine (s.store t.ctx) s.world).step o t.req ∧ s'.store = setStore s.store t.ctx m.st.ctx ∧
      s'.live = a ++ t.put m (t.machine (s.store t.ctx) s.world).told :: b := by
  generalize hact : Happening.act k = y at hs
  cases hs with
  | @act a b t m hl hd hm =>
    injection hact with hact
    exact ⟨a, b, t, m, hl, hact.symm, hd, hm, rfl, rfl⟩
  | _ => cases hact

/-- C78. No request goes on forever: in every infinite run of the server, with any requests coming in, every request acts only
finitely often. With `C78_enabled`, a request that gets its turn again and again is answered. -/
theorem C78_finishes {rx : Regex} {o : Oracle} {e : Engine (Prog ω)} (f : Nat → Server ω) (h : Nat → Happening)
    (h0 : Server.Reach rx o e (f 0)) (hs : ∀ n, Server.Step rx o e (f n) (h n) (f (n + 1))) (k : Nat) :
    ∃ N, ∀ n, N ≤ n → h n ≠ .act k := by
  have hr : ∀ n, Server.Reach rx o e (f n) := by
    intro n
    induction n with
    | zero => exact h0
    | succ n ih => exact .step ih (hs n)
  have hover : ∀ n, (f n).Over k → ∀ m, n ≤ m → h m ≠ .act k := by
    intro n hn m hm
    have : (f m).Over k := by
      obtain ⟨d, rfl⟩ := Nat.exists_eq_add_of_le hm
      clear hm
      induction d with
      | zero => exact hn
      | succ d ih => exact (over_step (hs (n + d)) ih).1
    exact (over_step (hs m) this).2
  -- from a state in which the request is at `m` it acts finitely often
  have main : ∀ (req : Req) (m : Machine ω), Halts o req m → ∀ n t, t ∈ (f n).live → t.id = k → t.req = req →
      (∃ w, t.machine ((f n).store t.ctx) w = m) → ∃ N, ∀ j, N ≤ j → h j ≠ .act k := by
    intro req m hm
    induction hm with
    | done r st =>
      intro n t ht hid _ hw
      refine ⟨n, ?_⟩
      -- it can only leave
      have still : ∀ d, t ∈ (f (n + d)).live → h (n + d) ≠ .act k := by
        intro d i1 ha
        have hsd := hs (n + d)
        rw [ha] at hsd
        obtain ⟨a, b, u, m', hl, hact, hd, -⟩ := act_inv hsd
        have hu := unique_id (hr (n + d)).good (t := u) (u := t) (by rw [hl]; simp) i1 (hact.trans hid.symm)
        subst hu
        obtain ⟨w, hw⟩ := hw
        exact hd r ⟨congrArg Machine.mode hw, congrArg Machine.stack hw⟩
      have stay : ∀ d, t ∈ (f (n + d)).live ∨ (f (n + d)).Over k := by
        intro d
        induction d with
        | zero => exact .inl ht
        | succ d ih =>
          rcases ih with i1 | ih
          · rcases waits (hr (n + d)).good i1 (hs (n + d)) (by rw [hid]; exact still d i1) with ⟨w1, _⟩ | w
            · exact .inl w1
            · rw [hid] at w; exact .inr w
          · exact .inr (over_step (hs (n + d)) ih).1
      intro j hj
      obtain ⟨d, rfl⟩ := Nat.exists_eq_add_of_le hj
      rcases stay d with i1 | ih
      · exact still d i1
      · exact (over_step (hs (n + d)) ih).2
    | step m _ ih =>
      intro n t ht hid hreq hw
      by_cases hex : ∃ d, h (n + d) = .act k
      · -- the first time it acts
        obtain ⟨d, hd, hmin⟩ : ∃ d, h (n + d) = .act k ∧ ∀ d' < d, h (n + d') ≠ .act k := by
          obtain ⟨d, hd⟩ := hex
          induction d using Nat.strongRecOn with
          | _ d ihd =>
            by_cases hx : ∃ d' < d, h (n + d') = .act k
            · obtain ⟨d', h1, h2⟩ := hx
              exact ihd d' h1 h2
            · exact ⟨d, hd, fun d' h1 h2 => hx ⟨d', h1, h2⟩⟩
        have stay : ∀ d' ≤ d, ((t ∈ (f (n + d')).live ∧ (f (n + d')).store t.ctx = (f n).store t.ctx) ∨ (f (n + d')).Over k) := by
          intro d'
          induction d' with
          | zero => intro _; exact .inl ⟨ht, rfl⟩
          | succ d' ihd =>
            intro hle
            rcases ihd (Nat.le_of_succ_le hle) with ⟨i1, i2⟩ | ihd
            · rcases waits (hr (n + d')).good i1 (hs (n + d')) (by rw [hid]; exact hmin d' hle) with ⟨w1, w2⟩ | w
              · exact .inl ⟨w1, by rw [← i2]; exact w2⟩
              · rw [hid] at w; exact .inr w
            · exact .inr (over_step (hs (n + d')) ihd).1
        rcases stay d (Nat.le_refl _) with ⟨i1, i2⟩ | hov
        · have hsd := hs (n + d)
          rw [hd] at hsd
          obtain ⟨a, b, u, m', hl, hact, _, hm', hst, hlv⟩ := act_inv hsd
          have hu := unique_id (hr (n + d)).good (t := u) (u := t) (by rw [hl]; simp) i1 (hact.trans hid.symm)
          subst hu
          obtain ⟨w, hw⟩ := hw
          refine ih (f (n + d)).world (n + d + 1)
            (u.put m' (u.machine ((f (n + d)).store u.ctx) (f (n + d)).world).told) ?_ hid hreq ⟨m'.st.world, ?_⟩
          · rw [hlv]; simp
          · have e1 : (u.put m' (u.machine ((f (n + d)).store u.ctx) (f (n + d)).world).told).ctx = u.ctx := rfl
            rw [e1, hst, setStore_same, put_machine, hm', i2, ← hw, hreq]
            rfl
        · exact absurd hd (over_step (hs (n + d)) hov).2
      · refine ⟨n, fun j hj ha => hex ?_⟩
        obtain ⟨d, rfl⟩ := Nat.exists_eq_add_of_le hj
        exact ⟨d, ha⟩
  by_cases hex : ∃ n, h n = .act k
  · obtain ⟨n, hn⟩ := hex
    have hsn := hs n
    rw [hn] at hsn
    obtain ⟨a, b, u, m', hl, hact, -⟩ := act_inv hsn
    have hu : u ∈ (f n).live := by rw [hl]; simp
    exact main u.req _ (((hr n).good.live u hu).2 (f n).world) n u hu hact rfl ⟨_, rfl⟩
  · exact ⟨0, fun n _ hn => hex ⟨n, hn⟩⟩

/-- C78. At every moment, two requests in progress have different context objects, and none of these is in the pool. -/
theorem C78_unshared {rx : Regex} {o : Oracle} {e : Engine (Prog ω)} {s : Server ω} (h : Server.Reach rx o e s) :
    (s.live.map (·.ctx)).Nodup ∧ ∀ t ∈ s.live, t.ctx ∉ s.free := by
  obtain ⟨_, h2, h3⟩ := List.nodup_append.1 h.good.nodup
  exact ⟨h2, fun t ht hf => h3 _ hf _ (List.mem_map_of_mem ht) rfl⟩

theorem known_step {rx : Regex} {o : Oracle} {e : Engine (Prog ω)} {s s' : Server ω} {h : Happening} {k : Nat} (hs : Server.Step rx o e s h s')
    (hk : (∃ t ∈ s.live, t.id = k) ∨ ∃ a ∈ s.gone, a.id = k) :
    ((∃ t ∈ s'.live, t.id = k) ∨ ∃ a ∈ s'.gone, a.id = k) ∧ (h = .leave k → ∃ a ∈ s'.gone, a.id = k) := by
  have out : ∀ (a b : List (Thread ω)) (t : Thread ω) (x : Answer ω), s.live = a ++ t :: b → x.id = t.id →
      (∃ t ∈ a ++ b, t.id = k) ∨ ∃ y ∈ s.gone ++ [x], y.id = k := by
    intro a b t x hl hx
    rcases hk with ⟨u, hu, hid⟩ | ⟨y, hy, hid⟩
    · rw [hl] at hu
      rcases List.mem_append.1 hu with hu | hu
      · exact .inl ⟨u, List.mem_append_left _ hu, hid⟩
      · rcases List.mem_cons.1 hu with rfl | hu
        · exact .inr ⟨x, by simp, hx.trans hid⟩
        · exact .inl ⟨u, List.mem_append_right _ hu, hid⟩
    · exact .inr ⟨y, List.mem_append_left _ hy, hid⟩
  cases hs with
  | arriveOld hf g1 g2 =>
    refine ⟨?_, by simp⟩
    rcases hk with ⟨u, hu, hid⟩ | hy
    · exact .inl ⟨u, List.mem_append_left _ hu, hid⟩
    · exact .inr hy
  | arriveNew g1 g2 =>
    refine ⟨?_, by simp⟩
    rcases hk with ⟨u, hu, hid⟩ | hy
    · exact .inl ⟨u, List.mem_append_left _ hu, hid⟩
    · exact .inr hy
  | @act a b t m hl hd hm =>
    refine ⟨?_, by simp⟩
    rcases hk with ⟨u, hu, hid⟩ | hy
    · rw [hl] at hu
      rcases List.mem_append.1 hu with hu | hu
      · exact .inl ⟨u, List.mem_append_left _ hu, hid⟩
      · rcases List.mem_cons.1 hu with rfl | hu
        · exact .inl ⟨_, List.mem_append_right _ List.mem_cons_self, hid⟩
        · exact .inl ⟨u, List.mem_append_right _ (List.mem_cons_of_mem _ hu), hid⟩
    · exact .inr hy
  | @leave a b t hl g1 g2 =>
    refine ⟨out a b t _ hl rfl, ?_⟩
    intro hh
    injection hh with hh
    exact ⟨t.answer .ret, by simp, hh⟩
  | @crash a b t v hl g1 g2 =>
    refine ⟨out a b t _ hl rfl, ?_⟩
    intro hh
    injection hh with hh
    exact ⟨t.answer (.panic v), by simp, hh⟩
  | drop hf => exact ⟨hk, by simp⟩

/-- C78. Every request is answered, in every infinite run in which it gets its turn (to act or to leave) again and again as long as
it is in progress. -/
theorem C78_answered {rx : Regex} {o : Oracle} {e : Engine (Prog ω)} (f : Nat → Server ω) (h : Nat → Happening)
    (h0 : Server.Reach rx o e (f 0)) (hs : ∀ n, Server.Step rx o e (f n) (h n) (f (n + 1))) {n k : Nat}
    (hk : ∃ t ∈ (f n).live, t.id = k)
    (fair : ∀ N, ∃ j, N ≤ j ∧ (h j = .act k ∨ h j = .leave k ∨ ∀ t ∈ (f j).live, t.id ≠ k)) :
    ∃ j, ∃ a ∈ (f j).gone, a.id = k := by
  obtain ⟨N, hN⟩ := C78_finishes f h h0 hs k
  obtain ⟨j, hj, hf⟩ := fair (max N n)
  have hkn : (∃ t ∈ (f j).live, t.id = k) ∨ ∃ a ∈ (f j).gone, a.id = k := by
    obtain ⟨d, rfl⟩ := Nat.exists_eq_add_of_le (Nat.le_trans (Nat.le_max_right N n) hj)
    clear hf hj
    induction d with
    | zero => exact .inl hk
    | succ d ih => exact (known_step (hs (n + d)) ih).1
  rcases hf with hf | hf | hf
  · exact absurd hf (hN j (Nat.le_trans (Nat.le_max_left N n) hj))
  · exact ⟨j + 1, (known_step (hs j) hkn).2 hf⟩
  · rcases hkn with ⟨t, ht, hid⟩ | hg
    · exact absurd hid (hf t ht)
    · exact ⟨j, hg⟩

/-- C78. No request is answered twice, or answered and still in progress. -/
theorem C78_once {rx : Regex} {o : Oracle} {e : Engine (Prog ω)} {s : Server ω} (h : Server.Reach rx o e s) :
    (s.live.map (·.id) ++ s.gone.map (·.id)).Nodup ∧ ∀ k ∈ s.live.map (·.id) ++ s.gone.map (·.id), k < s.next := by
  induction h with
  | init w => exact ⟨List.nodup_nil, by simp [Server.init]⟩
  | @step s h s' _ hs ih =>
    obtain ⟨i1, i2⟩ := ih
    have arr : ∀ (c : Nat) (req : Req) (rw : Writer) (body : Option Str) (m : Machine ω),
        ((s.live ++ [Thread.fresh s.next req rw body c m]).map (·.id) ++ s.gone.map (·.id)).Nodup ∧
          ∀ k ∈ (s.live ++ [Thread.fresh s.next req rw body c m]).map (·.id) ++ s.gone.map (·.id), k < s.next + 1 := by
      intro c req rw body m
      have hp : ((s.live ++ [Thread.fresh s.next req rw body c m]).map (·.id) ++ s.gone.map (·.id)).Perm
          (s.next :: (s.live.map (·.id) ++ s.gone.map (·.id))) := by
        rw [List.map_append, List.append_assoc]
        exact List.perm_middle
      refine ⟨hp.nodup_iff.2 (List.nodup_cons.2 ⟨fun hm => Nat.lt_irrefl _ (i2 _ hm), i1⟩), ?_⟩
      intro k hk
      rcases List.mem_cons.1 (hp.mem_iff.1 hk) with rfl | hk
      · exact Nat.lt_succ_self _
      · exact Nat.lt_succ_of_lt (i2 k hk)
    have out : ∀ (a b : List (Thread ω)) (t : Thread ω) (x : Answer ω), s.live = a ++ t :: b → x.id = t.id →
        ((a ++ b).map (·.id) ++ (s.gone ++ [x]).map (·.id)).Nodup ∧
          ∀ k ∈ (a ++ b).map (·.id) ++ (s.gone ++ [x]).map (·.id), k < s.next := by
      intro a b t x hl hx
      have hp : ((a ++ b).map (·.id) ++ (s.gone ++ [x]).map (·.id)).Perm (s.live.map (·.id) ++ s.gone.map (·.id)) := by
        rw [hl]
        simp only [List.map_append, List.map_cons, List.map_nil, List.append_assoc, hx]
        refine List.Perm.append_left _ ?_
        have : (List.map (·.id) b ++ (List.map (·.id) s.gone ++ [t.id])).Perm (t.id :: (List.map (·.id) b ++ List.map (·.id) s.gone)) := by
          rw [← List.append_assoc]
          exact List.perm_append_singleton _ _
        exact this
      exact ⟨hp.nodup_iff.2 i1, fun k hk => i2 k (hp.mem_iff.1 hk)⟩
    cases hs with
    | arriveOld hf g1 g2 => exact arr _ _ _ _ _
    | arriveNew g1 g2 => exact arr _ _ _ _ _
    | @act a b t m hl hd hm =>
      have e1 : (a ++ t.put m (t.machine (s.store t.ctx) s.world).told :: b).map (·.id) = s.live.map (·.id) := by
        rw [hl]; simp [Thread.put]
      dsimp only
      rw [e1]
      exact ⟨i1, i2⟩
    | @leave a b t hl g1 g2 => exact out a b t _ hl rfl
    | @crash a b t v hl g1 g2 => exact out a b t _ hl rfl
    | drop hf => exact ⟨i1, i2⟩

namespace Demo

/-- commands to the server: a new request with a new context, or with the first one of the pool; an action or the end of the request at
a place in the list -/
inductive Cmd where
  | fresh (req : Req)
  | pooled (req : Req)
  | act (k : Nat)
  | leave (k : Nat)

/-- carry out a command -/
def play1 (rx : Regex) (o : Oracle) (e : Engine (Prog Unit)) (s : Server Unit) : Cmd → Option (Server Unit)
  | .fresh req =>
    match refused req, methodIndex req.method with
    | false, some i =>
      let m := Machine.start rx o e Ctx.new req i Writer.new none s.world
      some { s with next := s.next + 1, made := s.made + 1, store := setStore s.store s.made m.st.ctx,
                    live := s.live ++ [Thread.fresh s.next req Writer.new none s.made m] }
    | _, _ => none
  | .pooled req =>
    match refused req, methodIndex req.method, s.free with
    | false, some i, c :: b =>
      let m := Machine.start rx o e (s.store c) req i Writer.new none s.world
      some { s with next := s.next + 1, free := b, store := setStore s.store c m.st.ctx,
                    live := s.live ++ [Thread.fresh s.next req Writer.new none c m] }
    | _, _, _ => none
  | .act k =>
    match s.live.drop k with
    | [] => none
    | t :: b =>
      match t.mode, t.stack with
      | .done _, [] => none
      | _, _ =>
        let m := (t.machine (s.store t.ctx) s.world).step o t.req
        some { s with store := setStore s.store t.ctx m.st.ctx, world := m.st.world,
                      live := s.live.take k ++ t.put m (t.machine (s.store t.ctx) s.world).told :: b }
  | .leave k =>
    match s.live.drop k with
    | [] => none
    | t :: b =>
      match t.mode, t.stack with
      | .done none, [] => some { s with live := s.live.take k ++ b, free := s.free ++ [t.ctx], gone := s.gone ++ [t.answer .ret] }
      | .done (some v), [] => some { s with live := s.live.take k ++ b, gone := s.gone ++ [t.answer (.panic v)] }
      | _, _ => none

theorem play1_step {rx : Regex} {o : Oracle} {e : Engine (Prog Unit)} {s s' : Server Unit} {c : Cmd} (h : play1 rx o e s c = some s') :
    ∃ x, Server.Step rx o e s x s' := by
  cases c with
  | fresh req =>
    simp only [play1] at h
    split at h
    · rename_i i h1 h2
      injection h with h
      subst h
      exact ⟨_, .arriveNew h1 h2⟩
    · cases h
  | pooled req =>
    simp only [play1] at h
    split at h
    · rename_i i c b h1 h2 h3
      injection h with h
      subst h
      exact ⟨_, .arriveOld (a := []) h3 h1 h2⟩
    · cases h
  | act k =>
    simp only [play1] at h
    split at h
    · cases h
    · rename_i t b hd
      have hl : s.live = s.live.take k ++ t :: b := by rw [← hd]; exact (List.take_append_drop k s.live).symm
      split at h
      · cases h
      · rename_i hn
        injection h with h
        subst h
        exact ⟨_, .act hl (fun r hr => hn r hr.1 hr.2) rfl⟩
  | leave k =>
    simp only [play1] at h
    split at h
    · cases h
    · rename_i t b hd
      have hl : s.live = s.live.take k ++ t :: b := by rw [← hd]; exact (List.take_append_drop k s.live).symm
      split at h
      · rename_i h1 h2
        injection h with h
        subst h
        exact ⟨_, .leave hl h1 h2⟩
      · rename_i v h1 h2
        injection h with h
        subst h
        exact ⟨_, .crash hl h1 h2⟩
      · cases h

def play (rx : Regex) (o : Oracle) (e : Engine (Prog Unit)) : Server Unit → List Cmd → Option (Server Unit)
  | s, [] => some s
  | s, c :: cs => (play1 rx o e s c).bind (play rx o e · cs)

theorem play_reach {rx : Regex} {o : Oracle} {e : Engine (Prog Unit)} {cs : List Cmd} : ∀ {s s' : Server Unit}, Server.Reach rx o e s →
    play rx o e s cs = some s' → Server.Reach rx o e s' := by
  induction cs with
  | nil => intro s s' hr h; injection h with h; exact h ▸ hr
  | cons c cs ih =>
    intro s s' hr h
    simp only [play] at h
    cases h1 : play1 rx o e s c with
    | none => rw [h1] at h; cases h
    | some s1 =>
      rw [h1] at h
      obtain ⟨x, hx⟩ := play1_step h1
      exact ih (.step hr hx) h

/-- the requests of a list of commands -/
def asked : List Cmd → List Req
  | [] => []
  | .fresh r :: cs => r :: asked cs
  | .pooled r :: cs => r :: asked cs
  | _ :: cs => asked cs

/-- requests are answered as they were asked, with a new writer and without a body -/
def Plain (rs : List Req) (s : Server Unit) : Prop :=
  (∀ t ∈ s.live, t.req ∈ rs ∧ t.rw₀ = Writer.new ∧ t.body₀ = none) ∧ ∀ a ∈ s.gone, a.req ∈ rs ∧ a.rw₀ = Writer.new ∧ a.body₀ = none

theorem play1_plain {rx : Regex} {o : Oracle} {e : Engine (Prog Unit)} {s s' : Server Unit} {c : Cmd} {rs : List Req}
    (hc : ∀ r ∈ asked [c], r ∈ rs) (h : play1 rx o e s c = some s') (hp : Plain rs s) : Plain rs s' := by
  obtain ⟨h1, h2⟩ := hp
  cases c with
  | fresh req =>
    simp only [play1] at h
    split at h
    · injection h with h
      subst h
      refine ⟨fun t ht => ?_, h2⟩
      rcases List.mem_append.1 ht with ht | ht
      · exact h1 t ht
      · rw [List.mem_singleton.1 ht]; exact ⟨hc req (by simp [asked]), rfl, rfl⟩
    · cases h
  | pooled req =>
    simp only [play1] at h
    split at h
    · injection h with h
      subst h
      refine ⟨fun t ht => ?_, h2⟩
      rcases List.mem_append.1 ht with ht | ht
      · exact h1 t ht
      · rw [List.mem_singleton.1 ht]; exact ⟨hc req (by simp [asked]), rfl, rfl⟩
    · cases h
  | act k =>
    simp only [play1] at h
    split at h
    · cases h
    · rename_i t b hd
      have hl : s.live = s.live.take k ++ t :: b := by rw [← hd]; exact (List.take_append_drop k s.live).symm
      split at h
      · cases h
      · injection h with h
        subst h
        refine ⟨fun u hu => ?_, h2⟩
        dsimp only at hu
        rcases List.mem_append.1 hu with hu | hu
        · exact h1 u (List.mem_of_mem_take hu)
        · rcases List.mem_cons.1 hu with rfl | hu
          · exact h1 t (by rw [hl]; simp)
          · exact h1 u (by rw [hl]; simp [hu])
  | leave k =>
    simp only [play1] at h
    split at h
    · cases h
    · rename_i t b hd
      have hl : s.live = s.live.take k ++ t :: b := by rw [← hd]; exact (List.take_append_drop k s.live).symm
      have hlv : ∀ u ∈ s.live.take k ++ b, u.req ∈ rs ∧ u.rw₀ = Writer.new ∧ u.body₀ = none := by
        intro u hu
        rcases List.mem_append.1 hu with hu | hu
        · exact h1 u (List.mem_of_mem_take hu)
        · exact h1 u (by rw [hl]; simp [hu])
      split at h
      · injection h with h
        subst h
        refine ⟨hlv, fun a ha => ?_⟩
        rcases List.mem_append.1 ha with ha | ha
        · exact h2 a ha
        · rw [List.mem_singleton.1 ha]; exact h1 t (by rw [hl]; simp)
      · injection h with h
        subst h
        refine ⟨hlv, fun a ha => ?_⟩
        rcases List.mem_append.1 ha with ha | ha
        · exact h2 a ha
        · rw [List.mem_singleton.1 ha]; exact h1 t (by rw [hl]; simp)
      · cases h

theorem play_plain {rx : Regex} {o : Oracle} {e : Engine (Prog Unit)} {rs : List Req} {cs : List Cmd} : (∀ r ∈ asked cs, r ∈ rs) →
    ∀ {s s' : Server Unit}, Plain rs s → play rx o e s cs = some s' → Plain rs s' := by
  induction cs with
  | nil => intro _ s s' hr h; injection h with h; exact h ▸ hr
  | cons c cs ih =>
    intro hc s s' hr h
    simp only [play] at h
    cases h1 : play1 rx o e s c with
    | none => rw [h1] at h; cases h
    | some s1 =>
      rw [h1] at h
      exact ih (fun r hr => hc r (by cases c <;> simp [asked, hr])) (play1_plain (fun r hr => hc r (by cases c <;> simp_all [asked])) h1 hr) h

theorem plain_init (rs : List Req) : Plain rs (Server.init ()) := ⟨by simp [Server.init], by simp [Server.init]⟩

/-- two requests for `/u/1` and `/u/2`, action by action in turn; the second leaves, and a third, for `/u/3`, gets its context while
the first is not done -/
def twoAtOnce : List Cmd :=
  [.fresh (at' b!"/u/1"), .fresh (at' b!"/u/2")] ++ (List.replicate 6 [Cmd.act 0, Cmd.act 1]).flatten ++ List.replicate 4 (.act 1) ++
  [.leave 1, .pooled (at' b!"/u/3")] ++ (List.replicate 4 [Cmd.act 1, Cmd.act 0]).flatten ++ List.replicate 6 (.act 1) ++
  [.leave 1, .leave 0]

/-- what was written -/
def answered (a : Answer Unit) : Nat × Bool × Str :=
  (a.id, a.out == .ret, a.rw.log.flatMap (fun x => match x with | .body b => b | _ => []))

/-- C78 is not empty: three requests, at most two context objects, each request answered with its own parameter. -/
example : (withServe [] fun e =>
    !e.enableStatic &&
    match play rx chainO e (Server.init ()) twoAtOnce with
    | some s => s.gone.map answered == [(1, true, b!"2"), (2, true, b!"3"), (0, true, b!"1")] && s.gone.all (·.told.isEmpty) && s.made == 2
    | none => false) = true := by decide +kernel

/-- and the hypotheses of `C78_alone` are met by its answers -/
example : ∃ (heap : Heap (Prog Unit)) (e : Engine (Prog Unit)) (s : Server Unit) (a : Answer Unit),
    runOps [] serveOps = .ok heap ∧ handler rx heap 0 [] = .ok e ∧
    e.enableStatic = false ∧ Server.Reach rx chainO e s ∧ a ∈ s.gone ∧ a.told = [] := by
  obtain ⟨heap, e, h1, h2, h3⟩ := withServe_spec (opts := []) (p := fun e =>
    !e.enableStatic &&
    match play rx chainO e (Server.init ()) twoAtOnce with
    | some s => match s.gone with | [] => false | a :: _ => a.told.isEmpty
    | none => false) (by decide +kernel)
  simp only [Bool.and_eq_true, Bool.not_eq_true'] at h3
  obtain ⟨h3, h4⟩ := h3
  split at h4
  · rename_i s hs
    split at h4
    · cases h4
    · rename_i a as ha
      exact ⟨heap, e, s, a, h1, h2, h3, play_reach (.init ()) hs, by rw [ha]; exact List.mem_cons_self, List.isEmpty_iff.1 h4⟩
  · cases h4

/-- `/s` in a new context -/
def first : List Cmd := [.fresh (at' b!"/s")] ++ List.replicate 7 (.act 0) ++ [.leave 0]
/-- `/s` in the context of `/u/42` -/
def second : List Cmd :=
  [.fresh (at' b!"/u/42")] ++ List.replicate 10 (.act 0) ++ [.leave 0, .pooled (at' b!"/s")] ++ List.replicate 10 (.act 0) ++ [.leave 0]

end Demo

open Demo in
/-- C78 as stated is false: with the static-route option on, `/s` asked for after `/u/42`, in the same context object, gets the
parameter of that request; asked for first it panics. -/
theorem C78_refuted : ∃ (rx : Regex) (o : Oracle) (heap : Heap (Prog Unit)) (e : Engine (Prog Unit)) (s s' : Server Unit) (a a' : Answer Unit),
    runOps [] serveOps = .ok heap ∧ handler rx heap 0 [.staticRouter true] = .ok e ∧
    Server.Reach rx o e s ∧ Server.Reach rx o e s' ∧ a ∈ s.gone ∧ a' ∈ s'.gone ∧
    a.req = a'.req ∧ a.rw₀ = a'.rw₀ ∧ a.body₀ = a'.body₀ ∧ a.told = a'.told ∧ a.out ≠ a'.out := by
  obtain ⟨heap, e, h1, h2, h3⟩ := withServe_spec (opts := [.staticRouter true]) (p := fun e =>
    match play rx chainO e (Server.init ()) second, play rx chainO e (Server.init ()) first with
    | some s, some s' =>
      match s.gone, s'.gone with
      | [_, a], [a'] => a.req.path == b!"/s" && a.told.isEmpty && a'.told.isEmpty && a.out == .ret && a'.out == .panic callPanic
      | _, _ => false
    | _, _ => false) (by decide +kernel)
  split at h3
  · rename_i s s' hs hs'
    split at h3
    · rename_i a0 a a' ha ha'
      simp only [Bool.and_eq_true, beq_iff_eq, List.isEmpty_iff] at h3
      obtain ⟨⟨⟨⟨e1, e2⟩, e3⟩, e4⟩, e5⟩ := h3
      have hm : a ∈ s.gone := by rw [ha]; simp
      have hm' : a' ∈ s'.gone := by rw [ha']; simp
      obtain ⟨p1, p2, p3⟩ := (play_plain (rs := [at' b!"/u/42", at' b!"/s"]) (by simp [second, asked, List.replicate]) (plain_init _) hs).2 a hm
      obtain ⟨q1, q2, q3⟩ := (play_plain (rs := [at' b!"/s"]) (by simp [first, asked, List.replicate]) (plain_init _) hs').2 a' hm'
      have p4 : a.req = at' b!"/s" := by
        rcases List.mem_cons.1 p1 with p1 | p1
        · rw [p1] at e1; exact absurd e1 (by decide)
        · exact List.mem_singleton.1 p1
      refine ⟨rx, chainO, heap, e, s, s', a, a', h1, h2, play_reach (.init ()) hs, play_reach (.init ()) hs', hm, hm',
        by rw [p4, List.mem_singleton.1 q1], by rw [p2, q2], by rw [p3, q3], by rw [e2, e3], ?_⟩
      rw [e4, e5]
      intro hh
      cases hh
    · cases h3
  · cases h3

end Water
