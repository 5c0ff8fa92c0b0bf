import Verif.Spec.Apps
import Verif.Lemmas.Handler
/- Helper lemmas: the routers of one application look the same in the heap of a whole process and in a heap of
their own. -/
namespace Water
open Spec
variable {α : Type}

theorem place_some {g : List Nat} {i k : Nat} (h : place g i = some k) : g[k]? = some i := by
  induction g generalizing k with
  | nil => simp [place] at h
  | cons x g ih =>
    unfold place at h
    split at h
    · rename_i hx; cases h; simp [hx]
    · obtain ⟨j, hj, rfl⟩ := Option.map_eq_some_iff.1 h
      simpa using ih hj

theorem place_none {g : List Nat} {i : Nat} (h : place g i = none) : i ∉ g := by
  induction g with
  | nil => simp
  | cons x g ih =>
    unfold place at h
    split at h
    · cases h
    · rename_i hx
      simp only [Option.map_eq_none_iff] at h
      simp only [List.mem_cons, not_or]
      exact ⟨fun e => hx e.symm, ih h⟩

/-- a router of the application in the process (`n`) and alone (`n'`) -/
structure SameNode (g : List Nat) (n n' : RNode α) : Prop where
  method : n.method = n'.method
  pattern : n.pattern = n'.pattern
  gbefores : n.gbefores = n'.gbefores
  befores : n.befores = n'.befores
  handlers : n.handlers = n'.handlers
  parent : n.parent.map some = n'.parent.map (fun p => g[p]?)
  sub : n.sub.map some = n'.sub.map (fun p => g[p]?)

/-- the heap of the process and the heap of the application alone; `g` gives the addresses -/
structure AppSim (g : List Nat) (heap heap' : Heap α) : Prop where
  len : heap'.length = g.length
  sorted : g.Pairwise (· < ·)
  bound : ∀ i ∈ g, i < heap.length
  node : ∀ k i : Nat, g[k]? = some i → ∃ n n', heap[i]? = some n ∧ heap'[k]? = some n' ∧ SameNode g n n'

theorem sim_nil (heap : Heap α) : AppSim [] heap [] := ⟨rfl, by simp, by simp, by simp⟩

theorem getElem?_inj_of_sorted {g : List Nat} (hs : g.Pairwise (· < ·)) {a b i : Nat} (ha : g[a]? = some i)
    (hb : g[b]? = some i) : a = b := by
  obtain ⟨h1, e1⟩ := List.getElem?_eq_some_iff.1 ha
  obtain ⟨h2, e2⟩ := List.getElem?_eq_some_iff.1 hb
  rw [List.pairwise_iff_getElem] at hs
  rcases Nat.lt_trichotomy a b with h | h | h
  · have := hs a b h1 h2 h; omega
  · exact h
  · have := hs b a h2 h1 h; omega

/-- a call on another router -/
theorem AppSim.modify_other {g : List Nat} {heap heap' : Heap α} (h : AppSim g heap heap') {q : Nat} (hq : q ∉ g)
    (f : RNode α → RNode α) : AppSim g (heap.modify q f) heap' := by
  refine ⟨h.len, h.sorted, by simpa using h.bound, ?_⟩
  intro k i hk
  obtain ⟨n, n', h1, h2, h3⟩ := h.node k i hk
  refine ⟨n, n', ?_, h2, h3⟩
  have : q ≠ i := by rintro rfl; exact hq (List.mem_of_getElem? hk)
  rw [List.getElem?_modify]
  simp [h1, this]

/-- making something elsewhere -/
theorem AppSim.append_other {g : List Nat} {heap heap' : Heap α} (h : AppSim g heap heap') (l : List (RNode α)) :
    AppSim g (heap ++ l) heap' := by
  refine ⟨h.len, h.sorted, ?_, ?_⟩
  · intro i hi; have := h.bound i hi; simp; omega
  · intro k i hk
    obtain ⟨n, n', h1, h2, h3⟩ := h.node k i hk
    refine ⟨n, n', ?_, h2, h3⟩
    rw [List.getElem?_append_left (List.getElem?_eq_some_iff.1 h1).1, h1]

/-- a call on a router of the application -/
theorem AppSim.modify_own {g : List Nat} {heap heap' : Heap α} (h : AppSim g heap heap') {q k : Nat} (hq : g[k]? = some q)
    {f f' : RNode α → RNode α} (hf : ∀ n n', SameNode g n n' → SameNode g (f n) (f' n')) :
    AppSim g (heap.modify q f) (heap'.modify k f') := by
  refine ⟨by simpa using h.len, h.sorted, by simpa using h.bound, ?_⟩
  intro j i hj
  obtain ⟨n, n', h1, h2, h3⟩ := h.node j i hj
  rw [List.getElem?_modify, List.getElem?_modify, h1, h2]
  by_cases e : k = j
  · subst e
    rw [hq] at hj; cases hj
    exact ⟨f n, f' n', by simp, by simp, hf _ _ h3⟩
  · have : q ≠ i := fun e' => e (getElem?_inj_of_sorted h.sorted hq (e' ▸ hj))
    exact ⟨n, n', by simp [this], by simp [e], h3⟩

theorem SameNode.grow {g : List Nat} {n n' : RNode α} (h : SameNode g n n') (x : Nat) : SameNode (g ++ [x]) n n' := by
  have hg : ∀ p q : Nat, g[p]? = some q → (g ++ [x])[p]? = some q := by
    intro p q hp
    rw [List.getElem?_append_left (List.getElem?_eq_some_iff.1 hp).1, hp]
  refine ⟨h.method, h.pattern, h.gbefores, h.befores, h.handlers, ?_, ?_⟩
  · have := h.parent
    cases e : n.parent <;> cases e' : n'.parent <;> rw [e, e'] at this <;> simp at this ⊢
    exact (hg _ _ this.symm).symm
  · have := h.sub
    revert this
    generalize n.sub = a
    generalize n'.sub = b
    induction a generalizing b with
    | nil => cases b <;> simp
    | cons y ys ih =>
      cases b with
      | nil => simp
      | cons z zs =>
        simp only [List.map_cons, List.cons.injEq]
        exact fun e => ⟨(hg _ _ e.1.symm).symm, ih zs e.2⟩

/-- making something inside a router of the application, or its root -/
theorem AppSim.make {g : List Nat} {heap heap' : Heap α} (h : AppSim g heap heap') {n n' : RNode α}
    (hn : SameNode (g ++ [heap.length]) n n') : AppSim (g ++ [heap.length]) (heap ++ [n]) (heap' ++ [n']) := by
  refine ⟨by simp [h.len], ?_, ?_, ?_⟩
  · rw [List.pairwise_append]
    exact ⟨h.sorted, by simp, fun a ha b hb => by simp at hb; subst hb; exact h.bound a ha⟩
  · intro i hi
    simp only [List.mem_append, List.mem_singleton] at hi
    rcases hi with hi | rfl
    · have := h.bound i hi; simp; omega
    · simp
  · intro k i hk
    by_cases e : k < g.length
    · rw [List.getElem?_append_left e] at hk
      obtain ⟨m, m', h1, h2, h3⟩ := h.node k i hk
      exact ⟨m, m', by rw [List.getElem?_append_left (List.getElem?_eq_some_iff.1 h1).1, h1],
        by rw [List.getElem?_append_left (List.getElem?_eq_some_iff.1 h2).1, h2], h3.grow _⟩
    · have hk' : k = g.length := by
        have := (List.getElem?_eq_some_iff.1 hk).1; simp at this; omega
      subst hk'
      simp only [List.getElem?_concat_length, Option.some.injEq] at hk
      subst hk
      exact ⟨n, n', by simp, by rw [← h.len]; simp, hn⟩

theorem modify_concat {β : Type} {l : List β} {q : Nat} (hq : q < l.length) (f : β → β) (x : β) :
    (l ++ [x]).modify q f = l.modify q f ++ [x] := by
  apply List.ext_getElem?
  intro j
  rw [List.getElem?_modify]
  by_cases hj : j < l.length
  · rw [List.getElem?_append_left hj, List.getElem?_append_left (by simpa using hj), List.getElem?_modify]
  · have : q ≠ j := by omega
    rw [List.getElem?_append_right (by omega), List.getElem?_append_right (by simp; omega)]
    simp [this]

theorem AppSim.child {g : List Nat} {heap heap' : Heap α} (h : AppSim g heap heap') {q k : Nat} (hq : g[k]? = some q)
    {n n' : RNode α} (hp : n.parent = some q) (hp' : n'.parent = some k) (hs : n.sub = []) (hs' : n'.sub = [])
    (h1 : n.method = n'.method) (h2 : n.pattern = n'.pattern) (h3 : n.gbefores = n'.gbefores)
    (h4 : n.befores = n'.befores) (h5 : n.handlers = n'.handlers) :
    AppSim (g ++ [heap.length]) (addChild heap q n) (addChild heap' k n') := by
  have hkl := (List.getElem?_eq_some_iff.1 hq).1
  have hk2 : (g ++ [heap.length])[k]? = some q := by rw [List.getElem?_append_left hkl, hq]
  have hnew : SameNode (g ++ [heap.length]) n n' :=
    ⟨h1, h2, h3, h4, h5, by simp [hp, hp', hk2], by simp [hs, hs']⟩
  have hm := h.make hnew
  have hql : q < heap.length := h.bound q (List.mem_of_getElem? hq)
  have hkl' : k < heap'.length := by rw [h.len]; exact hkl
  unfold addChild
  rw [← modify_concat hql, ← modify_concat hkl']
  refine hm.modify_own hk2 ?_
  intro m m' hs
  refine ⟨hs.method, hs.pattern, hs.gbefores, hs.befores, hs.handlers, hs.parent, ?_⟩
  simp only [List.map_append, hs.sub, List.map_cons, List.map_nil, h.len]
  simp

/-- where the root of the application is -/
def RootAt (r : Nat) (heap : Heap α) (g : List Nat) : Prop :=
  (heap.length ≤ r ∧ g = []) ∨ g[0]? = some r ∨ (g = [] ∧ ∃ n, heap[r]? = some n ∧ n.parent ≠ none)

theorem RootAt.modify {r : Nat} {heap : Heap α} {g : List Nat} (h : RootAt r heap g) {q : Nat} {f : RNode α → RNode α}
    (hf : ∀ n, (f n).parent = n.parent) : RootAt r (heap.modify q f) g := by
  rcases h with h | h | ⟨h, n, hn, hp⟩
  · exact .inl (by simpa using h)
  · exact .inr (.inl h)
  · refine .inr (.inr ⟨h, ?_⟩)
    rw [List.getElem?_modify, hn]
    by_cases e : q = r
    · exact ⟨f n, by simp [e], by rw [hf]; exact hp⟩
    · exact ⟨n, by simp [e], hp⟩

theorem RootAt.append {r : Nat} {heap : Heap α} {g : List Nat} (h : RootAt r heap g) {n : RNode α}
    (hn : heap.length = r → n.parent ≠ none) : RootAt r (heap ++ [n]) g := by
  rcases h with ⟨h, hg⟩ | h | ⟨h, m, hm, hp⟩
  · by_cases e : heap.length = r
    · refine .inr (.inr ⟨hg, n, ?_, hn e⟩)
      rw [← e]; simp
    · exact .inl ⟨by simp; omega, hg⟩
  · exact .inr (.inl h)
  · exact .inr (.inr ⟨h, m, by rw [List.getElem?_append_left (List.getElem?_eq_some_iff.1 hm).1, hm], hp⟩)

theorem RootAt.grow {r : Nat} {heap heap1 : Heap α} {g : List Nat} {k q x : Nat} (h : RootAt r heap g) (hk : g[k]? = some q) :
    RootAt r heap1 (g ++ [x]) := by
  have hg : g ≠ [] := by rintro rfl; simp at hk
  rcases h with ⟨_, h⟩ | h | ⟨h, _⟩
  · exact absurd h hg
  · refine .inr (.inl ?_)
    cases g with
    | nil => exact absurd rfl hg
    | cons y ys => simpa using h
  · exact absurd h hg

/-- one call, in the process and alone -/
theorem step_sim {op : Op α} {r : Nat} {g : List Nat} {heap heap' heap1 : Heap α} (h : AppSim g heap heap')
    (hR : RootAt r heap g) (hs : step heap op = .ok heap1) :
    ∃ g1 heap1' pre, RootAt r heap1 g1 ∧ AppSim g1 heap1 heap1' ∧ runOps heap' pre = .ok heap1' ∧
      ∀ ops, mineFrom r heap.length g (op :: ops) = pre ++ mineFrom r heap1.length g1 ops := by
  -- a call that changes lists of one router
  have own : ∀ (op' : Nat → Op α) (q : Nat) (f : RNode α → RNode α),
      heap1 = heap.modify q f → (∀ n, (f n).parent = n.parent) →
      (∀ n n', SameNode g n n' → SameNode g (f n) (f n')) →
      (∀ ops, mineFrom r heap.length g (op :: ops) = match place g q with
        | some k => op' k :: mineFrom r heap.length g ops
        | none => mineFrom r heap.length g ops) →
      (∀ k n n', place g q = some k → heap[q]? = some n → heap'[k]? = some n' → SameNode g n n' →
        step heap' (op' k) = .ok (heap'.modify k f)) →
      ∃ g1 heap1' pre, RootAt r heap1 g1 ∧ AppSim g1 heap1 heap1' ∧ runOps heap' pre = .ok heap1' ∧
        ∀ ops, mineFrom r heap.length g (op :: ops) = pre ++ mineFrom r heap1.length g1 ops := by
    intro op' q f e hfp hf hm hst
    subst e
    cases hp : place g q with
    | none =>
      refine ⟨g, heap', [], hR.modify hfp, h.modify_other (place_none hp) f, rfl, ?_⟩
      intro ops; rw [hm, hp]; simp
    | some k =>
      have hk := place_some hp
      obtain ⟨n, n', h1, h2, h3⟩ := h.node k q hk
      refine ⟨g, heap'.modify k f, [op' k], hR.modify hfp, h.modify_own hk hf, ?_, ?_⟩
      · simp only [runOps, hst k n n' hp h1 h2 h3]; rfl
      · intro ops; rw [hm, hp]; simp
  -- a call that makes something inside a router
  have inside : ∀ (op' : Nat → Op α) (q : Nat) (mk : Nat → RNode α),
      heap1 = addChild heap q (mk q) → (∀ p, (mk p).parent = some p) → (∀ p, (mk p).sub = []) →
      (∀ a b, (mk a).method = (mk b).method ∧ (mk a).pattern = (mk b).pattern ∧ (mk a).gbefores = (mk b).gbefores ∧
        (mk a).befores = (mk b).befores ∧ (mk a).handlers = (mk b).handlers) →
      (∀ ops, mineFrom r heap.length g (op :: ops) = match place g q with
        | some k => op' k :: mineFrom r (heap.length + 1) (g ++ [heap.length]) ops
        | none => mineFrom r (heap.length + 1) g ops) →
      (∀ k n n', place g q = some k → heap[q]? = some n → heap'[k]? = some n' → SameNode g n n' →
        step heap' (op' k) = .ok (addChild heap' k (mk k))) →
      ∃ g1 heap1' pre, RootAt r heap1 g1 ∧ AppSim g1 heap1 heap1' ∧ runOps heap' pre = .ok heap1' ∧
        ∀ ops, mineFrom r heap.length g (op :: ops) = pre ++ mineFrom r heap1.length g1 ops := by
    intro op' q mk e hpar hsub hsame hm hst
    have hlen : (addChild heap q (mk q)).length = heap.length + 1 := by simp [addChild]
    cases hp : place g q with
    | none =>
      refine ⟨g, heap', [], ?_, ?_, rfl, ?_⟩
      · rw [e]; unfold addChild
        refine RootAt.append (hR.modify ?_) (fun _ => by rw [hpar]; simp)
        intro n; rfl
      · rw [e]; unfold addChild
        exact (h.modify_other (place_none hp) _).append_other _
      · intro ops; rw [hm, hp, e, hlen]; simp
    | some k =>
      have hk := place_some hp
      obtain ⟨n, n', h1, h2, h3⟩ := h.node k q hk
      obtain ⟨s1, s2, s3, s4, s5⟩ := hsame q k
      refine ⟨g ++ [heap.length], addChild heap' k (mk k), [op' k], hR.grow hk, ?_, ?_, ?_⟩
      · rw [e]; exact h.child hk (hpar q) (hpar k) (hsub q) (hsub k) s1 s2 s3 s4 s5
      · simp only [runOps, hst k n n' hp h1 h2 h3]; rfl
      · intro ops; rw [hm, hp, e, hlen]; simp
  cases op with
  | newRouter =>
    simp only [step, Except.ok.injEq] at hs
    subst hs
    by_cases e : heap.length = r
    · have hg : g = [] := by
        rcases hR with ⟨_, h2⟩ | h2 | ⟨h2, _⟩
        · exact h2
        · have := h.bound r (List.mem_of_getElem? h2); omega
        · exact h2
      refine ⟨g ++ [heap.length], _, [.newRouter], .inr (.inl ?_), h.make ?_, rfl, ?_⟩
      · subst hg; simp [e]
      · exact ⟨rfl, rfl, rfl, rfl, rfl, rfl, rfl⟩
      · intro ops; simp [mineFrom, e]
    · refine ⟨g, heap', [], hR.append (fun e' => absurd e' e), h.append_other _, rfl, ?_⟩
      intro ops; simp [mineFrom, e]
  | before q hs' =>
    simp only [step] at hs
    cases hq : heap[q]? with
    | none => rw [hq] at hs; cases hs
    | some n =>
      rw [hq] at hs
      simp only [] at hs
      split at hs
      · cases hs
      split at hs
      · cases hs
      rename_i c1 c2
      simp only [Except.ok.injEq] at hs
      refine own (fun k => .before k hs') q _ hs.symm (fun _ => rfl) ?_ (fun _ => rfl) ?_
      · rintro n n' ⟨a1, a2, a3, a4, a5, a6, a7⟩
        exact ⟨a1, a2, by simp [a3], a4, a5, a6, a7⟩
      · intro k n1 n' _ h1 h2 h3
        rw [hq] at h1; cases h1
        simp only [step, h2]
        rw [if_neg (by rw [← h3.method]; exact c1), if_neg]
        have := h3.parent
        cases e1 : n.parent <;> cases e2 : n'.parent <;> rw [e1, e2] at this <;> simp_all
  | group q p =>
    simp only [step] at hs
    cases hq : heap[q]? with
    | none => rw [hq] at hs; cases hs
    | some n =>
      rw [hq] at hs
      simp only [] at hs
      split at hs
      · cases hs
      rename_i c1
      simp only [Except.ok.injEq] at hs
      refine inside (fun k => .group k p) q
        (fun q => { method := [], pattern := p, gbefores := [], befores := [], handlers := [], parent := some q, sub := [] })
        hs.symm (fun _ => rfl) (fun _ => rfl) (fun _ _ => ⟨rfl, rfl, rfl, rfl, rfl⟩) (fun _ => rfl) ?_
      intro k n1 n' _ h1 h2 h3
      rw [hq] at h1; cases h1
      simp only [step, h2]
      rw [if_neg (by rw [← h3.method]; exact c1)]
  | groupMw q a =>
    simp only [step] at hs
    cases hq : heap[q]? with
    | none => rw [hq] at hs; cases hs
    | some n =>
      rw [hq] at hs
      simp only [] at hs
      split at hs
      · cases hs
      rename_i c1
      simp only [Except.ok.injEq] at hs
      refine own (fun k => .groupMw k a) q _ hs.symm (fun _ => rfl) ?_ (fun _ => rfl) ?_
      · rintro n n' ⟨a1, a2, a3, a4, a5, a6, a7⟩
        exact ⟨a1, a2, a3, by simp [a4], a5, a6, a7⟩
      · intro k n1 n' _ h1 h2 h3
        rw [hq] at h1; cases h1
        simp only [step, h2]
        rw [if_neg (by rw [← h3.method]; exact c1)]
  | groupBad => cases hs
  | use q hs' =>
    simp only [step] at hs
    cases hq : heap[q]? with
    | none => rw [hq] at hs; cases hs
    | some n =>
      rw [hq] at hs
      simp only [] at hs
      split at hs
      · cases hs
      rename_i c1
      simp only [Except.ok.injEq] at hs
      refine own (fun k => .use k hs') q _ hs.symm (fun _ => rfl) ?_ (fun _ => rfl) ?_
      · rintro n n' ⟨a1, a2, a3, a4, a5, a6, a7⟩
        exact ⟨a1, a2, a3, by simp [a4], a5, a6, a7⟩
      · intro k n1 n' _ h1 h2 h3
        rw [hq] at h1; cases h1
        simp only [step, h2]
        rw [if_neg (by rw [← h3.method]; exact c1)]
  | handle q m p hs' =>
    simp only [step] at hs
    cases hq : heap[q]? with
    | none => rw [hq] at hs; cases hs
    | some n =>
      rw [hq] at hs
      simp only [] at hs
      split at hs
      · cases hs
      rename_i c1
      split at hs
      · cases hs
      rename_i c2
      simp only [Except.ok.injEq] at hs
      refine inside (fun k => .handle k m p hs') q
        (fun q => { method := m, pattern := p, gbefores := [], befores := [], handlers := hs', parent := some q, sub := [] })
        hs.symm (fun _ => rfl) (fun _ => rfl) (fun _ _ => ⟨rfl, rfl, rfl, rfl, rfl⟩) (fun _ => rfl) ?_
      intro k n1 n' _ h1 h2 h3
      rw [hq] at h1; cases h1
      simp only [step, h2]
      rw [if_neg (by rw [← h3.method]; exact c1), if_neg c2]

theorem runOps_append' (heap : Heap α) (a b : List (Op α)) :
    runOps heap (a ++ b) = (do let h ← runOps heap a; runOps h b) := by
  induction a generalizing heap with
  | nil => rfl
  | cons x xs ih =>
    simp only [List.cons_append, runOps]
    cases step heap x with
    | error e => rfl
    | ok h => exact ih h

/-- the two histories go on side by side -/
theorem run_sim {ops : List (Op α)} {r : Nat} {g : List Nat} {heap heap' fin : Heap α} (h : AppSim g heap heap')
    (hR : RootAt r heap g) (hrun : runOps heap ops = .ok fin) :
    ∃ g' fin', runOps heap' (mineFrom r heap.length g ops) = .ok fin' ∧ AppSim g' fin fin' ∧ RootAt r fin g' := by
  induction ops generalizing g heap heap' with
  | nil => cases hrun; exact ⟨g, heap', rfl, h, hR⟩
  | cons op ops ih =>
    unfold runOps at hrun
    cases hs : step heap op with
    | error e => rw [hs] at hrun; cases hrun
    | ok heap1 =>
      rw [hs] at hrun
      obtain ⟨g1, heap1', pre, h1, h2, h3, h4⟩ := step_sim h hR hs
      obtain ⟨g', fin', a1, a2, a3⟩ := ih h2 h1 hrun
      refine ⟨g', fin', ?_, a2, a3⟩
      rw [h4, runOps_append', h3]
      exact a1

/-- climbing gives the same in both heaps -/
theorem climb_sim {g : List Nat} {heap heap' : Heap α} (h : AppSim g heap heap') (fuel : Nat) {k i : Nat}
    (hk : g[k]? = some i) (ps : List Str) (hs : List (HVal α)) :
    climb heap fuel i ps hs = climb heap' fuel k ps hs := by
  induction fuel generalizing k i ps hs with
  | zero => rfl
  | succ f ih =>
    obtain ⟨n, n', h1, h2, h3⟩ := h.node k i hk
    unfold climb
    rw [h1, h2]
    simp only [h3.pattern, h3.befores, h3.gbefores, h3.handlers]
    have := h3.parent
    cases e1 : n.parent <;> cases e2 : n'.parent <;> rw [e1, e2] at this <;> simp at this ⊢
    exact ih this.symm _ _

theorem climb_more {heap : Heap α} {f f' : Nat} (hf : f ≤ f') {i : Nat} {ps : List Str} {hs : List (HVal α)}
    {x : List Str × List (HVal α)} (h : climb heap f i ps hs = some x) : climb heap f' i ps hs = some x := by
  induction f generalizing f' i ps hs with
  | zero => cases h
  | succ f ih =>
    cases f' with
    | zero => omega
    | succ f' =>
      unfold climb at h ⊢
      cases hn : heap[i]? with
      | none => rw [hn] at h; cases h
      | some n =>
        rw [hn] at h
        simp only [] at h ⊢
        cases hp : n.parent with
        | none => rw [hp] at h; exact h
        | some p => rw [hp] at h; exact ih (by omega) h

/-- more depth than needed changes nothing -/
theorem dump_more {ops : List (Op α)} {heap : Heap α} (h : Reflects ops heap) (f : Nat) {f' r : Nat} {rs : RouteStore α}
    (hr : r < heap.length) (h1 : heap.length ≤ r + f) (h2 : heap.length ≤ r + f') :
    dumpRoute heap f r rs = dumpRoute heap f' r rs := by
  induction f generalizing f' r rs with
  | zero => omega
  | succ f ih =>
    cases f' with
    | zero => omega
    | succ f' =>
      unfold dumpRoute
      have hn : heap[r]? = some heap[r] := by simp [hr]
      have hc : (made ops)[r]? = some ((made ops)[r]'(by rw [← h.1]; exact hr)) := by simp
      have ho := h.2 r _ _ hn hc
      rw [hn]
      simp only []
      split
      · rfl
      · have hk : ∀ k ∈ heap[r].sub, r < k ∧ k < heap.length := by
          intro k hk; rw [ho.sub] at hk; exact kid_lt h hk
        generalize heap[r].sub = ks at hk
        induction ks generalizing rs with
        | nil => rfl
        | cons k ks ihk =>
          simp only [List.foldlM_cons]
          have hk1 := hk k (by simp)
          rw [ih (f' := f') hk1.2 (by omega) (by omega)]
          congr 1
          funext rs'
          exact ihk (fun x hx => hk x (by simp [hx]))

theorem getRoute_sim {ops ops' : List (Op α)} {g : List Nat} {heap heap' : Heap α} (h : AppSim g heap heap')
    (hr : Reflects ops heap) (hr' : Reflects ops' heap') {k i : Nat} (hk : g[k]? = some i) :
    getRoute heap i = getRoute heap' k := by
  obtain ⟨n, n', h1, h2, h3⟩ := h.node k i hk
  have go : ∀ {ops : List (Op α)} {heap : Heap α} {i : Nat} {n : RNode α}, Reflects ops heap → heap[i]? = some n →
      ∃ x, climb heap heap.length i [] [] = some x := by
    intro ops heap i n hr hn
    have hi := (List.getElem?_eq_some_iff.1 hn).1
    obtain ⟨l, hl, _⟩ := lineage_exists hr i (by rw [← hr.1]; exact hi)
    obtain ⟨r, hrr⟩ : ∃ r, l.head? = some r := by
      cases l with
      | nil => exact absurd rfl hl.ne_nil
      | cons x xs => exact ⟨x, rfl⟩
    exact ⟨_, climb_spec hr hl hrr _ (lineage_length hr hl) [] []⟩
  obtain ⟨x, hx⟩ := go hr h1
  obtain ⟨y, hy⟩ := go hr' h2
  have e1 := climb_more (Nat.le_max_left heap.length heap'.length) hx
  have e2 := climb_more (Nat.le_max_right heap.length heap'.length) hy
  rw [climb_sim h _ hk, e2] at e1
  cases e1
  unfold getRoute
  rw [h1, h2]
  simp only [hx, hy, h3.method]

theorem dump_sim {ops ops' : List (Op α)} {g : List Nat} {heap heap' : Heap α} (h : AppSim g heap heap')
    (hr : Reflects ops heap) (hr' : Reflects ops' heap') (f : Nat) {k i : Nat} (hk : g[k]? = some i) (rs : RouteStore α) :
    dumpRoute heap f i rs = dumpRoute heap' f k rs := by
  induction f generalizing k i rs with
  | zero => rfl
  | succ f ih =>
    obtain ⟨n, n', h1, h2, h3⟩ := h.node k i hk
    unfold dumpRoute
    rw [h1, h2]
    simp only []
    have hsub := h3.sub
    have he : n.sub.isEmpty = n'.sub.isEmpty := by
      revert hsub
      cases n.sub <;> cases n'.sub <;> simp
    rw [he, getRoute_sim h hr hr' hk]
    split
    · rfl
    · revert hsub
      generalize n.sub = a
      generalize n'.sub = b
      induction a generalizing b rs with
      | nil => cases b <;> simp
      | cons y ys ihy =>
        cases b with
        | nil => simp
        | cons z zs =>
          simp only [List.map_cons, List.cons.injEq, List.foldlM_cons]
          rintro ⟨e1, e2⟩
          rw [ih e1.symm]
          congr 1
          funext rs'
          exact ihy rs' zs e2

theorem dumpFor_sim {ops ops' : List (Op α)} {g : List Nat} {heap heap' : Heap α} (h : AppSim g heap heap')
    (hr : Reflects ops heap) (hr' : Reflects ops' heap') {k i : Nat} (hk : g[k]? = some i) (opts : List (Opt α)) :
    dumpFor heap i opts = dumpFor heap' k opts := by
  obtain ⟨n, n', h1, h2, h3⟩ := h.node k i hk
  unfold dumpFor
  rw [h1, h2]
  simp only [h3.method, h3.gbefores]
  have hp : (n.parent ≠ none) = (n'.parent ≠ none) := by
    have := h3.parent
    cases e1 : n.parent <;> cases e2 : n'.parent <;> rw [e1, e2] at this <;> simp at this ⊢
  have hd : ∀ rs, dumpRoute heap heap.length i rs = dumpRoute heap' heap'.length k rs := by
    intro rs
    have l1 := (List.getElem?_eq_some_iff.1 h1).1
    have l2 := (List.getElem?_eq_some_iff.1 h2).1
    rw [dump_more hr heap.length (f' := max heap.length heap'.length) l1 (by omega) (by omega), dump_sim h hr hr' _ hk,
      dump_more hr' _ (f' := heap'.length) l2 (by omega) (by omega)]
  simp only [hp, hd]

end Water
