import Verif.Lemmas.Slices
/-
One step of a program with slices.
-/
namespace Water
open Spec
variable {α : Type}

theorem within_alloc {arrs : List (List (HVal α))} {s : Slice} (h : InArray arrs s) (xs : List (HVal α)) : InArray (arrs ++ [xs]) s := by
  obtain ⟨l, h1, h2, h3⟩ := h
  refine ⟨l, ?_, h2, h3⟩
  rw [List.getElem?_append_left (List.getElem?_eq_some_iff.1 h1).1]
  exact h1

theorem within_poke {arrs : List (List (HVal α))} {s : Slice} (h : InArray arrs s) (k i : Nat) (v : HVal α) :
    InArray (arrs.modify k (fun l => l.set i v)) s := by
  obtain ⟨l, h1, h2, h3⟩ := h
  by_cases hk : k = s.arr
  · exact ⟨l.set i v, by rw [List.getElem?_modify, h1]; simp [hk], by simpa using h2, h3⟩
  · exact ⟨l, by rw [List.getElem?_modify, h1]; simp [hk], h2, h3⟩

theorem Sim.alloc {st : SState α} {arrs : List (List (HVal α))} {made : List (Option Slice)} {heap0 : Heap α}
    (hs : Sim st arrs made heap0) (xs : List (HVal α)) :
    Sim { st with mem := st.mem ++ [xs], own := st.own ++ [st.mem.length] } (arrs ++ [xs]) made heap0 := by
  have hown : ∀ (k a : Nat), (st.own ++ [st.mem.length])[k]? = some a → st.own[k]? = some a ∨ (k = arrs.length ∧ a = st.mem.length) := by
    intro k a h
    rw [List.getElem?_append] at h
    split at h
    · exact .inl h
    · rename_i hk
      have := (List.getElem?_eq_some_iff.1 h).1
      simp at this
      have hk' : k - st.own.length = 0 := by omega
      rw [hk'] at h
      simp at h
      exact .inr ⟨by rw [← hs.own_len]; omega, h.symm⟩
  have hframe : ∀ {s : Slice}, Fits st.mem s → 0 < s.cap → (st.mem ++ [xs])[s.arr]? = st.mem[s.arr]? :=
    fun hf hc => List.getElem?_append_left (hf.lt hc)
  constructor
  · simp [hs.own_len]
  · intro k a h
    rcases hown k a h with h | ⟨rfl, rfl⟩
    · obtain ⟨h1, h2⟩ := hs.own_at k a h
      have hk : k < arrs.length := by rw [← hs.own_len]; exact (List.getElem?_eq_some_iff.1 h).1
      refine ⟨by simp; omega, ?_⟩
      rw [List.getElem?_append_left hk, List.getElem?_append_left h1, h2]
    · simp
  · intro k l a hk hl
    rcases hown k a hk with h | ⟨h, h'⟩ <;> rcases hown l a hl with g | ⟨g, g'⟩
    · exact hs.own_inj k l a h g
    · have := (hs.own_at k a h).1; omega
    · have := (hs.own_at l a g).1; omega
    · omega
  · exact hs.len
  · exact hs.made_len
  · intro i n hi
    obtain ⟨n0, g, k1, k2, k3, k4, k5, k6, k7, k8⟩ := hs.node i n hi
    refine ⟨n0, g, k1, k2, k3, k4, k5, k6, fun b => ?_, ?_⟩
    · exact ⟨by rw [Slice.read_congr (k7 b).2 (hframe (k7 b).2), (k7 b).1], (k7 b).2.congr (hframe (k7 b).2)⟩
    · cases g with
      | none => exact k8
      | some s =>
        obtain ⟨a, h1, h2, h3⟩ := k8
        refine ⟨a, ?_, h2, within_alloc h3 xs⟩
        show (st.own ++ [st.mem.length])[s.arr]? = some a
        rw [List.getElem?_append_left (List.getElem?_eq_some_iff.1 h1).1]
        exact h1
  · intro i n b hi hc hm
    have hm : (n.slot b).arr ∈ st.own ++ [st.mem.length] := hm
    rw [List.mem_append, List.mem_singleton] at hm
    rcases hm with hm | hm
    · exact hs.free i n b hi hc hm
    · obtain ⟨n0, g, _, _, _, _, _, _, k7, _⟩ := hs.node i n hi
      have := (k7 b).2.lt hc
      omega
  · exact hs.apart

theorem Sim.poke {st : SState α} {arrs : List (List (HVal α))} {made : List (Option Slice)} {heap0 : Heap α}
    (hs : Sim st arrs made heap0) {k a : Nat} (hk : st.own[k]? = some a) (i : Nat) (v : HVal α) :
    Sim { st with mem := st.mem.modify a (fun l => l.set i v) } (arrs.modify k (fun l => l.set i v)) made heap0 := by
  have hframe : ∀ {j : Nat} {n : SNode} {b : Bool}, st.heap[j]? = some n → 0 < (SNode.slot n b).cap →
      (st.mem.modify a (fun l => l.set i v))[(n.slot b).arr]? = st.mem[(n.slot b).arr]? := by
    intro j n b hj hc
    have : ¬ a = (n.slot b).arr := fun h => hs.free j n b hj hc (h ▸ List.mem_of_getElem? hk)
    simp [List.getElem?_modify, this]
  constructor
  · simp [hs.own_len]
  · intro l c h
    obtain ⟨h1, h2⟩ := hs.own_at l c h
    refine ⟨by simpa using h1, ?_⟩
    simp only [List.getElem?_modify, h2]
    by_cases hl : k = l
    · subst hl
      have : a = c := by rw [hk] at h; exact Option.some.inj h
      simp [this]
    · have : ¬ a = c := by
        intro hac
        subst hac
        exact hl (hs.own_inj k l a hk h)
      simp [hl, this]
  · exact hs.own_inj
  · exact hs.len
  · exact hs.made_len
  · intro j n hj
    obtain ⟨n0, g, k1, k2, k3, k4, k5, k6, k7, k8⟩ := hs.node j n hj
    refine ⟨n0, g, k1, k2, k3, k4, k5, k6, fun b => ?_, ?_⟩
    · exact ⟨by rw [Slice.read_congr (k7 b).2 (hframe hj), (k7 b).1], (k7 b).2.congr (hframe hj)⟩
    · cases g with
      | none => exact k8
      | some s =>
        obtain ⟨c, h1, h2, h3⟩ := k8
        exact ⟨c, h1, h2, within_poke h3 k i v⟩
  · exact hs.free
  · exact hs.apart

theorem Sim.push {st : SState α} {arrs : List (List (HVal α))} {made : List (Option Slice)} {heap0 : Heap α}
    (hs : Sim st arrs made heap0) {n : SNode} {n0 : RNode α} {g : Option Slice} (h1 : n0.method = n.method) (h2 : n0.pattern = n.pattern)
    (h3 : n0.parent = n.parent) (h4 : n0.sub = n.sub) (h5 : ∀ b, n.slot b = Slice.none ∧ n0.slot b = []) (h6 : Given st arrs n n0 g) :
    Sim { st with heap := st.heap ++ [n] } arrs (made ++ [g]) (heap0 ++ [n0]) := by
  have hget : ∀ {i m}, (st.heap ++ [n])[i]? = some m → st.heap[i]? = some m ∨ (i = st.heap.length ∧ m = n) := by
    intro i m h
    rw [List.getElem?_append] at h
    split at h
    · exact .inl h
    · have := (List.getElem?_eq_some_iff.1 h).1
      simp at this
      have hi : i - st.heap.length = 0 := by omega
      rw [hi] at h
      simp at h
      exact .inr ⟨by omega, h.symm⟩
  constructor
  · exact hs.own_len
  · exact hs.own_at
  · exact hs.own_inj
  · simp [hs.len]
  · simp [hs.made_len]
  · intro i m hi
    rcases hget hi with hi | ⟨rfl, rfl⟩
    · obtain ⟨m0, g', k1, k2, k3⟩ := hs.node i m hi
      refine ⟨m0, g', ?_, ?_, ?_⟩
      · rw [List.getElem?_append_left (List.getElem?_eq_some_iff.1 k1).1, k1]
      · rw [List.getElem?_append_left (List.getElem?_eq_some_iff.1 k2).1, k2]
      · obtain ⟨k3, k4, k5, k6, k7, k8⟩ := k3
        refine ⟨k3, k4, k5, k6, k7, ?_⟩
        cases g' <;> exact k8
    · refine ⟨n0, g, by simp [hs.len], by simp [← hs.made_len], h1, h2, h3, h4, fun b => ?_, ?_⟩
      · rw [(h5 b).1, (h5 b).2]
        exact ⟨none_read _, none_fits _⟩
      · cases g <;> exact h6
  · intro i m b hi hc
    rcases hget hi with hi | ⟨rfl, rfl⟩
    · exact hs.free i m b hi hc
    · rw [(h5 b).1] at hc
      exact absurd hc (Nat.lt_irrefl 0)
  · intro i j m l b c hi hj hb hc heq
    rcases hget hi with hi | ⟨rfl, rfl⟩
    · rcases hget hj with hj | ⟨rfl, rfl⟩
      · exact hs.apart i j m l b c hi hj hb hc heq
      · rw [(h5 c).1] at hc
        exact absurd hc (Nat.lt_irrefl 0)
    · rw [(h5 b).1] at hb
      exact absurd hb (Nat.lt_irrefl 0)

theorem Sim.link {st : SState α} {arrs : List (List (HVal α))} {made : List (Option Slice)} {heap0 : Heap α}
    (hs : Sim st arrs made heap0) (r k : Nat) :
    Sim { st with heap := st.heap.modify r (fun x => { x with sub := x.sub ++ [k] }) } arrs made
      (heap0.modify r (fun x => { x with sub := x.sub ++ [k] })) := by
  have hget : ∀ {i m}, (st.heap.modify r (fun x => { x with sub := x.sub ++ [k] }))[i]? = some m → ∃ m', st.heap[i]? = some m' ∧
      m = if r = i then { m' with sub := m'.sub ++ [k] } else m' := by
    intro i m h
    rw [List.getElem?_modify] at h
    cases hm : st.heap[i]? with
    | none => rw [hm] at h; split at h <;> simp at h
    | some m' =>
      rw [hm] at h
      refine ⟨m', rfl, ?_⟩
      by_cases hr : r = i
      · simp only [hr, if_true, Option.map_eq_map, Option.map_some, Option.some.injEq] at h ⊢
        exact h.symm
      · simp only [hr, if_false, Option.map_eq_map, Option.map_some, Option.some.injEq] at h ⊢
        exact h.symm
  have hslot : ∀ (m' : SNode) (i : Nat) (b : Bool), (if r = i then { m' with sub := m'.sub ++ [k] } else m' : SNode).slot b = m'.slot b := by
    intro m' i b
    split <;> cases b <;> rfl
  constructor
  · exact hs.own_len
  · exact hs.own_at
  · exact hs.own_inj
  · simp [hs.len]
  · simp [hs.made_len]
  · intro i m hi
    obtain ⟨m', hm, rfl⟩ := hget hi
    obtain ⟨n0, g, k1, k2, k3, k4, k5, k6, k7, k8⟩ := hs.node i m' hm
    refine ⟨if r = i then { n0 with sub := n0.sub ++ [k] } else n0, g, ?_, k2, ?_, ?_, ?_, ?_, fun b => ?_, ?_⟩
    · rw [List.getElem?_modify, k1]
      split <;> rfl
    · split <;> exact k3
    · split <;> exact k4
    · split <;> exact k5
    · split <;> simp [k6]
    · rw [hslot]
      have := k7 b
      split <;> cases b <;> exact this
    · split <;> cases g <;> exact k8
  · intro i m b hi hc
    obtain ⟨m', hm, rfl⟩ := hget hi
    rw [hslot] at hc ⊢
    exact hs.free i m' b hm hc
  · intro i j m l b c hi hj hb hc heq
    obtain ⟨m', hm, rfl⟩ := hget hi
    obtain ⟨l', hl, rfl⟩ := hget hj
    rw [hslot] at hb heq
    rw [hslot] at hc heq
    exact hs.apart i j m' l' b c hm hl hb hc heq

theorem Sim.child {st : SState α} {arrs : List (List (HVal α))} {made : List (Option Slice)} {heap0 : Heap α}
    (hs : Sim st arrs made heap0) (r : Nat) {n : SNode} {n0 : RNode α} {g : Option Slice} (h1 : n0.method = n.method)
    (h2 : n0.pattern = n.pattern) (h3 : n0.parent = n.parent) (h4 : n0.sub = n.sub) (h5 : ∀ b, n.slot b = Slice.none ∧ n0.slot b = [])
    (h6 : Given st arrs n n0 g) :
    Sim { st with heap := addChildS st.heap r n } arrs (made ++ [g]) (addChild heap0 r n0) := by
  have := (hs.link r st.heap.length).push (n := n) (n0 := n0) (g := g) h1 h2 h3 h4 h5 (by cases g <;> exact h6)
  have hl := hs.len
  unfold addChildS addChild
  rw [← hl]
  exact this

theorem Sim.absent {st : SState α} {arrs : List (List (HVal α))} {made : List (Option Slice)} {heap0 : Heap α}
    (hs : Sim st arrs made heap0) {r : Nat} (h : st.heap[r]? = none) : heap0[r]? = none := by
  rw [List.getElem?_eq_none_iff] at h ⊢
  rw [← hs.len]
  exact h

/-- one step -/
theorem stepS_sim (grow : Nat → Nat → Nat) {st : SState α} {arrs : List (List (HVal α))} {made : List (Option Slice)} {heap0 : Heap α}
    (hs : Sim st arrs made heap0) (op : SOp α) (hop : SoundStep arrs op) :
    match stepS grow st op with
    | .error x => runOps heap0 (callNow arrs op) = .error x
    | .ok st' => ∃ heap1, runOps heap0 (callNow arrs op) = .ok heap1 ∧ Sim st' (arraysStep arrs op) (made ++ givenBy op) heap1 := by
  cases op with
  | alloc xs =>
    refine ⟨heap0, rfl, ?_⟩
    simp only [givenBy, List.append_nil]
    exact hs.alloc xs
  | poke k i v =>
    obtain ⟨l, h1, h2⟩ := hop
    have hk : k < st.own.length := by rw [hs.own_len]; exact (List.getElem?_eq_some_iff.1 h1).1
    have ha : st.own[k]? = some st.own[k] := List.getElem?_eq_getElem hk
    have h5 := (hs.own_at _ _ ha).2
    rw [h1] at h5
    simp only [stepS, ha, getD_of_get h5.symm, if_pos h2]
    refine ⟨heap0, rfl, ?_⟩
    simp only [givenBy, List.append_nil]
    exact hs.poke ha i v
  | newRouter =>
    refine ⟨_, rfl, ?_⟩
    exact hs.push rfl rfl rfl rfl (fun b => by cases b <;> exact ⟨rfl, rfl⟩) ⟨rfl, rfl⟩
  | groupBad => rfl
  | before r s =>
    obtain ⟨a, h1, h2, h3, _⟩ := hs.resolve hop
    simp only [stepS, h2, callNow, runOps, step]
    cases hr : st.heap[r]? with
    | none => simp only [hs.absent hr]; rfl
    | some n =>
      obtain ⟨n0, g, k1, k2, k3, k4, k5, k6, k7, k8⟩ := hs.node r n hr
      simp only [k1, k3, k5]
      by_cases hm : n.method ≠ []
      · simp only [if_pos hm]; rfl
      · simp only [if_neg hm]
        by_cases hp : n.parent ≠ none
        · simp only [if_pos hp]; rfl
        · simp only [if_neg hp, h3]
          refine ⟨_, rfl, ?_⟩
          simp only [givenBy, List.append_nil, arraysStep]
          exact hs.append hr true _ (appendS_spec grow .nil (k7 true).2 _)
  | use r s =>
    obtain ⟨a, h1, h2, h3, _⟩ := hs.resolve hop
    simp only [stepS, h2, callNow, runOps, step]
    cases hr : st.heap[r]? with
    | none => simp only [hs.absent hr]; rfl
    | some n =>
      obtain ⟨n0, g, k1, k2, k3, k4, k5, k6, k7, k8⟩ := hs.node r n hr
      simp only [k1, k3]
      by_cases hm : n.method ≠ []
      · simp only [if_pos hm]; rfl
      · simp only [if_neg hm, h3]
        refine ⟨_, rfl, ?_⟩
        simp only [givenBy, List.append_nil, arraysStep]
        exact hs.append hr false _ (appendS_spec grow .nil (k7 false).2 _)
  | groupMw r h =>
    simp only [stepS, callNow, runOps, step]
    cases hr : st.heap[r]? with
    | none => simp only [hs.absent hr]; rfl
    | some n =>
      obtain ⟨n0, g, k1, k2, k3, k4, k5, k6, k7, k8⟩ := hs.node r n hr
      simp only [k1, k3]
      by_cases hm : n.method ≠ []
      · simp only [if_pos hm]; rfl
      · simp only [if_neg hm]
        refine ⟨_, rfl, ?_⟩
        simp only [givenBy, List.append_nil, arraysStep]
        exact hs.append hr false _ (appendS_spec grow .nil (k7 false).2 _)
  | group r p =>
    simp only [stepS, callNow, runOps, step]
    cases hr : st.heap[r]? with
    | none => simp only [hs.absent hr]; rfl
    | some n =>
      obtain ⟨n0, g, k1, k2, k3, k4, k5, k6, k7, k8⟩ := hs.node r n hr
      simp only [k1, k3]
      by_cases hm : n.method ≠ []
      · simp only [if_pos hm]; rfl
      · simp only [if_neg hm]
        exact ⟨_, rfl, hs.child r rfl rfl rfl rfl (fun b => by cases b <;> exact ⟨rfl, rfl⟩) ⟨rfl, rfl⟩⟩
  | handle r m p s =>
    obtain ⟨a, h1, h2, h3, _⟩ := hs.resolve hop
    have hstep : step heap0 (.handle r m p (window arrs s)) = match heap0[r]? with
      | none => .error .noSuchRouter
      | some n =>
        if n.method ≠ [] ∨ m ∉ methodNames then .error .noSuchRouter
        else if (window arrs s).any nilValue then .error .nilHandler
        else .ok (addChild heap0 r { method := m, pattern := p, gbefores := [], befores := [], handlers := window arrs s,
                                     parent := some r, sub := [] }) := by
      simp only [step]
      cases heap0[r]? <;> rfl
    simp only [stepS, h2, callNow, runOps, hstep]
    cases hr : st.heap[r]? with
    | none => simp only [hs.absent hr]; rfl
    | some n =>
      obtain ⟨n0, g, k1, k2, k3, k4, k5, k6, k7, k8⟩ := hs.node r n hr
      simp only [k1, k3, h3]
      by_cases hm : n.method ≠ [] ∨ m ∉ methodNames
      · simp only [if_pos hm]; rfl
      · simp only [if_neg hm]
        by_cases hn : (window arrs s).any nilValue = true
        · simp only [if_pos hn]; rfl
        · simp only [if_neg hn]
          exact ⟨_, rfl, hs.child r rfl rfl rfl rfl (fun b => by cases b <;> exact ⟨rfl, rfl⟩) ⟨a, h1, rfl, hop⟩⟩

theorem runOps_append (heap : Heap α) (a b : List (Op α)) : runOps heap (a ++ b) = (do let h ← runOps heap a; runOps h b) := by
  induction a generalizing heap with
  | nil => rfl
  | cons op a ih =>
    simp only [List.cons_append, runOps]
    cases step heap op with
    | error x => rfl
    | ok h => exact ih h

/-- a whole program -/
theorem runS_sim (grow : Nat → Nat → Nat) {ops : List (SOp α)} : ∀ {st : SState α} {arrs : List (List (HVal α))}
    {made : List (Option Slice)} {heap0 : Heap α}, Sim st arrs made heap0 → Sounds arrs ops →
    match runS grow st ops with
    | .error x => runOps heap0 (callsOf arrs ops) = .error x
    | .ok st' => ∃ heap1, runOps heap0 (callsOf arrs ops) = .ok heap1 ∧ Sim st' (arraysAfter arrs ops) (made ++ ops.flatMap givenBy) heap1 := by
  induction ops with
  | nil =>
    intro st arrs made heap0 hs _
    refine ⟨heap0, rfl, ?_⟩
    simpa [arraysAfter] using hs
  | cons op ops ih =>
    intro st arrs made heap0 hs hso
    have h1 := stepS_sim grow hs op hso.1
    simp only [runS, callsOf, runOps_append]
    cases hst : stepS grow st op with
    | error x =>
      rw [hst] at h1
      simp only [] at h1
      rw [h1]
      rfl
    | ok st' =>
      rw [hst] at h1
      simp only [] at h1
      obtain ⟨heap1, h2, h3⟩ := h1
      rw [h2]
      have := ih h3 hso.2
      simp only [List.flatMap_cons, ← List.append_assoc]
      exact this

end Water
