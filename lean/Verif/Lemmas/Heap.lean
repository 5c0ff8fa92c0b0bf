import Verif.Spec.Register
/- Helper lemmas: the heap of routers reflects the history of calls. -/
namespace Water
open Spec
variable {α : Type}

/-- addresses whose parent is `i`, ascending -/
def kids (ms : List (Made α)) (i : Nat) : List Nat :=
  (List.range ms.length).filter (fun j => (ms[j]?.bind (·.parent)) == some i)

structure NodeOk (ops : List (Op α)) (i : Nat) (n : RNode α) (c : Made α) : Prop where
  method : n.method = c.method
  pattern : n.pattern = c.pattern
  handlers : n.handlers = c.handlers
  parent : n.parent = c.parent
  befores : n.befores = usesOf ops i
  gbefores : n.gbefores = beforesOf ops i
  sub : n.sub = kids (made ops) i
  parentOk : ∀ p, c.parent = some p → p < i ∧ methodOf ops p = []
  group : c.method = [] → c.handlers = []
  leaf : c.method ≠ [] → c.method ∈ methodNames ∧ c.parent ≠ none ∧ usesOf ops i = [] ∧ .nil ∉ c.handlers
  gb : c.parent ≠ none → beforesOf ops i = []

/-- the heap after a history -/
def Reflects (ops : List (Op α)) (heap : Heap α) : Prop :=
  heap.length = (made ops).length ∧
    ∀ i n c, heap[i]? = some n → (made ops)[i]? = some c → NodeOk ops i n c

theorem made_append (a b : List (Op α)) : made (a ++ b) = made a ++ made b := by simp [made]

theorem usesOf_snoc (a : List (Op α)) (op : Op α) (i : Nat) : usesOf (a ++ [op]) i = usesOf a i ++ usesBy i op := by
  simp [usesOf]

theorem beforesOf_snoc (a : List (Op α)) (op : Op α) (i : Nat) :
    beforesOf (a ++ [op]) i = beforesOf a i ++ beforesBy i op := by
  simp [beforesOf]

theorem methodOf_append {a : List (Op α)} (b : List (Op α)) {i : Nat} (h : i < (made a).length) :
    methodOf (a ++ b) i = methodOf a i := by
  unfold methodOf; rw [made_append, List.getElem?_append_left h]

theorem kids_snoc_none {a : List (Op α)} {op : Op α} (h : madeBy op = none) (i : Nat) :
    kids (made (a ++ [op])) i = kids (made a) i := by
  have : made (a ++ [op]) = made a := by rw [made_append]; simp [made, h]
  rw [this]

theorem kids_snoc (ms : List (Made α)) (c : Made α) (i : Nat) :
    kids (ms ++ [c]) i = kids ms i ++ if c.parent = some i then [ms.length] else [] := by
  unfold kids
  rw [List.length_append, List.length_singleton, List.range_succ, List.filter_append]
  congr 1
  · apply List.filter_congr
    intro j hj
    rw [List.mem_range] at hj
    rw [List.getElem?_append_left hj]
  · simp only [List.filter_cons, List.filter_nil, List.getElem?_concat_length, Option.bind_some, beq_iff_eq]

theorem reflects_nil : Reflects ([] : List (Op α)) [] := ⟨rfl, by intro i n c h; simp at h⟩

/-- the effects of histories on routers that do not exist yet -/
def Fresh (ops : List (Op α)) : Prop :=
  ∀ i, (made ops).length ≤ i → usesOf ops i = [] ∧ beforesOf ops i = [] ∧ kids (made ops) i = []

/-- calls that only touch lists of an existing router -/
theorem reflects_modify {ops : List (Op α)} {heap : Heap α} {op : Op α} {r : Nat} {f : RNode α → RNode α}
    (h : Reflects ops heap) (hm : madeBy op = none)
    (hf : ∀ x, (f x).method = x.method ∧ (f x).pattern = x.pattern ∧ (f x).handlers = x.handlers ∧
      (f x).parent = x.parent ∧ (f x).sub = x.sub ∧ (f x).befores = x.befores ++ usesBy r op ∧
      (f x).gbefores = x.gbefores ++ beforesBy r op)
    (hu : ∀ i, i ≠ r → usesBy i op = [] ∧ beforesBy i op = [])
    (hr : ∀ c, (made ops)[r]? = some c → c.method = [] ∧ (c.parent ≠ none → beforesBy r op = [])) :
    Reflects (ops ++ [op]) (heap.modify r f) := by
  have hmade : made (ops ++ [op]) = made ops := by rw [made_append]; simp [made, hm]
  refine ⟨by rw [List.length_modify, hmade]; exact h.1, ?_⟩
  intro i n c hn hc
  rw [hmade] at hc
  rw [List.getElem?_modify] at hn
  cases hi : heap[i]? with
  | none => rw [hi] at hn; simp at hn
  | some x =>
    rw [hi] at hn
    have hx := h.2 i x c hi hc
    have hmo : ∀ p, methodOf (ops ++ [op]) p = methodOf ops p := by intro p; unfold methodOf; rw [hmade]
    by_cases hir : r = i
    · subst hir
      simp only [if_true, Option.map_eq_map, Option.map_some, Option.some.injEq] at hn
      subst hn
      obtain ⟨f1, f2, f3, f4, f5, f6, f7⟩ := hf x
      obtain ⟨r1, r2⟩ := hr c hc
      exact {
        method := by rw [f1, hx.method]
        pattern := by rw [f2, hx.pattern]
        handlers := by rw [f3, hx.handlers]
        parent := by rw [f4, hx.parent]
        befores := by rw [f6, hx.befores, usesOf_snoc]
        gbefores := by rw [f7, hx.gbefores, beforesOf_snoc]
        sub := by rw [f5, hx.sub, hmade]
        parentOk := fun p hp => by rw [hmo]; exact hx.parentOk p hp
        group := hx.group
        leaf := fun hl => absurd r1 hl
        gb := fun hp => by rw [beforesOf_snoc, hx.gb hp, r2 hp]; rfl }
    · simp only [hir, if_false, Option.map_eq_map, Option.map_some, Option.some.injEq] at hn
      subst hn
      obtain ⟨u1, u2⟩ := hu i (Ne.symm hir)
      exact {
        method := hx.method
        pattern := hx.pattern
        handlers := hx.handlers
        parent := hx.parent
        befores := by rw [hx.befores, usesOf_snoc, u1, List.append_nil]
        gbefores := by rw [hx.gbefores, beforesOf_snoc, u2, List.append_nil]
        sub := by rw [hx.sub, hmade]
        parentOk := fun p hp => by rw [hmo]; exact hx.parentOk p hp
        group := hx.group
        leaf := fun hl => by
          obtain ⟨l1, l2, l3, l4⟩ := hx.leaf hl
          exact ⟨l1, l2, by rw [usesOf_snoc, u1, l3]; rfl, l4⟩
        gb := fun hp => by rw [beforesOf_snoc, hx.gb hp, u2]; rfl }

theorem step_fresh {ops : List (Op α)} {heap heap' : Heap α} {op : Op α} (hr : Reflects ops heap) (hf : Fresh ops)
    (hs : step heap op = .ok heap') : Fresh (ops ++ [op]) := by
  intro i hi
  rw [made_append, List.length_append] at hi
  obtain ⟨h1, h2, h3⟩ := hf i (by omega)
  have hlt : ∀ (r : Nat) n, heap[r]? = some n → r ≠ i := by
    intro r n hn he
    subst he
    have := (List.getElem?_eq_some_iff.1 hn).1
    rw [hr.1] at this; omega
  rw [usesOf_snoc, beforesOf_snoc, h1, h2]
  have hk : kids (made (ops ++ [op])) i = kids (made ops) i ++
      (match madeBy op with | some c => if c.parent = some i then [(made ops).length] else [] | none => []) := by
    cases hm : madeBy op with
    | none => rw [kids_snoc_none hm]; simp
    | some c =>
      have : made (ops ++ [op]) = made ops ++ [c] := by rw [made_append]; simp [made, hm]
      rw [this, kids_snoc]
  rw [hk, h3]
  cases op with
  | newRouter => simp [usesBy, beforesBy, madeBy]
  | groupBad => cases hs
  | before r hs' =>
    simp only [step] at hs
    cases hn : heap[r]? with
    | none => rw [hn] at hs; cases hs
    | some n => simp [usesBy, beforesBy, madeBy, hlt r n hn]
  | group r p =>
    simp only [step] at hs
    cases hn : heap[r]? with
    | none => rw [hn] at hs; cases hs
    | some n => simp [usesBy, beforesBy, madeBy, hlt r n hn]
  | groupMw r h =>
    simp only [step] at hs
    cases hn : heap[r]? with
    | none => rw [hn] at hs; cases hs
    | some n => simp [usesBy, beforesBy, madeBy, hlt r n hn]
  | use r hs' =>
    simp only [step] at hs
    cases hn : heap[r]? with
    | none => rw [hn] at hs; cases hs
    | some n => simp [usesBy, beforesBy, madeBy, hlt r n hn]
  | handle r m p hs' =>
    simp only [step] at hs
    cases hn : heap[r]? with
    | none => rw [hn] at hs; cases hs
    | some n => simp [usesBy, beforesBy, madeBy, hlt r n hn]

/-- a new router record -/
def mkNode (c : Made α) : RNode α :=
  { method := c.method, pattern := c.pattern, gbefores := [], befores := [], handlers := c.handlers,
    parent := c.parent, sub := [] }

/-- calls that make something -/
theorem reflects_make {ops : List (Op α)} {heap heap0 : Heap α} {op : Op α} {c : Made α}
    (h : Reflects ops heap) (hfr : Fresh ops) (hm : madeBy op = some c)
    (hu : ∀ i, usesBy i op = [] ∧ beforesBy i op = [])
    (hc : ∀ p, c.parent = some p → p < (made ops).length ∧ methodOf ops p = [])
    (hg : c.method = [] → c.handlers = [])
    (hl : c.method ≠ [] → c.method ∈ methodNames ∧ c.parent ≠ none ∧ .nil ∉ c.handlers)
    (hheap : heap0 = match c.parent with
      | none => heap
      | some r => heap.modify r (fun x => { x with sub := x.sub ++ [heap.length] })) :
    Reflects (ops ++ [op]) (heap0 ++ [mkNode c]) := by
  have hmade : made (ops ++ [op]) = made ops ++ [c] := by rw [made_append]; simp [made, hm]
  have hlen : heap0.length = heap.length := by
    rw [hheap]; cases c.parent <;> simp
  have huse : ∀ i, usesOf (ops ++ [op]) i = usesOf ops i := by intro i; rw [usesOf_snoc, (hu i).1]; simp
  have hbef : ∀ i, beforesOf (ops ++ [op]) i = beforesOf ops i := by intro i; rw [beforesOf_snoc, (hu i).2]; simp
  refine ⟨by rw [hmade]; simp [hlen, h.1], ?_⟩
  intro i n d hn hd
  rw [hmade] at hd
  by_cases hi : i < heap.length
  · rw [List.getElem?_append_left (by omega)] at hn
    rw [List.getElem?_append_left (by rw [← h.1]; exact hi)] at hd
    obtain ⟨x, hx⟩ : ∃ x, heap[i]? = some x := ⟨heap[i], by simp [hi]⟩
    have ho := h.2 i x d hx hd
    have hnx : n.method = x.method ∧ n.pattern = x.pattern ∧ n.handlers = x.handlers ∧ n.parent = x.parent ∧
        n.befores = x.befores ∧ n.gbefores = x.gbefores ∧
        n.sub = x.sub ++ if c.parent = some i then [(made ops).length] else [] := by
      rw [hheap] at hn
      cases hp : c.parent with
      | none => rw [hp] at hn; simp only [] at hn; rw [hx] at hn; cases hn; simp
      | some r =>
        rw [hp] at hn
        simp only [List.getElem?_modify, hx, Option.map_eq_map, Option.map_some, Option.some.injEq] at hn
        subst hn
        by_cases hri : r = i
        · simp [hri, h.1]
        · simp [hri]
    obtain ⟨n1, n2, n3, n4, n5, n6, n7⟩ := hnx
    exact {
      method := by rw [n1, ho.method]
      pattern := by rw [n2, ho.pattern]
      handlers := by rw [n3, ho.handlers]
      parent := by rw [n4, ho.parent]
      befores := by rw [n5, ho.befores, huse]
      gbefores := by rw [n6, ho.gbefores, hbef]
      sub := by rw [n7, ho.sub, hmade, kids_snoc]
      parentOk := fun p hp => by
        obtain ⟨p1, p2⟩ := ho.parentOk p hp
        exact ⟨p1, by rw [methodOf_append _ (by rw [← h.1]; omega)]; exact p2⟩
      group := ho.group
      leaf := fun hl => by rw [huse]; exact ho.leaf hl
      gb := fun hp => by rw [hbef]; exact ho.gb hp }
  · have hi2 : i = heap.length := by
      have := (List.getElem?_eq_some_iff.1 hn).1
      simp [hlen] at this; omega
    subst hi2
    rw [← hlen, List.getElem?_concat_length] at hn
    rw [h.1, List.getElem?_concat_length] at hd
    cases hn; cases hd
    obtain ⟨f1, f2, f3⟩ := hfr heap.length (by rw [h.1]; exact Nat.le_refl _)
    exact {
      method := rfl
      pattern := rfl
      handlers := rfl
      parent := rfl
      befores := by rw [huse, f1]; rfl
      gbefores := by rw [hbef, f2]; rfl
      sub := by
        rw [hmade, kids_snoc, f3]
        have : c.parent ≠ some heap.length := by
          intro hp; have := (hc _ hp).1; rw [h.1] at this; omega
        simp [this, mkNode]
      parentOk := fun p hp => by
        obtain ⟨p1, p2⟩ := hc p hp
        exact ⟨by rw [h.1]; exact p1, by rw [methodOf_append _ p1]; exact p2⟩
      group := hg
      leaf := fun hl' => by
        obtain ⟨l1, l2, l3⟩ := hl hl'
        exact ⟨l1, l2, by rw [huse, f1], l3⟩
      gb := fun _ => by rw [hbef, f2] }

theorem reflects_method {ops : List (Op α)} {heap : Heap α} (h : Reflects ops heap) {r : Nat} {n : RNode α}
    (hn : heap[r]? = some n) : r < (made ops).length ∧ methodOf ops r = n.method ∧
      ∃ c, (made ops)[r]? = some c ∧ c.method = n.method ∧ c.parent = n.parent := by
  have h1 := (List.getElem?_eq_some_iff.1 hn).1
  rw [h.1] at h1
  have h2 : (made ops)[r]? = some (made ops)[r] := by simp [h1]
  have h3 := h.2 r n _ hn h2
  refine ⟨h1, ?_, _, h2, h3.method.symm, h3.parent.symm⟩
  unfold methodOf; rw [h2]; simp [h3.method]

theorem step_reflects {ops : List (Op α)} {heap heap' : Heap α} {op : Op α} (hr : Reflects ops heap) (hf : Fresh ops)
    (hs : step heap op = .ok heap') : Reflects (ops ++ [op]) heap' := by
  cases op with
  | newRouter =>
    simp only [step, Except.ok.injEq] at hs
    subst hs
    exact reflects_make (op := .newRouter) (c := ⟨none, [], [], []⟩) hr hf rfl (fun _ => ⟨rfl, rfl⟩) (by simp) (by simp) (by simp) rfl
  | groupBad => cases hs
  | before r hs' =>
    simp only [step] at hs
    cases hn : heap[r]? with
    | none => rw [hn] at hs; cases hs
    | some n =>
      rw [hn] at hs
      simp only [] at hs
      split at hs
      · cases hs
      · rename_i hm
        split at hs
        · cases hs
        · rename_i hp
          injection hs with hs; subst hs
          obtain ⟨_, _, c, h4, h5, h6⟩ := reflects_method hr hn
          simp only [ne_eq, Decidable.not_not] at hm hp
          refine reflects_modify hr rfl ?_ ?_ ?_
          · intro x; simp [usesBy, beforesBy]
          · intro i hi; simp [usesBy, beforesBy, Ne.symm hi]
          · intro c' hc'; rw [h4] at hc'; cases hc'
            exact ⟨by rw [h5, hm], fun hne => absurd (by rw [h6, hp]) hne⟩
  | group r p =>
    simp only [step] at hs
    cases hn : heap[r]? with
    | none => rw [hn] at hs; cases hs
    | some n =>
      rw [hn] at hs
      simp only [] at hs
      split at hs
      · cases hs
      · rename_i hm
        injection hs with hs; subst hs
        simp only [ne_eq, Decidable.not_not] at hm
        obtain ⟨h2, h3, _⟩ := reflects_method hr hn
        exact reflects_make (op := .group r p) (c := ⟨some r, [], p, []⟩) hr hf rfl (fun _ => ⟨rfl, rfl⟩)
          (by rintro q ⟨⟩; exact ⟨h2, by rw [h3, hm]⟩) (by simp) (by simp) rfl
  | groupMw r h =>
    simp only [step] at hs
    cases hn : heap[r]? with
    | none => rw [hn] at hs; cases hs
    | some n =>
      rw [hn] at hs
      simp only [] at hs
      split at hs
      · cases hs
      · rename_i hm
        injection hs with hs; subst hs
        obtain ⟨_, _, c, h4, h5, h6⟩ := reflects_method hr hn
        simp only [ne_eq, Decidable.not_not] at hm
        refine reflects_modify hr rfl ?_ ?_ ?_
        · intro x; simp [usesBy, beforesBy]
        · intro i hi; simp [usesBy, beforesBy, Ne.symm hi]
        · intro c' hc'; rw [h4] at hc'; cases hc'
          exact ⟨by rw [h5, hm], fun _ => rfl⟩
  | use r hs' =>
    simp only [step] at hs
    cases hn : heap[r]? with
    | none => rw [hn] at hs; cases hs
    | some n =>
      rw [hn] at hs
      simp only [] at hs
      split at hs
      · cases hs
      · rename_i hm
        injection hs with hs; subst hs
        obtain ⟨_, _, c, h4, h5, h6⟩ := reflects_method hr hn
        simp only [ne_eq, Decidable.not_not] at hm
        refine reflects_modify hr rfl ?_ ?_ ?_
        · intro x; simp [usesBy, beforesBy]
        · intro i hi; simp [usesBy, beforesBy, Ne.symm hi]
        · intro c' hc'; rw [h4] at hc'; cases hc'
          exact ⟨by rw [h5, hm], fun _ => rfl⟩
  | handle r m p hs' =>
    simp only [step] at hs
    cases hn : heap[r]? with
    | none => rw [hn] at hs; cases hs
    | some n =>
      rw [hn] at hs
      simp only [] at hs
      split at hs
      · cases hs
      · rename_i hm
        split at hs
        · cases hs
        · rename_i hnil
          injection hs with hs; subst hs
          simp only [ne_eq, not_or, Decidable.not_not] at hm
          obtain ⟨h2, h3, _⟩ := reflects_method hr hn
          refine reflects_make (op := .handle r m p hs') (c := ⟨some r, m, p, hs'⟩) hr hf rfl (fun _ => ⟨rfl, rfl⟩)
            (by rintro q ⟨⟩; exact ⟨h2, by rw [h3, hm.1]⟩) ?_ ?_ rfl
          · intro h; simp only [] at h; rw [h] at hm; exact absurd hm.2 (by decide)
          · intro _
            refine ⟨hm.2, by simp, fun hin => hnil ?_⟩
            exact List.any_eq_true.2 ⟨_, hin, rfl⟩

theorem runOps_reflects {ops pre : List (Op α)} {heap heap' : Heap α} (hr : Reflects pre heap) (hf : Fresh pre)
    (hs : runOps heap ops = .ok heap') : Reflects (pre ++ ops) heap' ∧ Fresh (pre ++ ops) := by
  induction ops generalizing pre heap with
  | nil => simp only [runOps, Except.ok.injEq] at hs; subst hs; simpa using ⟨hr, hf⟩
  | cons op ops ih =>
    unfold runOps at hs
    cases h1 : step heap op with
    | error e => rw [h1] at hs; simp [bind, Except.bind] at hs
    | ok h2 =>
      rw [h1] at hs
      simp only [bind, Except.bind] at hs
      have := ih (step_reflects hr hf h1) (step_fresh hr hf h1) hs
      simpa using this

/-- the heap after a history reflects it -/
theorem run_reflects {ops : List (Op α)} {heap : Heap α} (h : runOps [] ops = .ok heap) : Reflects ops heap := by
  have := (runOps_reflects reflects_nil (by intro i _; simp [usesOf, beforesOf, kids, made]) h).1
  simpa using this

end Water
