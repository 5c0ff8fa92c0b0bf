import Verif.Lemmas.Slices2
/-
What `Handler` reads, and the routes nobody disturbs.
-/
namespace Water
open Spec
variable {α : Type}

/-- every slice of a router lies within its array -/
def AllFit (heap : List SNode) (m0 : Arrays (HVal α)) : Prop :=
  ∀ n ∈ heap, Fits m0 n.gbefores ∧ Fits m0 n.befores ∧ Fits m0 n.handlers

theorem Sim.handlers_fit {st : SState α} {arrs : List (List (HVal α))} {made : List (Option Slice)} {heap0 : Heap α}
    (hs : Sim st arrs made heap0) {n : SNode} {n0 : RNode α} : ∀ {g : Option Slice}, Given st arrs n n0 g →
    Fits st.mem n.handlers ∧ n.handlers.read st.mem = match g with | none => n0.handlers | some s => window arrs s
  | none, h => by
    rw [h.1, h.2]
    exact ⟨none_fits _, none_read _⟩
  | some s, h => by
    obtain ⟨a, h1, h2, h3⟩ := h
    obtain ⟨a', g1, g2, g3, g4⟩ := hs.resolve h3
    have : a = a' := by rw [h1] at g1; exact Option.some.inj g1
    subst this
    rw [h2]
    exact ⟨g4, g3⟩

theorem Sim.allFit {st : SState α} {arrs : List (List (HVal α))} {made : List (Option Slice)} {heap0 : Heap α}
    (hs : Sim st arrs made heap0) : AllFit st.heap st.mem := by
  intro n hn
  obtain ⟨i, hi⟩ := List.mem_iff_getElem?.1 hn
  obtain ⟨n0, g, k1, k2, k3, k4, k5, k6, k7, k8⟩ := hs.node i n hi
  exact ⟨(k7 true).2, (k7 false).2, (hs.handlers_fit k8).1⟩

theorem Sim.view_eq {st : SState α} {arrs : List (List (HVal α))} {made : List (Option Slice)} {heap0 : Heap α}
    (hs : Sim st arrs made heap0) : view st = heapNow arrs made heap0 := by
  apply List.ext_getElem?
  intro i
  unfold view heapNow
  rw [List.getElem?_map, List.getElem?_zipWith]
  cases hi : st.heap[i]? with
  | none => rw [hs.absent hi]; rfl
  | some n =>
    obtain ⟨n0, g, k1, k2, k3, k4, k5, k6, k7, k8⟩ := hs.node i n hi
    have hh := (hs.handlers_fit k8).2
    have hg := (k7 true).1
    have hb := (k7 false).1
    rw [k1, k2]
    simp only [Option.map_some, Option.some.injEq]
    cases n0
    simp only [SNode.slot, RNode.slot] at *
    cases g <;> simp_all [shown]

/-! ### chains -/

/-- the arrays there were are as they were -/
def Kept (m0 m : Arrays (HVal α)) : Prop := m0.length ≤ m.length ∧ ∀ a, a < m0.length → m[a]? = m0[a]?

/-- the chain being made is in an array of its own -/
structure Chain (m0 m : Arrays (HVal α)) (hs : Slice) (l : List (HVal α)) : Prop where
  kept : Kept m0 m
  fits : Fits m hs
  fresh : 0 < hs.cap → m0.length ≤ hs.arr
  read : hs.read m = l

theorem Kept.read {m0 m : Arrays (HVal α)} (h : Kept m0 m) {s : Slice} (hf : Fits m0 s) : s.read m = s.read m0 :=
  Slice.read_congr hf (fun hc => h.2 _ (hf.lt hc))

theorem Chain.append {m0 m : Arrays (HVal α)} {hs : Slice} {l : List (HVal α)} (hc : Chain m0 m hs l) {xs : List (HVal α)} {t : Slice}
    {m' : Arrays (HVal α)} (ha : Appended m hs xs t m') : Chain m0 m' t (l ++ xs) where
  kept := by
    refine ⟨Nat.le_trans hc.kept.1 ha.grows, fun a h => ?_⟩
    rw [ha.frame a (Nat.lt_of_lt_of_le h hc.kept.1) ?_, hc.kept.2 a h]
    by_cases hcap : 0 < hs.cap
    · have := hc.fresh hcap
      exact .inl (by omega)
    · exact .inr (by omega)
  fits := ha.fits
  fresh := by
    intro ht
    rcases ha.place with h | ⟨h, h'⟩ | h
    · omega
    · rw [h]; exact hc.fresh h'
    · rw [h]; exact hc.kept.1
  read := by rw [ha.read, hc.read]

theorem Chain.front (grow : Nat → Nat → Nat) {m0 m : Arrays (HVal α)} {hs : Slice} {l : List (HVal α)} (hc : Chain m0 m hs l) {bs : Slice}
    (hb : Fits m0 bs) : Chain m0 (frontS grow m bs hs).2 (frontS grow m bs hs).1
      (if (bs.read m0).length > 0 then bs.read m0 ++ l else l) := by
  unfold frontS
  rw [Slice.read_length hb]
  by_cases hl : bs.len > 0
  · rw [if_pos hl, if_pos hl]
    simp only [makeS]
    have hlen := Slice.read_length hb
    have hcopy : copyS (m ++ [List.replicate bs.len HVal.nil]) ⟨m.length, 0, bs.len, bs.len⟩
        (bs.read (m ++ [List.replicate bs.len HVal.nil])) = m ++ [bs.read m0] := by
      have hread : bs.read (m ++ [List.replicate bs.len HVal.nil]) = bs.read m0 := by
        refine Slice.read_congr hb (fun hcap => ?_)
        have := hb.lt hcap
        rw [List.getElem?_append_left (Nat.lt_of_lt_of_le this hc.kept.1)]
        exact hc.kept.2 _ this
      unfold copyS
      rw [hread]
      have : (bs.read m0).take bs.len = bs.read m0 := List.take_of_length_le (by omega)
      simp only [this]
      apply List.ext_getElem?
      intro i
      rw [List.getElem?_modify]
      by_cases hi : m.length = i
      · subst hi
        simp [putAt, hlen]
      · simp only [hi, if_false, List.getElem?_append]
        split
        · simp
        · have h1 : 1 ≤ i - m.length := by omega
          rw [List.getElem?_eq_none_iff.2 (by simpa using h1), List.getElem?_eq_none_iff.2 (by simpa using h1)]
          rfl
    rw [hcopy]
    have hh : hs.read (m ++ [bs.read m0]) = l := by
      rw [Slice.read_congr hc.fits (fun hcap => List.getElem?_append_left (hc.fits.lt hcap)), hc.read]
    rw [hh]
    have hstart : Chain m0 (m ++ [bs.read m0]) ⟨m.length, 0, bs.len, bs.len⟩ (bs.read m0) := by
      refine ⟨⟨by simp; have := hc.kept.1; omega, fun a ha => ?_⟩, ⟨Nat.le_refl _, fun _ => ?_⟩, fun _ => hc.kept.1, ?_⟩
      · rw [List.getElem?_append_left (Nat.lt_of_lt_of_le ha hc.kept.1)]
        exact hc.kept.2 a ha
      · simp [List.getD_eq_getElem?_getD, hlen]
      · have hd : (m ++ [bs.read m0]).getD m.length [] = bs.read m0 := by simp [List.getD_eq_getElem?_getD]
        show (((m ++ [bs.read m0]).getD m.length []).drop 0).take bs.len = _
        rw [hd, List.drop_zero]
        exact List.take_of_length_le (by omega)
    exact hstart.append (appendS_spec grow .nil hstart.fits l)
  · rw [if_neg hl, if_neg hl]
    exact hc

theorem climbS_spec (grow : Nat → Nat → Nat) {heap : List SNode} {m0 : Arrays (HVal α)} (hf : AllFit heap m0) : ∀ (fuel : Nat)
    {m : Arrays (HVal α)} (i : Nat) (ps : List Str) {hs : Slice} {l : List (HVal α)}, Chain m0 m hs l →
    match climbS grow heap fuel m i ps hs with
    | none => climb (heap.map (shown m0)) fuel i ps l = none
    | some (ps', hs', m') => ∃ l', climb (heap.map (shown m0)) fuel i ps l = some (ps', l') ∧ Chain m0 m' hs' l'
  | 0, _, _, _, _, _, _ => rfl
  | fuel + 1, m, i, ps, hs, l, hc => by
    simp only [climbS, climb, List.getElem?_map]
    cases hi : heap[i]? with
    | none => rfl
    | some n =>
      obtain ⟨hg, hb, hh⟩ := hf n (List.mem_of_getElem? hi)
      simp only [Option.map_some, shown]
      have h1 : Chain m0 (if n.handlers.len > 0 then appendS grow .nil m hs (n.handlers.read m) else (hs, m)).2
          (if n.handlers.len > 0 then appendS grow .nil m hs (n.handlers.read m) else (hs, m)).1
          (if (n.handlers.read m0).length > 0 then l ++ n.handlers.read m0 else l) := by
        rw [Slice.read_length hh]
        by_cases hl : n.handlers.len > 0
        · rw [if_pos hl, if_pos hl, hc.kept.read hh]
          exact hc.append (appendS_spec grow .nil hc.fits _)
        · rw [if_neg hl, if_neg hl]
          exact hc
      have h2 := h1.front grow hb
      have h3 := h2.front grow hg
      cases n.parent with
      | none => exact ⟨_, rfl, h3⟩
      | some p => exact climbS_spec grow hf fuel p _ h3

theorem getRouteS_spec (grow : Nat → Nat → Nat) {heap : List SNode} {m0 m : Arrays (HVal α)} (hf : AllFit heap m0) (hk : Kept m0 m) (i : Nat) :
    match getRouteS grow heap m i with
    | .error x => getRoute (heap.map (shown m0)) i = .error x
    | .ok (re, m') => getRoute (heap.map (shown m0)) i = .ok re ∧ Kept m0 m' := by
  have hs := climbS_spec grow hf heap.length i [] (m := m) (hs := Slice.none) (l := [])
    ⟨hk, none_fits _, fun h => absurd h (Nat.lt_irrefl 0), none_read _⟩
  simp only [getRouteS, getRoute, List.getElem?_map, List.length_map]
  cases heap[i]? with
  | none => rfl
  | some n =>
    simp only [Option.map_some]
    cases hc : climbS grow heap heap.length m i [] Slice.none with
    | none =>
      rw [hc] at hs
      simp only [] at hs
      simp only [hs]
    | some x =>
      obtain ⟨ps, hs', m'⟩ := x
      rw [hc] at hs
      simp only [] at hs
      obtain ⟨l', h1, h2⟩ := hs
      simp only [h1, h2.read, shown]
      cases newHandlers l' with
      | error p => rfl
      | ok as =>
        simp only [bind, Except.bind]
        by_cases h0 : as.length = 0
        · rw [if_pos h0, if_pos h0]
        · rw [if_neg h0, if_neg h0]
          exact ⟨rfl, h2.kept⟩

theorem foldlM_kept {m0 : Arrays (HVal α)} {f : RouteStore α × Arrays (HVal α) → Nat → Except Panic (RouteStore α × Arrays (HVal α))}
    {g : RouteStore α → Nat → Except Panic (RouteStore α)}
    (hfg : ∀ rs m v, Kept m0 m → match f (rs, m) v with | .error x => g rs v = .error x | .ok (rs', m') => g rs v = .ok rs' ∧ Kept m0 m') :
    ∀ (vs : List Nat) (rs : RouteStore α) (m : Arrays (HVal α)), Kept m0 m →
      match vs.foldlM f (rs, m) with
      | .error x => vs.foldlM g rs = .error x
      | .ok (rs', m') => vs.foldlM g rs = .ok rs' ∧ Kept m0 m'
  | [], rs, m, hk => ⟨rfl, hk⟩
  | v :: vs, rs, m, hk => by
    have h1 := hfg rs m v hk
    simp only [List.foldlM_cons]
    cases hf : f (rs, m) v with
    | error x =>
      rw [hf] at h1
      simp only [] at h1
      rw [h1]
      rfl
    | ok y =>
      obtain ⟨rs', m'⟩ := y
      rw [hf] at h1
      simp only [] at h1
      rw [h1.1]
      exact foldlM_kept hfg vs rs' m' h1.2

theorem dumpRouteS_spec (grow : Nat → Nat → Nat) {heap : List SNode} {m0 : Arrays (HVal α)} (hf : AllFit heap m0) : ∀ (fuel r : Nat)
    (rs : RouteStore α) (m : Arrays (HVal α)), Kept m0 m →
    match dumpRouteS grow heap fuel r (rs, m) with
    | .error x => dumpRoute (heap.map (shown m0)) fuel r rs = .error x
    | .ok (rs', m') => dumpRoute (heap.map (shown m0)) fuel r rs = .ok rs' ∧ Kept m0 m'
  | 0, _, _, _, _ => rfl
  | fuel + 1, r, rs, m, hk => by
    simp only [dumpRouteS, dumpRoute, List.getElem?_map]
    cases hr : heap[r]? with
    | none => rfl
    | some n =>
      simp only [Option.map_some, shown]
      by_cases hsub : n.sub.isEmpty = true
      · rw [if_pos hsub, if_pos hsub]
        have h1 := getRouteS_spec grow hf hk r
        cases hg : getRouteS grow heap m r with
        | error x =>
          rw [hg] at h1
          simp only [] at h1
          rw [h1]
          rfl
        | ok y =>
          obtain ⟨re, m'⟩ := y
          rw [hg] at h1
          simp only [] at h1
          rw [h1.1]
          simp only [bind, Except.bind]
          cases rs.add re with
          | error x => rfl
          | ok rs' => exact ⟨rfl, h1.2⟩
      · rw [if_neg hsub, if_neg hsub]
        exact foldlM_kept (fun rs m v hk => dumpRouteS_spec grow hf fuel v rs m hk) n.sub rs m hk

theorem handlerS_spec (grow : Nat → Nat → Nat) (rx : Regex) {st : SState α} (hf : AllFit st.heap st.mem) (r : Nat) (opts : List (OptS α)) :
    match handlerS grow rx st r opts with
    | .error x => handler rx (view st) r (opts.map (OptS.now st)) = .error x
    | .ok (e, m) => handler rx (view st) r (opts.map (OptS.now st)) = .ok e ∧ Kept st.mem m := by
  have hd := dumpRouteS_spec grow hf st.heap.length r newRouteStore st.mem ⟨Nat.le_refl _, fun _ _ => rfl⟩
  simp only [handlerS, handler, dumpFor, view, List.getElem?_map, List.length_map]
  cases st.heap[r]? with
  | none => rfl
  | some n =>
    simp only [Option.map_some, shown]
    by_cases hm : n.method ≠ []
    · rw [if_pos hm, if_pos hm]; rfl
    · rw [if_neg hm, if_neg hm]
      by_cases hp : n.parent ≠ none
      · rw [if_pos hp, if_pos hp]; rfl
      · rw [if_neg hp, if_neg hp]
        cases applyOpts noOptions (opts.map (OptS.now st)) with
        | error x => rfl
        | ok o =>
          simp only [bind, Except.bind]
          cases withBefores o (n.gbefores.read st.mem) with
          | error x => rfl
          | ok o' =>
            simp only []
            cases hds : dumpRouteS grow st.heap st.heap.length r (newRouteStore, st.mem) with
            | error x =>
              rw [hds] at hd
              simp only [] at hd
              rw [hd]
            | ok y =>
              obtain ⟨rs, m⟩ := y
              rw [hds] at hd
              simp only [] at hd
              rw [hd.1]
              simp only [pure, Except.pure]
              cases mkEngine rx o'.enableStatic o'.noFound rs.routeSlice with
              | error x => rfl
              | ok e => exact ⟨rfl, hd.2⟩

/-! ### routes nobody disturbs -/

/-- what the endpoints are given, read at the call -/
def wrote (arrs : List (List (HVal α))) : List (SOp α) → List (List (HVal α))
  | [] => []
  | op :: ops => (givenBy op).map (fun g => match g with | none => [] | some s => window arrs s) ++ wrote (arraysStep arrs op) ops

theorem modify_handlers {heap : Heap α} {r : Nat} {f : RNode α → RNode α} (hf : ∀ n, (f n).handlers = n.handlers) :
    (heap.modify r f).map RNode.handlers = heap.map RNode.handlers := by
  apply List.ext_getElem?
  intro i
  simp only [List.getElem?_map, List.getElem?_modify]
  cases heap[i]? with
  | none => split <;> rfl
  | some n => split <;> simp [hf]

theorem runOps_one {heap heap1 : Heap α} {op : Op α} (h : runOps heap [op] = .ok heap1) : step heap op = .ok heap1 := by
  simp only [runOps, bind, Except.bind] at h
  cases hs : step heap op with
  | error x => rw [hs] at h; exact (nomatch h)
  | ok y => rw [hs] at h; exact h

theorem callNow_wrote {arrs : List (List (HVal α))} {op : SOp α} {heap heap1 : Heap α} (h : runOps heap (callNow arrs op) = .ok heap1) :
    heap1.map RNode.handlers = heap.map RNode.handlers ++ (givenBy op).map (fun g => match g with | none => [] | some s => window arrs s) := by
  cases op with
  | alloc xs =>
    injection h with h
    subst h
    simp [givenBy]
  | poke k i v =>
    injection h with h
    subst h
    simp [givenBy]
  | newRouter =>
    have h := runOps_one h
    injection h with h
    subst h
    simp [givenBy]
  | groupBad => exact (nomatch runOps_one h)
  | before r s =>
    have h := runOps_one h
    simp only [step] at h
    split at h
    · exact (nomatch h)
    · split at h
      · exact (nomatch h)
      · split at h
        · exact (nomatch h)
        · injection h with h
          subst h
          simp only [givenBy, List.map_nil, List.append_nil]
          exact modify_handlers (fun _ => rfl)
  | use r s =>
    have h := runOps_one h
    simp only [step] at h
    split at h
    · exact (nomatch h)
    · split at h
      · exact (nomatch h)
      · injection h with h
        subst h
        simp only [givenBy, List.map_nil, List.append_nil]
        exact modify_handlers (fun _ => rfl)
  | groupMw r a =>
    have h := runOps_one h
    simp only [step] at h
    split at h
    · exact (nomatch h)
    · split at h
      · exact (nomatch h)
      · injection h with h
        subst h
        simp only [givenBy, List.map_nil, List.append_nil]
        exact modify_handlers (fun _ => rfl)
  | group r p =>
    have h := runOps_one h
    simp only [step] at h
    split at h
    · exact (nomatch h)
    · split at h
      · exact (nomatch h)
      · injection h with h
        subst h
        simp only [addChild, givenBy, List.map_append, List.map_cons, List.map_nil]
        exact congrArg (· ++ _) (modify_handlers (fun _ => rfl))
  | handle r m p s =>
    have h := runOps_one h
    simp only [step] at h
    split at h
    · exact (nomatch h)
    · split at h
      · exact (nomatch h)
      · split at h
        · exact (nomatch h)
        · injection h with h
          subst h
          simp only [addChild, givenBy, List.map_append, List.map_cons, List.map_nil]
          exact congrArg (· ++ _) (modify_handlers (fun _ => rfl))

theorem callsOf_wrote {ops : List (SOp α)} : ∀ {arrs : List (List (HVal α))} {heap heap1 : Heap α},
    runOps heap (callsOf arrs ops) = .ok heap1 → heap1.map RNode.handlers = heap.map RNode.handlers ++ wrote arrs ops := by
  induction ops with
  | nil =>
    intro arrs heap heap1 h
    injection h with h
    subst h
    simp [wrote]
  | cons op ops ih =>
    intro arrs heap heap1 h
    simp only [callsOf, runOps_append, bind, Except.bind] at h
    cases hc : runOps heap (callNow arrs op) with
    | error x => rw [hc] at h; exact (nomatch h)
    | ok h1 =>
      rw [hc] at h
      rw [ih h, callNow_wrote hc, wrote, List.append_assoc]

theorem window_step {arrs : List (List (HVal α))} {op : SOp α} {s : Slice} (hw : InArray arrs s)
    (hno : ∀ i v, op ≠ .poke s.arr i v) : window (arraysStep arrs op) s = window arrs s ∧ InArray (arraysStep arrs op) s := by
  cases op with
  | alloc xs =>
    refine ⟨?_, within_alloc hw xs⟩
    obtain ⟨l, h1, _⟩ := hw
    simp only [window, arraysStep]
    rw [List.getElem?_append_left (List.getElem?_eq_some_iff.1 h1).1]
  | poke k i v =>
    refine ⟨?_, within_poke hw k i v⟩
    have : ¬ k = s.arr := fun h => hno i v (by rw [h])
    simp [window, arraysStep, List.getElem?_modify, this]
  | _ => exact ⟨rfl, hw⟩

theorem window_after {ops : List (SOp α)} : ∀ {arrs : List (List (HVal α))} {s : Slice}, InArray arrs s →
    (∀ i v, SOp.poke s.arr i v ∉ ops) → window (arraysAfter arrs ops) s = window arrs s := by
  induction ops with
  | nil => intro arrs s _ _; rfl
  | cons op ops ih =>
    intro arrs s hw hno
    obtain ⟨h1, h2⟩ := window_step (op := op) hw (fun i v h => hno i v (by rw [h]; exact List.mem_cons_self))
    rw [show arraysAfter arrs (op :: ops) = arraysAfter (arraysStep arrs op) ops from rfl,
      ih h2 (fun i v h => hno i v (List.mem_cons_of_mem _ h)), h1]

theorem wrote_undisturbed {ops : List (SOp α)} : ∀ {arrs : List (List (HVal α))}, Sounds arrs ops → ops.Pairwise (fun a b => ¬ Disturbs a b) →
    wrote arrs ops = (ops.flatMap givenBy).map (fun g => match g with | none => [] | some s => window (arraysAfter arrs ops) s) := by
  induction ops with
  | nil => intro _ _ _; rfl
  | cons op ops ih =>
    intro arrs hs hp
    rw [List.pairwise_cons] at hp
    rw [wrote, ih hs.2 hp.2, List.flatMap_cons, List.map_append]
    congr 1
    cases op with
    | handle r m p s =>
      simp only [givenBy, List.map_cons, List.map_nil, List.cons.injEq, and_true]
      exact (window_after (ops := ops) hs.1 (fun i v hm => hp.1 _ hm ⟨r, m, p, s, i, v, rfl, rfl⟩)).symm
    | _ => rfl

theorem heapNow_same {arrs : List (List (HVal α))} {given : List (Option Slice)} {heap : Heap α}
    (h : heap.map RNode.handlers = given.map (fun g => match g with | none => [] | some s => window arrs s)) : heapNow arrs given heap = heap := by
  induction given generalizing heap with
  | nil =>
    cases heap with
    | nil => rfl
    | cons n heap => simp at h
  | cons g given ih =>
    cases heap with
    | nil => rfl
    | cons n heap =>
      simp only [List.map_cons, List.cons.injEq] at h
      unfold heapNow at ih ⊢
      rw [List.zipWith_cons_cons, ih h.2]
      congr 1
      cases g with
      | none => rfl
      | some s =>
        cases n
        simp only at h
        simp only [h.1]

end Water
