import Verif.Spec.Slices
/-
Slices.
-/
namespace Water
open Spec
variable {α β : Type}

/-- the slice lies within its array -/
def Fits (m : Arrays β) (s : Slice) : Prop := s.len ≤ s.cap ∧ (0 < s.cap → s.off + s.cap ≤ (m.getD s.arr []).length)

theorem getD_of_get {m : Arrays β} {a : Nat} {l : List β} (h : m[a]? = some l) : m.getD a [] = l := by
  rw [List.getD_eq_getElem?_getD, h]; rfl

theorem Fits.lt {m : Arrays β} {s : Slice} (h : Fits m s) (hc : 0 < s.cap) : s.arr < m.length := by
  have := h.2 hc
  rw [List.getD_eq_getElem?_getD] at this
  cases hm : m[s.arr]? with
  | none => rw [hm] at this; simp at this; omega
  | some l => exact (List.getElem?_eq_some_iff.1 hm).1

theorem getD_congr {m m' : Arrays β} {a : Nat} (h : m'[a]? = m[a]?) : m'.getD a [] = m.getD a [] := by
  rw [List.getD_eq_getElem?_getD, List.getD_eq_getElem?_getD, h]

theorem Fits.congr {m m' : Arrays β} {s : Slice} (h : Fits m s) (hs : 0 < s.cap → m'[s.arr]? = m[s.arr]?) : Fits m' s :=
  ⟨h.1, fun hc => by rw [getD_congr (hs hc)]; exact h.2 hc⟩

theorem Slice.read_congr {m m' : Arrays β} {s : Slice} (h : Fits m s) (hs : 0 < s.cap → m'[s.arr]? = m[s.arr]?) :
    s.read m' = s.read m := by
  unfold Slice.read
  by_cases hc : 0 < s.cap
  · rw [getD_congr (hs hc)]
  · have : s.len = 0 := by have := h.1; omega
    rw [this]; simp

theorem Slice.read_length {m : Arrays β} {s : Slice} (h : Fits m s) : (s.read m).length = s.len := by
  unfold Slice.read
  rw [List.length_take, List.length_drop]
  by_cases hc : 0 < s.cap
  · have := h.2 hc
    have := h.1
    omega
  · have := h.1
    omega

theorem none_fits (m : Arrays β) : Fits m Slice.none := ⟨Nat.le_refl _, fun h => absurd h (Nat.lt_irrefl 0)⟩

theorem none_read (m : Arrays β) : Slice.none.read m = [] := by simp [Slice.read, Slice.none]

theorem putAt_nil (k : Nat) (l : List β) : putAt [] k l = l := by simp [putAt]

theorem putAt_length {xs : List β} {k : Nat} {l : List β} (h : k + xs.length ≤ l.length) : (putAt xs k l).length = l.length := by
  simp only [putAt, List.length_append, List.length_take, List.length_drop]
  omega

theorem putAt_window {xs : List β} {off len : Nat} {l : List β} (h : off + len + xs.length ≤ l.length) :
    ((putAt xs (off + len) l).drop off).take (len + xs.length) = (l.drop off).take len ++ xs := by
  have h1 : putAt xs (off + len) l = l.take off ++ ((l.drop off).take len ++ (xs ++ l.drop (off + len + xs.length))) := by
    unfold putAt
    rw [List.take_add]
    simp [List.append_assoc]
  have h2 : (l.take off).length = off := by rw [List.length_take]; omega
  have h3 : ((l.drop off).take len).length = len := by rw [List.length_take, List.length_drop]; omega
  have h4 : ((putAt xs (off + len) l).drop off) = (l.drop off).take len ++ (xs ++ l.drop (off + len + xs.length)) := by
    rw [h1]
    conv => lhs; rw [← h2]
    rw [show (l.take (l.take off).length ++ ((l.drop (l.take off).length).take len ++ (xs ++ l.drop ((l.take off).length + len + xs.length)))) =
      l.take off ++ ((l.drop off).take len ++ (xs ++ l.drop (off + len + xs.length))) by rw [h2]]
    exact List.drop_left
  rw [h4, ← List.append_assoc]
  have h5 : ((l.drop off).take len ++ xs).length = len + xs.length := by rw [List.length_append, h3]
  rw [← h5]
  exact List.take_left

theorem modify_getD {m : Arrays β} {a : Nat} (f : List β → List β) (h : a < m.length) : (m.modify a f).getD a [] = f (m.getD a []) := by
  simp only [List.getD_eq_getElem?_getD, List.getElem?_modify, if_true]
  rw [List.getElem?_eq_getElem h]
  rfl

/-- what `append` does -/
structure Appended (m : Arrays β) (s : Slice) (xs : List β) (t : Slice) (m' : Arrays β) : Prop where
  fits : Fits m' t
  read : t.read m' = s.read m ++ xs
  grows : m.length ≤ m'.length
  frame : ∀ a, a < m.length → (a ≠ s.arr ∨ s.cap = 0) → m'[a]? = m[a]?
  place : t.cap = 0 ∨ (t.arr = s.arr ∧ 0 < s.cap) ∨ t.arr = m.length

theorem appendS_spec (grow : Nat → Nat → Nat) (z : β) {m : Arrays β} {s : Slice} (h : Fits m s) (xs : List β) :
    Appended m s xs (appendS grow z m s xs).1 (appendS grow z m s xs).2 := by
  unfold appendS
  by_cases hroom : s.len + xs.length ≤ s.cap
  · rw [if_pos hroom]
    by_cases hc : 0 < s.cap
    · have hlt := h.lt hc
      have hb := h.2 hc
      refine ⟨⟨hroom, fun _ => ?_⟩, ?_, by simp, fun a _ ha => ?_, .inr (.inl ⟨rfl, hc⟩)⟩
      · show s.off + s.cap ≤ _
        rw [modify_getD _ hlt, putAt_length (by omega)]
        exact hb
      · show (List.drop s.off _).take (s.len + xs.length) = _
        rw [modify_getD _ hlt, putAt_window (by omega)]
        rfl
      · rcases ha with ha | ha
        · have : ¬ s.arr = a := fun h => ha h.symm
          simp [List.getElem?_modify, this]
        · omega
    · have hx : xs = [] := List.length_eq_zero_iff.1 (by omega)
      have hl : s.len = 0 := by omega
      subst hx
      have hid : m.modify s.arr (putAt [] (s.off + s.len)) = m := by
        apply List.ext_getElem?
        intro b
        rw [List.getElem?_modify]
        split
        · cases m[b]? <;> simp [putAt_nil]
        · cases m[b]? <;> rfl
      simp only [hid]
      exact ⟨⟨hroom, fun h => absurd h hc⟩, by simp [Slice.read, hl], Nat.le_refl _, fun _ _ _ => rfl, .inl (by show s.cap = 0; omega)⟩
  · rw [if_neg hroom]
    simp only []
    have hread := Slice.read_length h
    have hget : ∀ x : List β, (m ++ [x]).getD m.length [] = x := by
      intro x
      rw [List.getD_eq_getElem?_getD, List.getElem?_append_right (Nat.le_refl _)]
      simp
    refine ⟨⟨?_, fun _ => ?_⟩, ?_, by simp, fun a ha _ => ?_, .inr (.inr rfl)⟩
    · exact Nat.le_max_left _ _
    · show 0 + _ ≤ _
      rw [hget]
      simp only [List.length_append, hread, List.length_replicate]
      omega
    · show (List.drop 0 _).take (s.len + xs.length) = _
      rw [hget, List.drop_zero]
      have : (s.read m ++ xs).length = s.len + xs.length := by rw [List.length_append, hread]
      rw [← this]
      exact List.take_left
    · exact List.getElem?_append_left ha

/-! ### routers -/

def SNode.slot (n : SNode) : Bool → Slice
  | true => n.gbefores
  | false => n.befores

def SNode.setSlot (b : Bool) (s : Slice) (n : SNode) : SNode :=
  match b with
  | true => { n with gbefores := s }
  | false => { n with befores := s }

def RNode.slot (n : RNode α) : Bool → List (HVal α)
  | true => n.gbefores
  | false => n.befores

def RNode.addSlot (b : Bool) (xs : List (HVal α)) (n : RNode α) : RNode α :=
  match b with
  | true => { n with gbefores := n.gbefores ++ xs }
  | false => { n with befores := n.befores ++ xs }

/-- what an endpoint was given -/
def Given (st : SState α) (arrs : List (List (HVal α))) (n : SNode) (n0 : RNode α) : Option Slice → Prop
  | none => n.handlers = Slice.none ∧ n0.handlers = []
  | some s => ∃ a, st.own[s.arr]? = some a ∧ n.handlers = { s with arr := a } ∧ InArray arrs s

/-- the routers with slices and the routers with lists -/
structure Sim (st : SState α) (arrs : List (List (HVal α))) (made : List (Option Slice)) (heap0 : Heap α) : Prop where
  own_len : st.own.length = arrs.length
  own_at : ∀ (k a : Nat), st.own[k]? = some a → a < st.mem.length ∧ arrs[k]? = st.mem[a]?
  own_inj : ∀ (k l a : Nat), st.own[k]? = some a → st.own[l]? = some a → k = l
  len : st.heap.length = heap0.length
  made_len : made.length = st.heap.length
  node : ∀ (i : Nat) (n : SNode), st.heap[i]? = some n → ∃ (n0 : RNode α) (g : Option Slice), heap0[i]? = some n0 ∧ made[i]? = some g ∧
    n0.method = n.method ∧ n0.pattern = n.pattern ∧ n0.parent = n.parent ∧ n0.sub = n.sub ∧
    (∀ b, (n.slot b).read st.mem = n0.slot b ∧ Fits st.mem (n.slot b)) ∧ Given st arrs n n0 g
  free : ∀ (i : Nat) (n : SNode) (b : Bool), st.heap[i]? = some n → 0 < (n.slot b).cap → (n.slot b).arr ∉ st.own
  apart : ∀ (i j : Nat) (n m : SNode) (b c : Bool), st.heap[i]? = some n → st.heap[j]? = some m → 0 < (n.slot b).cap →
    0 < (m.slot c).cap → (n.slot b).arr = (m.slot c).arr → i = j ∧ b = c

theorem sim_start : Sim (α := α) SState.start [] [] [] where
  own_len := rfl
  own_at := by intro k a h; simp [SState.start] at h
  own_inj := by intro k l a h; simp [SState.start] at h
  len := rfl
  made_len := rfl
  node := by intro i n h; simp [SState.start] at h
  free := by intro i n b h; simp [SState.start] at h
  apart := by intro i j n m b c h; simp [SState.start] at h

theorem Sim.resolve {st : SState α} {arrs : List (List (HVal α))} {made : List (Option Slice)} {heap0 : Heap α}
    (hs : Sim st arrs made heap0) {s : Slice} (hw : InArray arrs s) :
    ∃ a, st.own[s.arr]? = some a ∧ st.resolve s = some { s with arr := a } ∧ ({ s with arr := a } : Slice).read st.mem = window arrs s ∧
      Fits st.mem { s with arr := a } := by
  obtain ⟨l, h1, h2, h3⟩ := hw
  have hk : s.arr < st.own.length := by
    rw [hs.own_len]
    exact (List.getElem?_eq_some_iff.1 h1).1
  have ha : st.own[s.arr]? = some st.own[s.arr] := List.getElem?_eq_getElem hk
  obtain ⟨h4, h5⟩ := hs.own_at _ _ ha
  rw [h1] at h5
  have hg := getD_of_get h5.symm
  refine ⟨_, ha, ?_, ?_, h3, fun _ => ?_⟩
  · unfold SState.resolve
    simp only [ha, hg, if_pos (And.intro h2 h3)]
  · unfold Slice.read window
    simp only [hg, h1, Option.getD_some]
  · simp only [hg]
    exact h2

/-- the arrays of the caller and the slices of the routers do not meet -/
theorem Sim.handlers_arr {st : SState α} {arrs : List (List (HVal α))} {made : List (Option Slice)} {heap0 : Heap α}
    (hs : Sim st arrs made heap0) {i : Nat} {n : SNode} (hi : st.heap[i]? = some n) : n.handlers = Slice.none ∨ n.handlers.arr ∈ st.own := by
  obtain ⟨n0, g, _, _, _, _, _, _, _, hg⟩ := hs.node i n hi
  cases g with
  | none => exact .inl hg.1
  | some s =>
    obtain ⟨a, h1, h2, _⟩ := hg
    refine .inr ?_
    rw [h2]
    exact List.mem_of_getElem? h1

theorem slot_setSlot (n : SNode) (b c : Bool) (s : Slice) : (n.setSlot b s).slot c = if c = b then s else n.slot c := by
  cases b <;> cases c <;> rfl

theorem slot_addSlot (n : RNode α) (b c : Bool) (xs : List (HVal α)) :
    (n.addSlot b xs).slot c = if c = b then n.slot b ++ xs else n.slot c := by
  cases b <;> cases c <;> rfl

/-- `Use` and `Before` -/
theorem Sim.append {st : SState α} {arrs : List (List (HVal α))} {made : List (Option Slice)} {heap0 : Heap α}
    (hs : Sim st arrs made heap0) {r : Nat} {n : SNode} (hr : st.heap[r]? = some n) (b : Bool) (xs : List (HVal α)) {t : Slice}
    {m' : Arrays (HVal α)} (ha : Appended st.mem (n.slot b) xs t m') :
    Sim { st with mem := m', heap := st.heap.modify r (SNode.setSlot b t) } arrs made (heap0.modify r (RNode.addSlot b xs)) := by
  have hget : ∀ i, (st.heap.modify r (SNode.setSlot b t))[i]? = if i = r then some (n.setSlot b t) else st.heap[i]? := by
    intro i
    rw [List.getElem?_modify]
    by_cases h : r = i
    · subst h; simp [hr]
    · have : ¬ i = r := fun h' => h h'.symm
      simp [h, this]
  obtain ⟨hfb, hfa⟩ : (∀ i ni c, st.heap[i]? = some ni → ¬ (i = r ∧ c = b) → 0 < (ni.slot c).cap →
      m'[(ni.slot c).arr]? = st.mem[(ni.slot c).arr]?) ∧ ∀ a ∈ st.own, m'[a]? = st.mem[a]? := by
    constructor
    · intro i ni c hi hne hc
      obtain ⟨_, _, _, _, _, _, _, _, hsl, _⟩ := hs.node i ni hi
      refine ha.frame _ ((hsl c).2.lt hc) ?_
      by_cases hcap : 0 < (n.slot b).cap
      · refine .inl (fun heq => hne ?_)
        exact hs.apart i r ni n c b hi hr hc hcap heq
      · exact .inr (by omega)
    · intro a hmem
      obtain ⟨k, hk⟩ := List.mem_iff_getElem?.1 hmem
      refine ha.frame a (hs.own_at k a hk).1 ?_
      by_cases hcap : 0 < (n.slot b).cap
      · refine .inl (fun heq => ?_)
        exact hs.free r n b hr hcap (heq ▸ hmem)
      · exact .inr (by omega)
  constructor
  · exact hs.own_len
  · intro k a hk
    obtain ⟨h1, h2⟩ := hs.own_at k a hk
    refine ⟨Nat.lt_of_lt_of_le h1 ha.grows, ?_⟩
    show arrs[k]? = m'[a]?
    rw [hfa a (List.mem_of_getElem? hk), h2]
  · exact hs.own_inj
  · simp [hs.len]
  · simp [hs.made_len]
  · intro i ni hi
    simp only [hget] at hi
    by_cases hir : i = r
    · subst hir
      rw [if_pos rfl] at hi
      injection hi with hi
      subst hi
      obtain ⟨n0, g, k1, k2, k3, k4, k5, k6, k7, k8⟩ := hs.node i n hr
      refine ⟨n0.addSlot b xs, g, by rw [List.getElem?_modify, k1]; simp, k2, ?_, ?_, ?_, ?_, fun c => ?_, ?_⟩
      · cases b <;> exact k3
      · cases b <;> exact k4
      · cases b <;> exact k5
      · cases b <;> exact k6
      · rw [slot_setSlot, slot_addSlot]
        by_cases hcb : c = b
        · rw [if_pos hcb, if_pos hcb]
          exact ⟨by rw [ha.read, (k7 b).1], ha.fits⟩
        · rw [if_neg hcb, if_neg hcb]
          have hsame := hfb i n c hr (fun h => hcb h.2)
          exact ⟨by rw [Slice.read_congr (k7 c).2 hsame, (k7 c).1], (k7 c).2.congr hsame⟩
      · cases g with
        | none => cases b <;> exact k8
        | some s => cases b <;> exact k8
    · rw [if_neg hir] at hi
      obtain ⟨n0, g, k1, k2, k3, k4, k5, k6, k7, k8⟩ := hs.node i ni hi
      have : ¬ r = i := fun h => hir h.symm
      refine ⟨n0, g, by rw [List.getElem?_modify, k1]; simp [this], k2, k3, k4, k5, k6, fun c => ?_, ?_⟩
      · have hsame := hfb i ni c hi (fun h => hir h.1)
        exact ⟨by rw [Slice.read_congr (k7 c).2 hsame, (k7 c).1], (k7 c).2.congr hsame⟩
      · cases g <;> exact k8
  · intro i ni c hi hc
    simp only [hget] at hi
    by_cases hir : i = r
    · subst hir
      rw [if_pos rfl] at hi
      injection hi with hi
      subst hi
      rw [slot_setSlot] at hc ⊢
      by_cases hcb : c = b
      · rw [if_pos hcb] at hc ⊢
        rcases ha.place with h | ⟨h, h'⟩ | h
        · omega
        · rw [h]; exact hs.free i n b hr h'
        · intro hm
          obtain ⟨k, hk⟩ := List.mem_iff_getElem?.1 hm
          have := (hs.own_at k _ hk).1
          omega
      · rw [if_neg hcb] at hc ⊢
        exact hs.free i n c hr hc
    · rw [if_neg hir] at hi
      exact hs.free i ni c hi hc
  · have hold : ∀ i ni c, st.heap[i]? = some ni → 0 < (ni.slot c).cap → ¬ (i = r ∧ c = b) → (ni.slot c).arr = t.arr → 0 < t.cap → False := by
      intro i ni c hi hc hne heq htc
      obtain ⟨_, _, _, _, _, _, _, _, hsl, _⟩ := hs.node i ni hi
      rcases ha.place with h | ⟨h, h'⟩ | h
      · omega
      · rw [h] at heq
        exact hne (hs.apart i r ni n c b hi hr hc h' heq)
      · have := (hsl c).2.lt hc
        omega
    intro i j ni nj c d hi hj hc hd heq
    simp only [hget] at hi hj
    have key : ∀ {i ni c}, (if i = r then some (n.setSlot b t) else st.heap[i]?) = some ni → ((i = r ∧ c = b) ∧ ni.slot c = t) ∨
        (¬ (i = r ∧ c = b) ∧ ∃ mi, st.heap[i]? = some mi ∧ ni.slot c = mi.slot c) := by
      intro i ni c hi
      by_cases hir : i = r
      · subst hir
        rw [if_pos rfl] at hi
        injection hi with hi
        subst hi
        rw [slot_setSlot]
        by_cases hcb : c = b
        · exact .inl ⟨⟨rfl, hcb⟩, by rw [if_pos hcb]⟩
        · exact .inr ⟨fun h => hcb h.2, n, hr, by rw [if_neg hcb]⟩
      · rw [if_neg hir] at hi
        exact .inr ⟨fun h => hir h.1, ni, hi, rfl⟩
    rcases key (c := c) hi with ⟨⟨h1, h2⟩, h3⟩ | ⟨h1, mi, h2, h3⟩ <;> rcases key (c := d) hj with ⟨⟨g1, g2⟩, g3⟩ | ⟨g1, mj, g2, g3⟩
    · exact ⟨by omega, by rw [h2, g2]⟩
    · rw [g3] at hd heq
      rw [h3] at hc heq
      exact (hold j mj d g2 hd g1 heq.symm hc).elim
    · rw [h3] at hc heq
      rw [g3] at hd heq
      exact (hold i mi c h2 hc h1 heq hd).elim
    · rw [h3] at hc heq
      rw [g3] at hd heq
      exact hs.apart i j mi mj c d h2 g2 hc hd heq

end Water
