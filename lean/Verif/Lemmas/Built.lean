import Verif.Lemmas.Sel
/- Helper lemmas: the shape of the tree built from a list of registrations. -/
namespace Water
open Spec
variable {α : Type}

/-- the registrations that go through first segment `p`, cut below it -/
def belowE (p : Str) (e : Entry α) : Option (Entry α) :=
  match e.segs with
  | a :: b :: r => if a = p then some { e with segs := b :: r } else none
  | _ => none

def below (p : Str) (tbl : List (Entry α)) : List (Entry α) := tbl.filterMap (belowE p)

theorem belowE_some {p : Str} {e e' : Entry α} :
    belowE p e = some e' ↔ e'.segs ≠ [] ∧ e.segs = p :: e'.segs ∧ e'.handlers = e.handlers ∧ e'.uri = e.uri := by
  rcases e with ⟨segs, h, u⟩
  rcases e' with ⟨segs', h', u'⟩
  unfold belowE
  simp only
  rcases segs with _ | ⟨a, _ | ⟨b, r⟩⟩
  · simp
  · simp; intro h1 h2 h3; exact absurd h3 h1
  · simp only
    split
    · rename_i hap
      simp only [Option.some.injEq, Entry.mk.injEq, ne_eq, List.cons.injEq, hap, true_and]
      constructor
      · rintro ⟨rfl, rfl, rfl⟩; simp
      · rintro ⟨_, rfl, rfl, rfl⟩; simp
    · rename_i hap
      simp [hap]

theorem mem_below {p : Str} {tbl : List (Entry α)} {e' : Entry α} :
    e' ∈ below p tbl ↔ e'.segs ≠ [] ∧ ∃ e ∈ tbl, e.segs = p :: e'.segs ∧ e'.handlers = e.handlers ∧ e'.uri = e.uri := by
  unfold below
  rw [List.mem_filterMap]
  simp only [belowE_some]
  constructor
  · rintro ⟨e, h1, h2, h3⟩; exact ⟨h2, e, h1, h3⟩
  · rintro ⟨h2, e, h1, h3⟩; exact ⟨e, h1, h2, h3⟩

theorem below_append (p : Str) (t1 t2 : List (Entry α)) : below p (t1 ++ t2) = below p t1 ++ below p t2 := by
  unfold below; rw [List.filterMap_append]

theorem Spec.Before.append {β : Type} {P Q : β → Prop} {l : List β} (h : Before P Q l) (m : List β) : Before P Q (l ++ m) := by
  obtain ⟨l1, x, l2, rfl, h1, h2, h3⟩ := h
  exact ⟨l1, x, l2 ++ m, by simp, h1, h2, h3⟩

theorem Spec.Before.new {β : Type} {P Q : β → Prop} {l : List β} {x : β} (hx : x ∈ l) (hP : P x) (hQ : ∀ y ∈ l, ¬ Q y)
    (m : List β) : Before P Q (l ++ m) := by
  obtain ⟨l1, l2, rfl⟩ := List.append_of_mem hx
  exact ⟨l1, x, l2 ++ m, by simp, hP, hQ x hx, fun y hy => hQ y (by simp [hy])⟩

theorem split_filterMap {β γ : Type} {f : β → Option γ} {l : List β} {a : List γ} {x : γ} {b : List γ}
    (h : l.filterMap f = a ++ x :: b) :
    ∃ l1 y l2, l = l1 ++ y :: l2 ∧ l1.filterMap f = a ∧ f y = some x ∧ l2.filterMap f = b := by
  rw [List.filterMap_eq_append_iff] at h
  obtain ⟨m1, m2, rfl, h1, h2⟩ := h
  rw [List.filterMap_eq_cons_iff] at h2
  obtain ⟨k1, y, k2, rfl, h3, h4, h5⟩ := h2
  refine ⟨m1 ++ k1, y, k2, by simp, ?_, h4, h5⟩
  rw [List.filterMap_append, h1]
  have : k1.filterMap f = [] := by rw [List.filterMap_eq_nil_iff]; exact h3
  rw [this]; simp

/-- `Before` seen through `below`. -/
theorem Spec.Before.of_below {p : Str} {tbl : List (Entry α)} {P Q P' Q' : Entry α → Prop}
    (h : Before P' Q' (below p tbl))
    (hP : ∀ e e', belowE p e = some e' → P' e' → P e)
    (hQ : ∀ e, Q e → ∃ e', belowE p e = some e' ∧ Q' e') : Before P Q tbl := by
  obtain ⟨a, x, b, h0, h1, h2, h3⟩ := h
  obtain ⟨l1, y, l2, rfl, ha, hy, hb⟩ := split_filterMap h0
  refine ⟨l1, y, l2, rfl, hP _ _ hy h1, ?_, ?_⟩
  · intro hq
    obtain ⟨e', he', hq'⟩ := hQ _ hq
    rw [hy] at he'; cases he'; exact h2 hq'
  · intro z hz hq
    obtain ⟨e', he', hq'⟩ := hQ _ hq
    exact h3 e' (by rw [← ha, List.mem_filterMap]; exact ⟨z, hz, he'⟩) hq'

theorem Spec.FirstHandlers.of_below {p : Str} {tbl : List (Entry α)} {r : List Str} {h : List α} (hr : r ≠ [])
    (hf : FirstHandlers (below p tbl) r h) : FirstHandlers tbl (p :: r) h := by
  obtain ⟨a, x, b, h0, h1, h2, h3⟩ := hf
  obtain ⟨l1, y, l2, rfl, ha, hy, hb⟩ := split_filterMap h0
  obtain ⟨h4, h5, h6, h7⟩ := belowE_some.1 hy
  refine ⟨l1, y, l2, rfl, by rw [h5, h1], by rw [← h6, h2], ?_⟩
  intro z hz hzs
  have : belowE p z = some { z with segs := r } := belowE_some.2 ⟨hr, hzs, rfl, rfl⟩
  exact h3 { z with segs := r } (by rw [← ha, List.mem_filterMap]; exact ⟨z, hz, this⟩) rfl

theorem Spec.LastUri.of_below {p : Str} {tbl : List (Entry α)} {r : List Str} {u : Str} (hr : r ≠ [])
    (hf : LastUri (below p tbl) r u) : LastUri tbl (p :: r) u := by
  obtain ⟨a, x, b, h0, h1, h2, h3⟩ := hf
  obtain ⟨l1, y, l2, rfl, ha, hy, hb⟩ := split_filterMap h0
  obtain ⟨h4, h5, h6, h7⟩ := belowE_some.1 hy
  refine ⟨l1, y, l2, rfl, by rw [h5, h1], by rw [← h7, h2], ?_⟩
  intro z hz hzs
  have : belowE p z = some { z with segs := r } := belowE_some.2 ⟨hr, hzs, rfl, rfl⟩
  exact h3 { z with segs := r } (by rw [← hb, List.mem_filterMap]; exact ⟨z, hz, this⟩) rfl

/-- order of children: kind, then first registration -/
def ChildLt (P : Str → Entry α → Prop) (tbl : List (Entry α)) (a b : Seg) : Prop :=
  a.typ.ord < b.typ.ord ∨ (a.typ.ord = b.typ.ord ∧ Before (P a.pattern) (P b.pattern) tbl)

def IsEnd (p : Str) (e : Entry α) : Prop := e.segs = [p]

/-- The shape of a node built from `tbl`. -/
inductive Built (rx : Regex) : List (Entry α) → Node α → Prop where
  | mk {tbl : List (Entry α)} {seg : Seg} {subs : List (Node α)} {ends : List (EndNode α)}
    (endsOrd : (ends.map (·.seg)).Pairwise (ChildLt IsEnd tbl))
    (endsOk : ∀ e ∈ ends, analyzePattern rx e.seg.pattern = .ok e.seg ∧
      FirstHandlers tbl [e.seg.pattern] e.handlers ∧ LastUri tbl [e.seg.pattern] e.uri)
    (endsAll : ∀ x ∈ tbl, ∀ p, x.segs = [p] → ∃ e ∈ ends, e.seg.pattern = p)
    (subsOrd : (subs.map Node.seg).Pairwise (ChildLt (fun p => Through [p]) tbl))
    (subsOk : ∀ s ∈ subs, analyzePattern rx s.seg.pattern = .ok s.seg ∧ ∃ x ∈ tbl, Through [s.seg.pattern] x)
    (subsAll : ∀ x ∈ tbl, ∀ p, Through [p] x → ∃ s ∈ subs, s.seg.pattern = p)
    (subsBuilt : ∀ s ∈ subs, Built rx (below s.seg.pattern tbl) s) :
    Built rx tbl (.mk seg subs ends)

theorem Built.empty (rx : Regex) (seg : Seg) : Built (α := α) rx [] (.mk seg [] []) :=
  .mk (by simp) (by simp) (by simp) (by simp) (by simp) (by simp) (by simp)

theorem ChildLt.append {P : Str → Entry α → Prop} {tbl : List (Entry α)} {a b : Seg} (h : ChildLt P tbl a b)
    (m : List (Entry α)) : ChildLt P (tbl ++ m) a b := by
  rcases h with h | ⟨h, h'⟩
  · exact .inl h
  · exact .inr ⟨h, h'.append m⟩

theorem mem_insertOrd {β : Type} {typ : β → PTyp} {x y : β} {l : List β} : y ∈ insertOrd typ x l ↔ y = x ∨ y ∈ l := by
  induction l with
  | nil => simp [insertOrd]
  | cons z zs ih =>
    unfold insertOrd
    split
    · simp
    · simp [ih, or_left_comm]

theorem pairwise_insertOrd {β : Type} {f : β → Seg} {R : Seg → Seg → Prop} {x : β} {l : List β}
    (hR : ∀ a b, R a b → a.typ.ord ≤ b.typ.ord)
    (h : (l.map f).Pairwise R)
    (h1 : ∀ y ∈ l, (f y).typ.ord ≤ (f x).typ.ord → R (f y) (f x))
    (h2 : ∀ y ∈ l, (f x).typ.ord < (f y).typ.ord → R (f x) (f y)) :
    ((insertOrd (fun b => (f b).typ) x l).map f).Pairwise R := by
  induction l with
  | nil => simp [insertOrd]
  | cons z zs ih =>
    simp only [List.map_cons, List.pairwise_cons] at h
    unfold insertOrd
    split
    · rename_i hlt
      simp only [List.map_cons, List.pairwise_cons]
      refine ⟨?_, h⟩
      intro a ha
      rw [← List.map_cons, List.mem_map] at ha
      obtain ⟨y, hy, rfl⟩ := ha
      apply h2 y hy
      rcases List.mem_cons.1 hy with rfl | hy
      · exact hlt
      · have := hR _ _ (h.1 (f y) (List.mem_map_of_mem hy))
        omega
    · rename_i hlt
      simp only [List.map_cons, List.pairwise_cons]
      refine ⟨?_, ih h.2 (fun y hy => h1 y (by simp [hy])) (fun y hy => h2 y (by simp [hy]))⟩
      intro a ha
      obtain ⟨y, hy, rfl⟩ := List.mem_map.1 ha
      rcases mem_insertOrd.1 hy with rfl | hy
      · exact h1 z (by simp) (by omega)
      · exact h.1 _ (List.mem_map_of_mem hy)

theorem Spec.FirstHandlers.append {tbl : List (Entry α)} {r : List Str} {h : List α} (hf : FirstHandlers tbl r h)
    (m : List (Entry α)) : FirstHandlers (tbl ++ m) r h := by
  obtain ⟨l1, x, l2, rfl, h1⟩ := hf
  exact ⟨l1, x, l2 ++ m, by simp, h1⟩

theorem Spec.FirstHandlers.new {tbl : List (Entry α)} {x : Entry α} (h : ∀ y ∈ tbl, y.segs ≠ x.segs) :
    FirstHandlers (tbl ++ [x]) x.segs x.handlers := ⟨tbl, x, [], by simp, rfl, rfl, h⟩

theorem Spec.LastUri.new (tbl : List (Entry α)) (x : Entry α) : LastUri (tbl ++ [x]) x.segs x.uri :=
  ⟨tbl, x, [], by simp, rfl, rfl, by simp⟩

theorem Spec.LastUri.append {tbl : List (Entry α)} {r : List Str} {u : Str} (hf : LastUri tbl r u)
    {m : List (Entry α)} (hm : ∀ y ∈ m, y.segs ≠ r) : LastUri (tbl ++ m) r u := by
  obtain ⟨l1, x, l2, rfl, h1, h2, h3⟩ := hf
  refine ⟨l1, x, l2 ++ m, by simp, h1, h2, ?_⟩
  intro y hy
  rcases List.mem_append.1 hy with hy | hy
  · exact h3 y hy
  · exact hm y hy

theorem findIdx_pattern_none {β : Type} {f : β → Str} {l : List β} {p : Str}
    (h : l.findIdx? (fun e => f e == p) = none) : ∀ e ∈ l, f e ≠ p := by
  rw [List.findIdx?_eq_none_iff] at h
  intro e he hp
  have := h e he
  simp [hp] at this

/-- adding one more registration whose segments are the given single segment -/
theorem addEnd_spec {rx : Regex} {tbl : List (Entry α)} {ends ends' : List (EndNode α)} {p : Str} {h : List α} {u : Str}
    (hok : addEnd rx ends p h u = .ok ends')
    (endsOrd : (ends.map (·.seg)).Pairwise (ChildLt IsEnd tbl))
    (endsOk : ∀ e ∈ ends, analyzePattern rx e.seg.pattern = .ok e.seg ∧
      FirstHandlers tbl [e.seg.pattern] e.handlers ∧ LastUri tbl [e.seg.pattern] e.uri)
    (endsAll : ∀ x ∈ tbl, ∀ p, x.segs = [p] → ∃ e ∈ ends, e.seg.pattern = p) :
    (ends'.map (·.seg)).Pairwise (ChildLt IsEnd (tbl ++ [⟨[p], h, u⟩])) ∧
    (∀ e ∈ ends', analyzePattern rx e.seg.pattern = .ok e.seg ∧
      FirstHandlers (tbl ++ [⟨[p], h, u⟩]) [e.seg.pattern] e.handlers ∧
      LastUri (tbl ++ [⟨[p], h, u⟩]) [e.seg.pattern] e.uri) ∧
    (∀ x ∈ tbl ++ [⟨[p], h, u⟩], ∀ p, x.segs = [p] → ∃ e ∈ ends', e.seg.pattern = p) := by
  unfold addEnd at hok
  cases hf : ends.findIdx? (fun e => e.seg.pattern == p) with
  | some i =>
    rw [hf] at hok
    simp only [] at hok
    injection hok with hok
    subst hok
    rw [List.findIdx?_eq_some_iff_getElem] at hf
    obtain ⟨hi, hp, hlt⟩ := hf
    have hp : ends[i].seg.pattern = p := by simpa using hp
    have hmap : (ends.modify i (fun e => { e with uri := u })).map (·.seg) = ends.map (·.seg) := by
      apply List.ext_getElem
      · simp
      · intro k hk1 hk2
        rw [List.getElem_map, List.getElem_map, List.getElem_modify]
        split <;> rfl
    refine ⟨?_, ?_, ?_⟩
    · rw [hmap]; exact endsOrd.imp (fun h => h.append _)
    · intro e he
      rw [List.mem_iff_getElem] at he
      obtain ⟨j, hj, rfl⟩ := he
      have hj' : j < ends.length := by simpa using hj
      rw [List.getElem_modify]
      by_cases hij : i = j
      · subst hij
        rw [if_pos rfl]
        obtain ⟨h1, h2, h3⟩ := endsOk ends[i] (List.getElem_mem hi)
        refine ⟨h1, h2.append _, ?_⟩
        simp only [hp]
        exact LastUri.new tbl ⟨[p], h, u⟩
      · rw [if_neg hij]
        obtain ⟨h1, h2, h3⟩ := endsOk ends[j] (List.getElem_mem hj')
        refine ⟨h1, h2.append _, h3.append ?_⟩
        intro y hy
        simp at hy; subst hy
        simp only [ne_eq, List.cons.injEq, and_true]
        intro hpj
        -- two different positions with the same pattern contradict the strict order
        have irr : ∀ a b : Seg, ChildLt IsEnd tbl a b → a.pattern ≠ b.pattern ∨ a.typ.ord < b.typ.ord := by
          rintro a b (h | ⟨_, l1, x, l2, _, h1, h2, _⟩)
          · exact .inr h
          · left; intro e; rw [e] at h1; exact h2 h1
        have hseg : ends[i].seg = ends[j].seg := by
          have e1 := (endsOk ends[i] (List.getElem_mem hi)).1
          have e2 := (endsOk ends[j] (List.getElem_mem hj')).1
          rw [hp, hpj] at e1
          rw [e1] at e2
          injection e2
        rw [List.pairwise_iff_getElem] at endsOrd
        rcases Nat.lt_or_gt_of_ne hij with hlt' | hlt'
        · have := irr _ _ (endsOrd i j (by simpa using hi) (by simpa using hj') hlt')
          simp [hseg] at this
        · have := irr _ _ (endsOrd j i (by simpa using hj') (by simpa using hi) hlt')
          simp [hseg] at this
    · intro x hx q hq
      have : ∃ e ∈ ends, e.seg.pattern = q := by
        rcases List.mem_append.1 hx with hx | hx
        · exact endsAll x hx q hq
        · simp at hx; subst hx; simp at hq; subst hq
          exact ⟨ends[i], List.getElem_mem hi, hp⟩
      obtain ⟨e, he, hep⟩ := this
      have : e.seg ∈ (ends.modify i (fun e => { e with uri := u })).map (·.seg) := by
        rw [hmap]; exact List.mem_map_of_mem he
      obtain ⟨e', he', hs⟩ := List.mem_map.1 this
      exact ⟨e', he', by rw [hs]; exact hep⟩
  | none =>
    rw [hf] at hok
    simp only [] at hok
    have hnew := findIdx_pattern_none hf
    have hnone : ∀ y ∈ tbl, ¬ IsEnd p y := by
      intro y hy hp
      obtain ⟨e, he, hep⟩ := endsAll y hy p hp
      exact hnew e he hep
    cases ha : analyzePattern rx p with
    | error err => rw [ha] at hok; simp [bind, Except.bind] at hok
    | ok sg =>
      rw [ha] at hok
      simp [bind, Except.bind, pure, Except.pure] at hok
      have hsg : sg.pattern = p := (analyze_spec ha).1
      subst hok
      refine ⟨?_, ?_, ?_⟩
      · apply pairwise_insertOrd (f := fun e : EndNode α => e.seg)
        · rintro a b (h | h)
          · omega
          · omega
        · exact endsOrd.imp (fun h => h.append _)
        · intro y hy hle
          rcases Nat.lt_or_eq_of_le hle with hl | he
          · exact .inl hl
          · refine .inr ⟨he, ?_⟩
            obtain ⟨_, ⟨l1, x, l2, htb, hx, _⟩, _⟩ := endsOk y hy
            refine Before.new (x := x) (by rw [htb]; simp) hx ?_ _
            simp only [hsg]; exact hnone
        · intro y hy hl; exact .inl hl
      · intro e he
        rcases mem_insertOrd.1 he with rfl | he
        · refine ⟨by simp only [hsg]; exact ha, ?_, ?_⟩
          · simp only [hsg]; exact FirstHandlers.new (x := ⟨[p], h, u⟩) hnone
          · simp only [hsg]; exact LastUri.new tbl ⟨[p], h, u⟩
        · obtain ⟨h1, h2, h3⟩ := endsOk e he
          refine ⟨h1, h2.append _, h3.append ?_⟩
          intro y hy
          simp at hy; subst hy
          simp only [ne_eq, List.cons.injEq, and_true]
          exact fun h => hnew e he h.symm
      · intro x hx q hq
        rcases List.mem_append.1 hx with hx | hx
        · obtain ⟨e, he, hep⟩ := endsAll x hx q hq
          exact ⟨e, mem_insertOrd.2 (.inr he), hep⟩
        · simp at hx; subst hx; simp at hq; subst hq
          exact ⟨_, mem_insertOrd.2 (.inl rfl), hsg⟩

/-- registrations of two or more segments do not touch the end nodes -/
theorem ends_frame {rx : Regex} {tbl : List (Entry α)} {ends : List (EndNode α)} {x : Entry α}
    (hx : ∀ p, x.segs ≠ [p])
    (endsOrd : (ends.map (·.seg)).Pairwise (ChildLt IsEnd tbl))
    (endsOk : ∀ e ∈ ends, analyzePattern rx e.seg.pattern = .ok e.seg ∧
      FirstHandlers tbl [e.seg.pattern] e.handlers ∧ LastUri tbl [e.seg.pattern] e.uri)
    (endsAll : ∀ x ∈ tbl, ∀ p, x.segs = [p] → ∃ e ∈ ends, e.seg.pattern = p) :
    (ends.map (·.seg)).Pairwise (ChildLt IsEnd (tbl ++ [x])) ∧
    (∀ e ∈ ends, analyzePattern rx e.seg.pattern = .ok e.seg ∧
      FirstHandlers (tbl ++ [x]) [e.seg.pattern] e.handlers ∧
      LastUri (tbl ++ [x]) [e.seg.pattern] e.uri) ∧
    (∀ y ∈ tbl ++ [x], ∀ p, y.segs = [p] → ∃ e ∈ ends, e.seg.pattern = p) := by
  refine ⟨endsOrd.imp (fun h => h.append _), ?_, ?_⟩
  · intro e he
    obtain ⟨h1, h2, h3⟩ := endsOk e he
    exact ⟨h1, h2.append _, h3.append (by intro y hy; simp at hy; subst hy; exact hx _)⟩
  · intro y hy p hp
    rcases List.mem_append.1 hy with hy | hy
    · exact endsAll y hy p hp
    · simp at hy; subst hy; exact absurd hp (hx p)

theorem through_one {p : Str} {e : Entry α} : Through [p] e ↔ ∃ q rest, e.segs = p :: q :: rest := by
  simp [Through]

theorem below_new_other {p a : Str} {q : Str} {rest : List Str} {h : List α} {u : Str} (tbl : List (Entry α)) (hpa : a ≠ p) :
    below p (tbl ++ [⟨a :: q :: rest, h, u⟩]) = below p tbl := by
  rw [below_append]; simp [below, belowE, hpa]

theorem below_new_same {p : Str} {q : Str} {rest : List Str} {h : List α} {u : Str} (tbl : List (Entry α)) :
    below p (tbl ++ [⟨p :: q :: rest, h, u⟩]) = below p tbl ++ [⟨q :: rest, h, u⟩] := by
  rw [below_append]; simp [below, belowE]

theorem below_new_end {p a : Str} {h : List α} {u : Str} (tbl : List (Entry α)) :
    below p (tbl ++ [⟨[a], h, u⟩]) = below p tbl := by
  rw [below_append]; simp [below, belowE]

theorem below_eq_nil {p : Str} {tbl : List (Entry α)} (h : ∀ y ∈ tbl, ¬ Through [p] y) : below p tbl = [] := by
  cases hb : below p tbl with
  | nil => rfl
  | cons x xs =>
    exfalso
    have : x ∈ below p tbl := by rw [hb]; simp
    obtain ⟨hne, e, he, hs, _⟩ := mem_below.1 this
    cases hx : x.segs with
    | nil => exact hne hx
    | cons b r => exact h e he (through_one.2 ⟨b, r, by rw [hs, hx]⟩)

theorem ChildLt.ne_of_same {tbl : List (Entry α)} {P : Str → Entry α → Prop} {a : Seg} : ¬ ChildLt P tbl a a := by
  rintro (h | ⟨_, l1, x, l2, _, h1, h2, _⟩)
  · omega
  · exact h2 h1

/-- addSegs does not change the node's own segment -/
theorem addSegs_seg {rx : Regex} {h : List α} {u : Str} {segs : List Str} {n n' : Node α}
    (hok : addSegs rx h u segs n = .ok n') : n'.seg = n.seg := by
  rcases n with ⟨seg, subs, ends⟩
  match segs with
  | [] => simp [addSegs] at hok; rw [← hok]
  | [p] =>
    simp only [addSegs] at hok
    cases he : addEnd rx ends p h u with
    | error e => rw [he] at hok; simp [bind, Except.bind] at hok
    | ok v => rw [he] at hok; simp [bind, Except.bind, pure, Except.pure] at hok; rw [← hok]; rfl
  | p :: q :: rest =>
    simp only [addSegs] at hok
    split at hok
    · split at hok
      · simp [pure, Except.pure] at hok; rw [← hok]
      · rename_i sub _
        cases he : addSegs rx h u (q :: rest) sub with
        | error e => rw [he] at hok; simp [bind, Except.bind] at hok
        | ok v => rw [he] at hok; simp [bind, Except.bind, pure, Except.pure] at hok; rw [← hok]; rfl
    · cases ha : analyzePattern rx p with
      | error e => rw [ha] at hok; simp [bind, Except.bind] at hok
      | ok sg =>
        rw [ha] at hok
        simp only [bind, Except.bind] at hok
        cases he : addSegs rx h u (q :: rest) (.mk sg [] []) with
        | error e => rw [he] at hok; simp at hok
        | ok v => rw [he] at hok; simp [pure, Except.pure] at hok; rw [← hok]; rfl

/-- Adding a registration keeps the tree in the shape of the extended table. -/
theorem Built.addSegs {rx : Regex} {h : List α} {u : Str} {segs : List Str} (hne : segs ≠ [])
    {tbl : List (Entry α)} {n n' : Node α} (hb : Built rx tbl n) (hok : addSegs rx h u segs n = .ok n') :
    Built rx (tbl ++ [⟨segs, h, u⟩]) n' := by
  induction segs generalizing tbl n n' with
  | nil => exact absurd rfl hne
  | cons p rest ih =>
    cases hb with
    | @mk tbl seg subs ends endsOrd endsOk endsAll subsOrd subsOk subsAll subsBuilt =>
    cases rest with
    | nil =>
      simp only [Water.addSegs] at hok
      cases he : addEnd rx ends p h u with
      | error e => rw [he] at hok; simp [bind, Except.bind] at hok
      | ok ends' =>
        rw [he] at hok; simp [bind, Except.bind, pure, Except.pure] at hok
        subst hok
        obtain ⟨h1, h2, h3⟩ := addEnd_spec he endsOrd endsOk endsAll
        have hnt : ∀ q : Str, ¬ Through [q] (⟨[p], h, u⟩ : Entry α) := by
          intro q ht; obtain ⟨a, b, hab⟩ := through_one.1 ht; simp at hab
        refine .mk h1 h2 h3 (subsOrd.imp (fun h => h.append _)) ?_ ?_ ?_
        · intro s hs
          obtain ⟨ha, x, hx, ht⟩ := subsOk s hs
          exact ⟨ha, x, by simp [hx], ht⟩
        · intro x hx q ht
          rcases List.mem_append.1 hx with hx | hx
          · exact subsAll x hx q ht
          · simp at hx; subst hx; exact absurd ht (hnt q)
        · intro s hs
          rw [below_new_end]; exact subsBuilt s hs
    | cons q rest =>
      obtain ⟨e1, e2, e3⟩ := ends_frame (x := ⟨p :: q :: rest, h, u⟩) (by simp) endsOrd endsOk endsAll
      simp only [Water.addSegs] at hok
      cases hf : subs.findIdx? (fun n => n.seg.pattern == p) with
      | some i =>
        rw [hf] at hok
        rw [List.findIdx?_eq_some_iff_getElem] at hf
        obtain ⟨hi, hp, hlt⟩ := hf
        have hp : subs[i].seg.pattern = p := by simpa using hp
        simp only [List.getElem?_eq_getElem hi] at hok
        cases hr : Water.addSegs rx h u (q :: rest) subs[i] with
        | error e => rw [hr] at hok; simp [bind, Except.bind] at hok
        | ok sub' =>
          rw [hr] at hok; simp [bind, Except.bind, pure, Except.pure] at hok
          subst hok
          have hseg : sub'.seg = subs[i].seg := addSegs_seg hr
          have hmap : (subs.set i sub').map Node.seg = subs.map Node.seg := by
            rw [List.map_set, hseg]
            have : subs[i].seg = (subs.map Node.seg)[i]'(by simpa using hi) := by simp
            rw [this, List.set_getElem_self]
          have hmem : ∀ s ∈ subs.set i sub', s.seg ∈ subs.map Node.seg := by
            intro s hs; rw [← hmap]; exact List.mem_map_of_mem hs
          refine .mk e1 e2 e3 ?_ ?_ ?_ ?_
          · rw [hmap]; exact subsOrd.imp (fun h => h.append _)
          · intro s hs
            obtain ⟨s', hs', he⟩ := List.mem_map.1 (hmem s hs)
            obtain ⟨ha, x, hx, ht⟩ := subsOk s' hs'
            rw [← he]
            exact ⟨ha, x, by simp [hx], ht⟩
          · intro x hx a ht
            have : ∃ s ∈ subs, s.seg.pattern = a := by
              rcases List.mem_append.1 hx with hx | hx
              · exact subsAll x hx a ht
              · simp at hx; subst hx
                obtain ⟨b, c, hbc⟩ := through_one.1 ht
                simp at hbc
                exact ⟨subs[i], List.getElem_mem hi, by rw [hp, hbc.1]⟩
            obtain ⟨s, hs, hsa⟩ := this
            have : s.seg ∈ (subs.set i sub').map Node.seg := by rw [hmap]; exact List.mem_map_of_mem hs
            obtain ⟨s', hs', he⟩ := List.mem_map.1 this
            exact ⟨s', hs', by rw [he]; exact hsa⟩
          · intro s hs
            rw [List.mem_iff_getElem] at hs
            obtain ⟨j, hj, rfl⟩ := hs
            have hj' : j < subs.length := by simpa using hj
            rw [List.getElem_set]
            by_cases hij : i = j
            · subst hij
              rw [if_pos rfl]
              rw [hseg, hp, below_new_same]
              have := subsBuilt subs[i] (List.getElem_mem hi)
              rw [hp] at this
              exact ih (by simp) this hr
            · rw [if_neg hij]
              have hpj : p ≠ subs[j].seg.pattern := by
                intro hpj
                have hsg : subs[i].seg = subs[j].seg := by
                  have a1 := (subsOk subs[i] (List.getElem_mem hi)).1
                  have a2 := (subsOk subs[j] (List.getElem_mem hj')).1
                  rw [hp, hpj] at a1
                  rw [a1] at a2
                  injection a2
                rw [List.pairwise_iff_getElem] at subsOrd
                rcases Nat.lt_or_gt_of_ne hij with hl | hl
                · have := subsOrd i j (by simpa using hi) (by simpa using hj') hl
                  simp only [List.getElem_map, hsg] at this
                  exact ChildLt.ne_of_same this
                · have := subsOrd j i (by simpa using hj') (by simpa using hi) hl
                  simp only [List.getElem_map, hsg] at this
                  exact ChildLt.ne_of_same this
              rw [below_new_other _ hpj]
              exact subsBuilt subs[j] (List.getElem_mem hj')
      | none =>
        rw [hf] at hok
        have hnew := findIdx_pattern_none (f := fun n : Node α => n.seg.pattern) hf
        have hnone : ∀ y ∈ tbl, ¬ Through [p] y := by
          intro y hy ht
          obtain ⟨s, hs, hsp⟩ := subsAll y hy p ht
          exact hnew s hs hsp
        simp only [] at hok
        cases ha : analyzePattern rx p with
        | error e => rw [ha] at hok; simp [bind, Except.bind] at hok
        | ok sg =>
          rw [ha] at hok
          simp only [bind, Except.bind] at hok
          cases hr : Water.addSegs rx h u (q :: rest) (.mk sg [] []) with
          | error e => rw [hr] at hok; simp at hok
          | ok sub' =>
            rw [hr] at hok; simp [pure, Except.pure] at hok
            subst hok
            have hsg : sg.pattern = p := (analyze_spec ha).1
            have hseg : sub'.seg = sg := addSegs_seg hr
            refine .mk e1 e2 e3 ?_ ?_ ?_ ?_
            · apply pairwise_insertOrd (f := fun n : Node α => n.seg)
              · rintro a b (h | h)
                · omega
                · omega
              · exact subsOrd.imp (fun h => h.append _)
              · intro y hy hle
                rcases Nat.lt_or_eq_of_le hle with hl | he
                · exact .inl hl
                · refine .inr ⟨he, ?_⟩
                  obtain ⟨_, x, hx, ht⟩ := subsOk y hy
                  refine Before.new hx ht ?_ _
                  simp only [hseg, hsg]; exact hnone
              · intro y hy hl; exact .inl hl
            · intro s hs
              rcases mem_insertOrd.1 hs with rfl | hs
              · rw [hseg, hsg]
                exact ⟨ha, ⟨p :: q :: rest, h, u⟩, by simp, through_one.2 ⟨q, rest, rfl⟩⟩
              · obtain ⟨ha, x, hx, ht⟩ := subsOk s hs
                exact ⟨ha, x, by simp [hx], ht⟩
            · intro x hx a ht
              rcases List.mem_append.1 hx with hx | hx
              · obtain ⟨s, hs, hsa⟩ := subsAll x hx a ht
                exact ⟨s, mem_insertOrd.2 (.inr hs), hsa⟩
              · simp at hx; subst hx
                obtain ⟨b, c, hbc⟩ := through_one.1 ht
                simp at hbc
                exact ⟨sub', mem_insertOrd.2 (.inl rfl), by rw [hseg, hsg, hbc.1]⟩
            · intro s hs
              rcases mem_insertOrd.1 hs with rfl | hs
              · rw [hseg, hsg, below_new_same, below_eq_nil hnone]
                exact ih (by simp) (Built.empty rx sg) hr
              · have hps : p ≠ s.seg.pattern := fun he => hnew s hs he.symm
                rw [below_new_other _ hps]
                exact subsBuilt s hs

end Water
