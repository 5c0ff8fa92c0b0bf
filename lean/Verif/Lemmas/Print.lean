import Verif.Lemmas.Dump
import Verif.Spec.Print
import Verif.Model.Print
/- Helper lemmas for the printed lists of routes. -/
namespace Water
open Spec
variable {α : Type}

/-! ### drawings -/

/-- made of bars and blanks -/
inductive Bars : Str → Prop where
  | nil : Bars []
  | trunk {s : Str} : Bars s → Bars (pTrunk ++ s)
  | emp {s : Str} : Bars s → Bars (pEmp ++ s)

theorem Bars.append {s t : Str} (hs : Bars s) (ht : Bars t) : Bars (s ++ t) := by
  induction hs with
  | nil => exact ht
  | trunk _ ih => rw [List.append_assoc]; exact .trunk ih
  | emp _ ih => rw [List.append_assoc]; exact .emp ih

theorem replace_trunk (f : Nat) (s : Str) : replaceAll pLeaf pEmp (f + 6) (pTrunk ++ s) = pTrunk ++ replaceAll pLeaf pEmp f s := by
  simp [pTrunk, replaceAll, pLeaf, hasPrefix]

theorem replace_emp (f : Nat) (s : Str) : replaceAll pLeaf pEmp (f + 4) (pEmp ++ s) = pEmp ++ replaceAll pLeaf pEmp f s := by
  simp [pEmp, replaceAll, pLeaf, hasPrefix]

theorem replace_leaf (f : Nat) (s : Str) : replaceAll pLeaf pEmp (f + 1) (pLeaf ++ s) = pEmp ++ replaceAll pLeaf pEmp f s := by
  simp [pEmp, replaceAll, pLeaf, hasPrefix]

theorem replace_bars {s : Str} (hs : Bars s) (f : Nat) (t : Str) :
    replaceAll pLeaf pEmp (f + s.length) (s ++ t) = s ++ replaceAll pLeaf pEmp f t := by
  induction hs with
  | nil => rfl
  | @trunk s _ ih =>
    rw [List.append_assoc, show f + (pTrunk ++ s).length = (f + s.length) + 6 by simp [pTrunk]; omega, replace_trunk, ih, List.append_assoc]
  | @emp s _ ih =>
    rw [List.append_assoc, show f + (pEmp ++ s).length = (f + s.length) + 4 by simp [pEmp]; omega, replace_emp, ih, List.append_assoc]

theorem replace_nil (f : Nat) : replaceAll pLeaf pEmp f [] = [] := by cases f <;> rfl

theorem indent_leaf {s : Str} (hs : Bars s) : indent (s ++ pLeaf) = s ++ pEmp := by
  unfold indent
  rw [if_pos (by simp [pLeaf]), List.length_append, Nat.add_comm, replace_bars hs]
  rfl

theorem indent_trunk {s : Str} (hs : Bars s) : indent (s ++ pTrunk) = s ++ pTrunk := by
  unfold indent
  rw [if_pos (by simp [pTrunk]), List.length_append, Nat.add_comm, replace_bars hs]
  rfl

/-! ### the tree of routers -/

/-- everything below `i` in reading order, with lineages -/
def preorder (ms : List (Made α)) : Nat → Nat → List Nat → List (Nat × List Nat)
  | 0, _, _ => []
  | f + 1, i, l => (kids ms i).flatMap (fun k => (k, l ++ [k]) :: preorder ms f k (l ++ [k]))

theorem mem_preorder {ops : List (Op α)} {heap : Heap α} (h : Reflects ops heap) (f : Nat) {r : Nat} {l : List Nat}
    (hl : Lineage (made ops) r l) (hf : heap.length ≤ r + f) {i : Nat} {l' : List Nat} :
    (i, l') ∈ preorder (made ops) f r l ↔ Lineage (made ops) i l' ∧ ∃ s, s ≠ [] ∧ l' = l ++ s := by
  induction f generalizing r l with
  | zero => have := hl.lt; rw [← h.1] at this; omega
  | succ f ih =>
    unfold preorder
    rw [List.mem_flatMap]
    constructor
    · rintro ⟨k, h1, h2⟩
      obtain ⟨c, h3, h4⟩ := mem_kids.1 h1
      have hlk : Lineage (made ops) k (l ++ [k]) := .child h3 h4 hl
      rcases List.mem_cons.1 h2 with h2 | h2
      · simp only [Prod.mk.injEq] at h2
        obtain ⟨rfl, rfl⟩ := h2
        exact ⟨hlk, [i], by simp, rfl⟩
      · obtain ⟨h5, s, h6, h7⟩ := (ih hlk (by have := kid_lt h h1; omega)).1 h2
        exact ⟨h5, k :: s, by simp, by simp [h7]⟩
    · rintro ⟨h1, s, hs, rfl⟩
      cases s with
      | nil => exact absurd rfl hs
      | cons k s =>
        obtain ⟨c, h4, h5⟩ := lineage_split h1 l r k s rfl hl.last
        have hkr : k ∈ kids (made ops) r := mem_kids.2 ⟨c, h4, h5⟩
        have hlk : Lineage (made ops) k (l ++ [k]) := .child h4 h5 hl
        refine ⟨k, hkr, ?_⟩
        rw [List.mem_cons]
        cases s with
        | nil =>
          have := h1.last
          simp at this
          left; simp [this]
        | cons k' s =>
          right
          exact (ih hlk (by have := kid_lt h hkr; omega)).2 ⟨h1, k' :: s, by simp, by simp⟩

theorem preorder_below {ms : List (Made α)} (f : Nat) {r : Nat} {l : List Nat} {e : Nat × List Nat}
    (h : e ∈ preorder ms f r l) : ∃ k s, k ∈ kids ms r ∧ e.2 = l ++ k :: s := by
  induction f generalizing r l with
  | zero => simp [preorder] at h
  | succ f ih =>
    unfold preorder at h
    obtain ⟨k, hk, h2⟩ := List.mem_flatMap.1 h
    rcases List.mem_cons.1 h2 with rfl | h2
    · exact ⟨k, [], hk, rfl⟩
    · obtain ⟨k', s, _, h3⟩ := ih h2
      exact ⟨k, k' :: s, hk, by simp [h3]⟩

theorem preorder_sorted (ms : List (Made α)) (f : Nat) (r : Nat) (l : List Nat) :
    (preorder ms f r l).Pairwise (fun a b => ReadBefore a.2 b.2) := by
  induction f generalizing r l with
  | zero => simp [preorder]
  | succ f ih =>
    unfold preorder
    rw [List.pairwise_flatMap]
    have hpre : ∀ k x, x ∈ (k, l ++ [k]) :: preorder ms f k (l ++ [k]) → ∃ s, x.2 = l ++ k :: s := by
      intro k x hx
      rcases List.mem_cons.1 hx with rfl | hx
      · exact ⟨[], rfl⟩
      · obtain ⟨k', s, _, h⟩ := preorder_below f hx
        exact ⟨k' :: s, by simp [h]⟩
    refine ⟨?_, ?_⟩
    · intro k _
      rw [List.pairwise_cons]
      refine ⟨?_, ih k _⟩
      intro x hx
      obtain ⟨k', s, _, h⟩ := preorder_below f hx
      exact Or.inl ⟨k' :: s, by simp, h⟩
    · refine (kids_sorted ms r).imp ?_
      intro a b hab x hx y hy
      obtain ⟨s, h1⟩ := hpre a x hx
      obtain ⟨t, h2⟩ := hpre b y hy
      exact Or.inr ⟨l, a, s, b, t, h1, h2, hab⟩

theorem countHandlers_spec {ops : List (Op α)} {heap : Heap α} (h : Reflects ops heap) {i : Nat} {l : List Nat}
    (hl : Lineage (made ops) i l) (fuel : Nat) (hf : l.length ≤ fuel) :
    countHandlers heap fuel i = innerCount ops (i, l) := by
  unfold innerCount
  simp only [List.length_append]
  induction hl generalizing fuel with
  | @root i c h1 h2 =>
    obtain ⟨n, hn, ho⟩ := nodeAt h h1
    obtain ⟨e1, e2, e3⟩ := getElem_handlersOf h1
    cases fuel with
    | zero => simp at hf
    | succ fuel =>
      unfold countHandlers
      simp only [hn, ho.parent, h2, ho.befores, ho.handlers, e3]
      simp
  | @child i p c l h1 h2 h3 ih =>
    obtain ⟨n, hn, ho⟩ := nodeAt h h1
    obtain ⟨e1, e2, e3⟩ := getElem_handlersOf h1
    cases fuel with
    | zero => simp at hf
    | succ fuel =>
      unfold countHandlers
      simp only [hn, ho.parent, h2, ho.befores, ho.handlers, e3]
      rw [ih fuel (by simp at hf; omega)]
      obtain ⟨p1, p2⟩ := ho.parentOk p h2
      have hpl := h3.lt
      have hp : (made ops)[p]? = some (made ops)[p] := by simp [hpl]
      obtain ⟨q, hq, hqo⟩ := nodeAt h hp
      obtain ⟨f1, f2, f3⟩ := getElem_handlersOf hp
      have : handlersOf ops p = [] := by rw [f3]; exact hqo.group (by rw [← f1, p2])
      rw [this]
      simp only [List.flatMap_append, List.flatMap_cons, List.flatMap_nil, List.append_nil, List.length_append, List.length_nil]
      omega

/-- what follows the drawing -/
def label (ops : List (Op α)) (e : Nat × List Nat) : Str :=
  b!" " ++ patternOf ops e.1 ++
    (if methodOf ops e.1 = [] then [] else b!" [" ++ method7 (methodOf ops e.1) ++ b!" : " ++ itoaNat (innerCount ops e) ++ b!"]")

theorem rawRoute_spec {ops : List (Op α)} {heap : Heap α} (h : Reflects ops heap) {i : Nat} {l : List Nat}
    (hl : Lineage (made ops) i l) (pre : Str) : rawRoute heap pre i = pre ++ label ops (i, l) := by
  have hc : (made ops)[i]? = some ((made ops)[i]'hl.lt) := by simp
  obtain ⟨n, hn, ho⟩ := nodeAt h hc
  obtain ⟨e1, e2, e3⟩ := getElem_handlersOf hc
  unfold rawRoute label
  rw [hn]
  simp only [ho.method, ho.pattern, e1, e2, countHandlers_spec h hl _ (lineage_length h hl)]
  split <;> simp [method7, padRight]

theorem subOf_spec {ops : List (Op α)} {heap : Heap α} (h : Reflects ops heap) {i : Nat} (hi : i < (made ops).length) :
    subOf heap i = kids (made ops) i := by
  have hc : (made ops)[i]? = some (made ops)[i] := by simp [hi]
  obtain ⟨n, hn, ho⟩ := nodeAt h hc
  unfold subOf
  rw [hn]
  simp [ho.sub]

/-- the youngest sibling is the last in `kids` -/
theorem youngest_iff {ops : List (Op α)} {i k : Nat} (hk : k ∈ kids (made ops) i) :
    youngest ops k = true ↔ ∀ j ∈ kids (made ops) i, j ≤ k := by
  obtain ⟨c, h1, h2⟩ := mem_kids.1 hk
  unfold youngest
  rw [h1, List.all_eq_true]
  simp only [Option.bind_some, h2, bne_iff_ne, ne_eq]
  constructor
  · intro h j hj
    obtain ⟨d, h3, h4⟩ := mem_kids.1 hj
    by_cases hjk : j ≤ k
    · exact hjk
    · refine absurd h4 (h d ?_)
      apply List.mem_of_getElem? (i := j - (k + 1))
      rw [List.getElem?_drop, show k + 1 + (j - (k + 1)) = j by omega]
      exact h3
  · intro h d hd hp
    obtain ⟨x, hx⟩ := List.getElem?_of_mem hd
    rw [List.getElem?_drop] at hx
    have := h _ (mem_kids.2 ⟨d, hx, hp⟩)
    omega

theorem drawing_cons (ops : List (Op α)) (k : Nat) {s : List Nat} (hs : s ≠ []) :
    drawing ops (k :: s) = (if youngest ops k then pEmp else pTrunk) ++ drawing ops s := by
  cases s with
  | nil => exact absurd rfl hs
  | cons j s => rfl

theorem rawRouter_spec {ops : List (Op α)} {heap : Heap α} (h : Reflects ops heap) (f : Nat) {r : Nat} {l : List Nat}
    (hl : Lineage (made ops) r l) (hf : heap.length ≤ r + f) {pre D : Str} (hp : indent pre = D) (hD : Bars D) :
    rawRouter heap f (kids (made ops) r) pre =
      (preorder (made ops) f r l).map (fun e => D ++ drawing ops (e.2.drop l.length) ++ label ops e) := by
  induction f generalizing r l pre D with
  | zero => have := hl.lt; rw [← h.1] at this; omega
  | succ f ih =>
    unfold rawRouter preorder
    rw [hp]
    have key : ∀ ks done, kids (made ops) r = done ++ ks →
        rawLoop heap (rawRouter heap f) D ks =
          (ks.flatMap (fun k => (k, l ++ [k]) :: preorder (made ops) f k (l ++ [k]))).map
            (fun e => D ++ drawing ops (e.2.drop l.length) ++ label ops e) := by
      intro ks
      induction ks with
      | nil => intro done _; rfl
      | cons k ks ihk =>
        intro done hdone
        have hk : k ∈ kids (made ops) r := by rw [hdone]; simp
        obtain ⟨c, h3, h4⟩ := mem_kids.1 hk
        have hlk : Lineage (made ops) k (l ++ [k]) := .child h3 h4 hl
        have hlt := kid_lt h hk
        have hsub : subOf heap k = kids (made ops) k := subOf_spec h (by rw [← h.1]; exact hlt.2)
        have hy : youngest ops k = ks.isEmpty := by
          have hs := kids_sorted (made ops) r
          rw [hdone, List.pairwise_append, List.pairwise_cons] at hs
          rw [Bool.eq_iff_iff, youngest_iff hk, hdone]
          constructor
          · intro hall
            cases ks with
            | nil => rfl
            | cons k' ks =>
              have h5 := hall k' (by simp)
              have h6 := hs.2.1.1 k' (by simp)
              omega
          · intro he
            have : ks = [] := by simpa using he
            subst this
            intro j hj
            rcases List.mem_append.1 hj with hj | hj
            · have := hs.2.2 j hj k (by simp); omega
            · simp at hj; omega
        have hwalk : ∀ q Q, indent q = Q → Bars Q → Q = D ++ (if youngest ops k then pEmp else pTrunk) →
            (if (subOf heap k).length > 0 then rawRouter heap f (subOf heap k) q else []) =
              (preorder (made ops) f k (l ++ [k])).map (fun e => D ++ drawing ops (e.2.drop l.length) ++ label ops e) := by
          intro q Q hq hQ hQD
          have h5 := ih hlk (by omega) hq hQ
          have h6 : (if (subOf heap k).length > 0 then rawRouter heap f (subOf heap k) q else []) =
              rawRouter heap f (kids (made ops) k) q := by
            rw [hsub]
            split
            · rfl
            · rename_i hz
              have : kids (made ops) k = [] := by
                cases hx : kids (made ops) k with
                | nil => rfl
                | cons a b => rw [hx] at hz; simp at hz
              rw [this]
              cases f <;> rfl
          rw [h6, h5]
          apply List.map_congr_left
          intro e he
          obtain ⟨k', s, _, h7⟩ := preorder_below f he
          have h8 : e.2.drop l.length = k :: k' :: s := by rw [h7]; simp
          have h9 : e.2.drop (l ++ [k]).length = k' :: s := by rw [h7]; simp
          rw [h8, h9, drawing_cons ops k (by simp), hQD]
          simp
        have hself : D ++ drawing ops ((k, l ++ [k]).2.drop l.length) ++ label ops (k, l ++ [k]) =
            rawRoute heap (D ++ (if youngest ops k then pLeaf else pBranch)) k := by
          rw [rawRoute_spec h hlk]
          simp only [List.drop_left]
          rfl
        rw [List.flatMap_cons, List.map_append, List.map_cons, hself]
        cases ks with
        | nil =>
          rw [show youngest ops k = true by rw [hy]; rfl] at hwalk ⊢
          simp only [if_true] at hwalk ⊢
          unfold rawLoop
          rw [hwalk (D ++ pLeaf) (D ++ pEmp) (indent_leaf hD) (hD.append (.emp .nil)) rfl]
          simp
        | cons k' ks =>
          rw [show youngest ops k = false by rw [hy]; rfl] at hwalk ⊢
          simp only [Bool.false_eq_true, if_false] at hwalk ⊢
          unfold rawLoop
          rw [hwalk (D ++ pTrunk) (D ++ pTrunk) (indent_trunk hD) (hD.append (.trunk .nil)) rfl]
          rw [ihk (done ++ [k]) (by rw [hdone]; simp)]
    exact key _ [] rfl

/-! ### the map of routes -/

/-- the maps hold the routes of the slice -/
def StoreMap (rs : RouteStore α) : Prop :=
  ∀ m ∈ methodNames, ∃ byUri, rs.routeMap m = some byUri ∧
    ∀ u v, byUri u = some v ↔ v ∈ rs.routeSlice ∧ v.method = m ∧ v.uri = u

theorem storeMap_new : StoreMap (newRouteStore : RouteStore α) := by
  intro m hm
  exact ⟨Map.empty, by simp [newRouteStore, hm], by simp [newRouteStore, Map.empty]⟩

theorem storeMap_add {rs rs' : RouteStore α} (h : StoreMap rs) {v : Route α} (hv : rs.add v = .ok rs') : StoreMap rs' := by
  unfold RouteStore.add at hv
  by_cases hm0 : v.method = []
  · rw [if_pos hm0] at hv; cases hv; exact h
  · rw [if_neg hm0] at hv
    cases hb : rs.routeMap v.method with
    | none => rw [hb] at hv; cases hv
    | some byUri =>
      rw [hb] at hv
      simp only at hv
      by_cases hd : (byUri v.uri).isSome
      · rw [if_pos hd] at hv; cases hv
      · rw [if_neg hd] at hv
        cases hv
        intro m hm
        by_cases hmv : m = v.method
        · subst hmv
          obtain ⟨b', h1, h2⟩ := h _ hm
          rw [hb] at h1; cases h1
          refine ⟨byUri.set v.uri v, by simp [Map.set], ?_⟩
          intro u w
          simp only [Map.set, List.mem_append, List.mem_singleton]
          by_cases hu : u = v.uri
          · subst hu
            rw [if_pos rfl]
            constructor
            · intro hx; cases hx; exact ⟨.inr rfl, rfl, rfl⟩
            · rintro ⟨hx | rfl, hy, hz⟩
              · rw [(h2 v.uri w).2 ⟨hx, hy, hz⟩] at hd; simp at hd
              · rfl
          · rw [if_neg hu, h2]
            constructor
            · rintro ⟨hx, hy⟩; exact ⟨.inl hx, hy⟩
            · rintro ⟨hx | rfl, hy, hz⟩
              · exact ⟨hx, hy, hz⟩
              · exact absurd hz.symm hu
        · obtain ⟨b', h1, h2⟩ := h _ hm
          refine ⟨b', by simp [Map.set, hmv, h1], ?_⟩
          intro u w
          rw [h2, List.mem_append, List.mem_singleton]
          constructor
          · rintro ⟨hx, hy⟩; exact ⟨.inl hx, hy⟩
          · rintro ⟨hx | rfl, hy, hz⟩
            · exact ⟨hx, hy, hz⟩
            · exact absurd hy.symm hmv

theorem foldlM_storeMap {β : Type} {g : RouteStore α → β → Except Panic (RouteStore α)}
    (hg : ∀ rs rs' b, StoreMap rs → g rs b = .ok rs' → StoreMap rs') (bs : List β) {rs rs' : RouteStore α} (h : StoreMap rs)
    (hf : bs.foldlM g rs = .ok rs') : StoreMap rs' := by
  induction bs generalizing rs with
  | nil => simp only [List.foldlM_nil, pure, Except.pure, Except.ok.injEq] at hf; subst hf; exact h
  | cons b bs ih =>
    rw [List.foldlM_cons] at hf
    cases hb : g rs b with
    | error e => rw [hb] at hf; cases hf
    | ok rs1 =>
      rw [hb] at hf
      exact ih (hg rs rs1 b h hb) hf

theorem storeMap_dump (heap : Heap α) (f : Nat) {r : Nat} {rs rs' : RouteStore α} (h : StoreMap rs)
    (hd : dumpRoute heap f r rs = .ok rs') : StoreMap rs' := by
  induction f generalizing r rs rs' with
  | zero => cases hd
  | succ f ih =>
    unfold dumpRoute at hd
    cases hn : heap[r]? with
    | none => rw [hn] at hd; cases hd
    | some n =>
      rw [hn] at hd
      simp only at hd
      split at hd
      · cases hg : getRoute heap r with
        | error e => rw [hg] at hd; cases hd
        | ok re => rw [hg] at hd; exact storeMap_add h hd
      · exact foldlM_storeMap (fun a b c ha hb => ih ha hb) _ h hd

/-! ### sorting -/

theorem insertStr_perm (s : Str) (l : List Str) : (insertStr s l).Perm (s :: l) := by
  induction l with
  | nil => exact List.Perm.refl _
  | cons t ts ih =>
    unfold insertStr
    split
    · exact List.Perm.refl _
    · exact (List.Perm.cons t ih).trans (List.Perm.swap s t ts)

theorem sortStrings_perm (l : List Str) : (sortStrings l).Perm l := by
  induction l with
  | nil => exact List.Perm.refl _
  | cons s l ih => exact (insertStr_perm s _).trans (ih.cons s)

theorem insertStr_sorted (s : Str) {l : List Str} (h : l.Pairwise (· ≤ ·)) : (insertStr s l).Pairwise (· ≤ ·) := by
  induction l with
  | nil => simp [insertStr]
  | cons t ts ih =>
    rw [List.pairwise_cons] at h
    unfold insertStr
    split
    · rename_i hle
      rw [List.pairwise_cons, List.pairwise_cons]
      refine ⟨?_, h⟩
      intro x hx
      rcases List.mem_cons.1 hx with rfl | hx
      · exact hle
      · exact List.le_trans hle (h.1 x hx)
    · rename_i hle
      rw [List.pairwise_cons]
      refine ⟨?_, ih h.2⟩
      intro x hx
      rcases List.mem_cons.1 ((insertStr_perm s ts).mem_iff.1 hx) with rfl | hx
      · exact (List.le_total _ _).resolve_left hle
      · exact h.1 x hx

theorem sortStrings_sorted (l : List Str) : (sortStrings l).Pairwise (· ≤ ·) := by
  induction l with
  | nil => simp [sortStrings]
  | cons s l ih => exact insertStr_sorted s ih

end Water
