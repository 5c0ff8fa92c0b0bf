import Verif.Lemmas.Climb
import Verif.Spec.Routes
/- Helper lemmas: `dumpRoute` visits what was made without children, in depth-first order. -/
namespace Water
open Spec
variable {α : Type}

/-- the childless things below `i`, depth first, with their lineages -/
def leaves (ms : List (Made α)) : Nat → Nat → List Nat → List (Nat × List Nat)
  | 0, _, _ => []
  | f + 1, i, l =>
    if kids ms i = [] then [(i, l)] else (kids ms i).flatMap (fun k => leaves ms f k (l ++ [k]))

/-- one leaf of `dumpRoute` -/
def dumpStep (heap : Heap α) (rs : RouteStore α) (e : Nat × List Nat) : Except Panic (RouteStore α) := do
  let re ← getRoute heap e.1
  rs.add re

theorem mem_kids {ms : List (Made α)} {i k : Nat} : k ∈ kids ms i ↔ ∃ c, ms[k]? = some c ∧ c.parent = some i := by
  unfold kids
  rw [List.mem_filter, List.mem_range]
  constructor
  · rintro ⟨h1, h2⟩
    rw [beq_iff_eq, Option.bind_eq_some_iff] at h2
    exact h2
  · rintro ⟨c, h1, h2⟩
    refine ⟨(List.getElem?_eq_some_iff.1 h1).1, ?_⟩
    rw [h1]; simp [h2]

theorem kids_sorted (ms : List (Made α)) (i : Nat) : (kids ms i).Pairwise (· < ·) :=
  List.Pairwise.filter _ List.pairwise_lt_range

theorem foldlM_append_ok {β γ : Type} (f : β → γ → Except Panic β) (a b : List γ) (x : β) :
    (a ++ b).foldlM f x = (do let y ← a.foldlM f x; b.foldlM f y) := by
  rw [List.foldlM_append]

theorem kid_lt {ops : List (Op α)} {heap : Heap α} (h : Reflects ops heap) {i k : Nat} (hk : k ∈ kids (made ops) i) :
    i < k ∧ k < heap.length := by
  obtain ⟨c, h1, h2⟩ := mem_kids.1 hk
  obtain ⟨n, h3, h4⟩ := nodeAt h h1
  exact ⟨(h4.parentOk i h2).1, (List.getElem?_eq_some_iff.1 h3).1⟩

theorem dump_eq {ops : List (Op α)} {heap : Heap α} (h : Reflects ops heap) (f : Nat) :
    (∀ r l rs, r < heap.length → heap.length ≤ r + f →
      dumpRoute heap f r rs = (leaves (made ops) f r l).foldlM (dumpStep heap) rs) ∧
    (∀ (ks : List Nat) (l : List Nat) (rs : RouteStore α), (∀ k ∈ ks, k < heap.length ∧ heap.length ≤ k + f) →
      ks.foldlM (fun rs v => dumpRoute heap f v rs) rs = (ks.flatMap (fun k => leaves (made ops) f k (l ++ [k]))).foldlM (dumpStep heap) rs) := by
  induction f with
  | zero =>
    refine ⟨fun r l rs h1 h2 => by omega, fun ks l rs hk => ?_⟩
    cases ks with
    | nil => rfl
    | cons k ks => have := hk k (by simp); omega
  | succ f ih =>
    have first : ∀ r l rs, r < heap.length → heap.length ≤ r + (f + 1) →
        dumpRoute heap (f + 1) r rs = (leaves (made ops) (f + 1) r l).foldlM (dumpStep heap) rs := by
      intro r l rs h1 h2
      have hn : heap[r]? = some heap[r] := by simp [h1]
      have hc : (made ops)[r]? = some ((made ops)[r]'(by rw [← h.1]; exact h1)) := by simp
      have ho := h.2 r _ _ hn hc
      unfold dumpRoute leaves
      rw [hn]
      simp only [ho.sub]
      by_cases hk : kids (made ops) r = []
      · rw [if_pos hk, if_pos (by simp [hk])]
        simp [dumpStep]
      · rw [if_neg hk, if_neg (by simpa using hk)]
        exact ih.2 _ l rs (fun k hk' => by
          have := kid_lt h hk'
          exact ⟨this.2, by omega⟩)
    refine ⟨first, ?_⟩
    intro ks l rs hks
    induction ks generalizing rs with
    | nil => rfl
    | cons k ks ihk =>
      rw [List.foldlM_cons, List.flatMap_cons, List.foldlM_append]
      have hk := hks k (by simp)
      rw [first k (l ++ [k]) rs hk.1 hk.2]
      congr 1
      funext rs'
      exact ihk rs' (fun x hx => hks x (by simp [hx]))

theorem lineage_split {ms : List (Made α)} {i : Nat} {l' : List Nat} (h : Lineage ms i l') :
    ∀ l r k rest, l' = l ++ k :: rest → l.getLast? = some r →
      ∃ c, ms[k]? = some c ∧ c.parent = some r := by
  induction h with
  | root h1 h2 =>
    intro l r k rest he hl
    cases l with
    | nil => cases hl
    | cons x xs => simp at he
  | @child i p c l0 h1 h2 h3 ih =>
    intro l r k rest he hl
    rcases List.eq_nil_or_concat rest with rfl | ⟨rest', x, rfl⟩
    · have h4 : l0 = l ∧ i = k := by
        have := List.append_inj' he (by simp)
        exact ⟨this.1, by simpa using this.2⟩
      obtain ⟨rfl, rfl⟩ := h4
      have := h3.last
      rw [hl] at this
      cases this
      exact ⟨c, h1, h2⟩
    · rw [List.concat_eq_append] at he
      have h4 : l0 = l ++ k :: rest' := by
        have : l0 ++ [i] = (l ++ k :: rest') ++ [x] := by rw [he]; simp
        exact (List.append_inj' this rfl).1
      exact ih l r k rest' h4 hl

theorem mem_leaves {ops : List (Op α)} {heap : Heap α} (h : Reflects ops heap) (f : Nat) {r : Nat} {l : List Nat}
    (hl : Lineage (made ops) r l) (hf : heap.length ≤ r + f) {i : Nat} {l' : List Nat} :
    (i, l') ∈ leaves (made ops) f r l ↔ Lineage (made ops) i l' ∧ l <+: l' ∧ kids (made ops) i = [] := by
  induction f generalizing r l with
  | zero => have := hl.lt; rw [← h.1] at this; omega
  | succ f ih =>
    unfold leaves
    by_cases hk : kids (made ops) r = []
    · rw [if_pos hk]
      simp only [List.mem_singleton, Prod.mk.injEq]
      constructor
      · rintro ⟨rfl, rfl⟩; exact ⟨hl, List.prefix_refl _, hk⟩
      · rintro ⟨h1, ⟨s, rfl⟩, h3⟩
        cases s with
        | nil =>
          have := h1.last
          rw [List.append_nil, hl.last] at this
          cases this
          simp
        | cons k s =>
          obtain ⟨c, h4, h5⟩ := lineage_split h1 l r k s rfl hl.last
          have : k ∈ kids (made ops) r := mem_kids.2 ⟨c, h4, h5⟩
          rw [hk] at this; cases this
    · rw [if_neg hk, List.mem_flatMap]
      constructor
      · rintro ⟨k, h1, h2⟩
        obtain ⟨c, h3, h4⟩ := mem_kids.1 h1
        obtain ⟨h5, h6, h7⟩ := (ih (.child h3 h4 hl) (by have := kid_lt h h1; omega)).1 h2
        exact ⟨h5, List.IsPrefix.trans (List.prefix_append _ _) h6, h7⟩
      · rintro ⟨h1, ⟨s, rfl⟩, h3⟩
        cases s with
        | nil =>
          have := h1.last
          rw [List.append_nil, hl.last] at this
          cases this
          exact absurd h3 hk
        | cons k s =>
          obtain ⟨c, h4, h5⟩ := lineage_split h1 l r k s rfl hl.last
          have hkr : k ∈ kids (made ops) r := mem_kids.2 ⟨c, h4, h5⟩
          refine ⟨k, hkr, (ih (.child h4 h5 hl) (by have := kid_lt h hkr; omega)).2 ⟨h1, ⟨s, by simp⟩, h3⟩⟩

theorem leaves_prefix {ms : List (Made α)} (f : Nat) {r : Nat} {l : List Nat} {e : Nat × List Nat}
    (h : e ∈ leaves ms f r l) : l <+: e.2 := by
  induction f generalizing r l with
  | zero => simp [leaves] at h
  | succ f ih =>
    unfold leaves at h
    split at h
    · simp at h; subst h; exact List.prefix_refl _
    · obtain ⟨k, _, h2⟩ := List.mem_flatMap.1 h
      exact List.IsPrefix.trans (List.prefix_append _ _) (ih h2)

theorem leaves_sorted (ms : List (Made α)) (f : Nat) (r : Nat) (l : List Nat) :
    (leaves ms f r l).Pairwise (fun a b => Precedes a.2 b.2) := by
  induction f generalizing r l with
  | zero => simp [leaves]
  | succ f ih =>
    unfold leaves
    split
    · simp
    · rw [List.pairwise_flatMap]
      refine ⟨fun k _ => ih k _, ?_⟩
      refine (kids_sorted ms r).imp ?_
      intro a b hab x hx y hy
      obtain ⟨s, h1⟩ := leaves_prefix f hx
      obtain ⟨t, h2⟩ := leaves_prefix f hy
      exact ⟨l, a, s, b, t, by rw [← h1]; simp, by rw [← h2]; simp, hab⟩

/-- what the route store knows -/
def StoreInv (rs : RouteStore α) : Prop :=
  ∀ m ∈ methodNames, ∃ byUri, rs.routeMap m = some byUri ∧
    ∀ u, (byUri u).isSome ↔ ∃ v ∈ rs.routeSlice, v.method = m ∧ v.uri = u

theorem storeInv_new : StoreInv (newRouteStore : RouteStore α) := by
  intro m hm
  exact ⟨Map.empty, by simp [newRouteStore, hm], by simp [newRouteStore, Map.empty]⟩

theorem add_spec {rs : RouteStore α} (h : StoreInv rs) {v : Route α} (hm : v.method ∈ methodNames) :
    ((∃ w ∈ rs.routeSlice, w.method = v.method ∧ w.uri = v.uri) ∧ rs.add v = .error .doubleUri) ∨
    ((¬ ∃ w ∈ rs.routeSlice, w.method = v.method ∧ w.uri = v.uri) ∧
      ∃ rs', rs.add v = .ok rs' ∧ StoreInv rs' ∧ rs'.routeSlice = rs.routeSlice ++ [v]) := by
  obtain ⟨byUri, h1, h2⟩ := h v.method hm
  have hne : v.method ≠ [] := by intro he; rw [he] at hm; exact absurd hm (by decide)
  by_cases hd : ∃ w ∈ rs.routeSlice, w.method = v.method ∧ w.uri = v.uri
  · left
    refine ⟨hd, ?_⟩
    unfold RouteStore.add
    rw [if_neg hne, h1]
    simp only [(h2 v.uri).2 hd, if_true]
  · right
    refine ⟨hd, ?_⟩
    unfold RouteStore.add
    rw [if_neg hne, h1]
    have : (byUri v.uri).isSome = false := by
      cases hx : (byUri v.uri).isSome with
      | false => rfl
      | true => exact absurd ((h2 _).1 hx) hd
    simp only [this, Bool.false_eq_true, if_false]
    refine ⟨_, rfl, ?_, rfl⟩
    intro m hm'
    by_cases hmv : m = v.method
    · subst hmv
      refine ⟨byUri.set v.uri v, by simp [Map.set], fun u => ?_⟩
      unfold Map.set
      by_cases hu : u = v.uri
      · subst hu; simp
      · simp only [hu, if_false, h2 u, List.mem_append, List.mem_singleton]
        constructor
        · rintro ⟨w, hw, h3⟩; exact ⟨w, .inl hw, h3⟩
        · rintro ⟨w, hw | rfl, h3⟩
          · exact ⟨w, hw, h3⟩
          · exact absurd h3.2.symm hu
    · obtain ⟨bu, h3, h4⟩ := h m hm'
      refine ⟨bu, by simp [Map.set, hmv, h3], fun u => ?_⟩
      rw [h4 u]
      constructor
      · rintro ⟨w, hw, h5⟩; exact ⟨w, by simp [hw], h5⟩
      · rintro ⟨w, hw, h5⟩
        rcases List.mem_append.1 hw with hw | hw
        · exact ⟨w, hw, h5⟩
        · simp at hw; subst hw; exact absurd h5.1.symm hmv

/-- the chain of `e` is usable -/
def GoodChain (ops : List (Op α)) (r : Nat) (e : Nat × List Nat) : Prop :=
  chainOf ops r e.1 e.2 ≠ [] ∧ ∀ x ∈ chainOf ops r e.1 e.2, (payload x).isSome

/-- the endpoints among `es` as routes -/
def routesOf (ops : List (Op α)) (r : Nat) (es : List (Nat × List Nat)) : List (Route α) :=
  (es.filter (fun e => methodOf ops e.1 ≠ [])).map (routeFor ops r)

theorem noDouble_snoc {rs : List (Route α)} {v : Route α} :
    NoDouble (rs ++ [v]) ↔ NoDouble rs ∧ ¬ ∃ w ∈ rs, w.method = v.method ∧ w.uri = v.uri := by
  unfold NoDouble
  rw [List.pairwise_append]
  simp

theorem dump_fold {ops : List (Op α)} {heap : Heap α} (h : Reflects ops heap) {r : Nat} {es : List (Nat × List Nat)}
    (hes : ∀ e ∈ es, Under ops r e.1 e.2) {rs : RouteStore α} (hinv : StoreInv rs) (hnd : NoDouble rs.routeSlice) :
    ((∀ e ∈ es, GoodChain ops r e) → NoDouble (rs.routeSlice ++ routesOf ops r es) →
      ∃ rs', es.foldlM (dumpStep heap) rs = .ok rs') ∧
    (∀ rs', es.foldlM (dumpStep heap) rs = .ok rs' → (∀ e ∈ es, GoodChain ops r e) ∧
      NoDouble (rs.routeSlice ++ routesOf ops r es) ∧ rs'.routeSlice = rs.routeSlice ++ routesOf ops r es) ∧
    (es.foldlM (dumpStep heap) rs = .error .doubleUri → ¬ NoDouble (rs.routeSlice ++ routesOf ops r es)) := by
  induction es generalizing rs with
  | nil =>
    refine ⟨fun _ _ => ⟨rs, rfl⟩, ?_, ?_⟩
    · intro rs' h1
      simp only [List.foldlM_nil, pure, Except.pure, Except.ok.injEq] at h1
      subst h1
      simpa [routesOf] using hnd
    · intro h1; cases h1
  | cons e es ih =>
    have hue := hes e (by simp)
    have hes' : ∀ e ∈ es, Under ops r e.1 e.2 := fun x hx => hes x (by simp [hx])
    have hg := getRoute_spec h hue
    have hbad : ¬ GoodChain ops r e → ∃ er, er ≠ Panic.doubleUri ∧ getRoute heap e.1 = .error er := by
      intro hb
      rw [hg]
      by_cases hall : ∀ x ∈ chainOf ops r e.1 e.2, (payload x).isSome
      · rw [if_pos hall]
        by_cases hnil : chainOf ops r e.1 e.2 = []
        · rw [if_pos hnil]; exact ⟨.emptyHandlers, by simp, rfl⟩
        · exact absurd ⟨hnil, hall⟩ hb
      · rw [if_neg hall]; exact ⟨.unsupported, by simp, rfl⟩
    by_cases hgood : GoodChain ops r e
    · have hok : getRoute heap e.1 = .ok (routeFor ops r e) := by
        rw [hg, if_pos hgood.2, if_neg hgood.1]
      by_cases hme : methodOf ops e.1 = []
      · -- an empty group: nothing is stored
        have hro : routesOf ops r (e :: es) = routesOf ops r es := by simp [routesOf, hme]
        have hst : dumpStep heap rs e = .ok rs := by
          unfold dumpStep
          rw [hok]
          simp only [bind, Except.bind]
          unfold RouteStore.add
          rw [if_pos (show (routeFor ops r e).method = [] from hme)]
        rw [List.foldlM_cons, hst, hro]
        simp only [bind, Except.bind, List.forall_mem_cons, hgood, true_and]
        exact ih hes' hinv hnd
      · have hro : routesOf ops r (e :: es) = routeFor ops r e :: routesOf ops r es := by simp [routesOf, hme]
        have hmn : (routeFor ops r e).method ∈ methodNames := by
          have hlt := hue.1.lt
          have hc : (made ops)[e.1]? = some (made ops)[e.1] := by simp [hlt]
          obtain ⟨n, _, ho⟩ := nodeAt h hc
          show methodOf ops e.1 ∈ methodNames
          rw [(getElem_handlersOf hc).1] at hme ⊢
          exact (ho.leaf hme).1
        have hst : dumpStep heap rs e = rs.add (routeFor ops r e) := by
          unfold dumpStep
          rw [hok]
          rfl
        rw [List.foldlM_cons, hst, hro]
        rcases add_spec hinv hmn with ⟨h1, h2⟩ | ⟨h1, rs1, h2, h3, h4⟩
        · have hnot : ¬ NoDouble (rs.routeSlice ++ routeFor ops r e :: routesOf ops r es) := by
            intro hnd'
            have : NoDouble (rs.routeSlice ++ [routeFor ops r e]) := by
              unfold NoDouble at hnd' ⊢
              refine List.Pairwise.sublist ?_ hnd'
              exact List.Sublist.append_left (by simp) _
            exact (noDouble_snoc.1 this).2 h1
          rw [h2]
          simp only [bind, Except.bind]
          refine ⟨fun _ hn => absurd hn hnot, ?_, fun _ => hnot⟩
          intro rs' h; cases h
        · rw [h2]
          simp only [bind, Except.bind, List.forall_mem_cons, hgood, true_and]
          have := ih (rs := rs1) hes' h3 (by rw [h4]; exact noDouble_snoc.2 ⟨hnd, h1⟩)
          rw [h4] at this
          simpa using this
    · obtain ⟨er, h1, h2⟩ := hbad hgood
      have hst : dumpStep heap rs e = .error er := by
        unfold dumpStep; rw [h2]; rfl
      rw [List.foldlM_cons, hst]
      simp only [bind, Except.bind]
      refine ⟨fun hall _ => absurd (hall e (by simp)) hgood, ?_, ?_⟩
      · intro rs' h; cases h
      · intro he; injection he with he; exact absurd he h1

theorem kids_nil {ops : List (Op α)} {i : Nat} : kids (made ops) i = [] ↔ Childless ops i := by
  unfold Childless
  constructor
  · intro h c hc hp
    obtain ⟨k, hk⟩ := List.getElem?_of_mem hc
    have : k ∈ kids (made ops) i := mem_kids.2 ⟨c, hk, hp⟩
    rw [h] at this; cases this
  · intro h
    cases hk : kids (made ops) i with
    | nil => rfl
    | cons k ks =>
      have : k ∈ kids (made ops) i := by rw [hk]; simp
      obtain ⟨c, h1, h2⟩ := mem_kids.1 this
      exact absurd h2 (h c (List.mem_of_getElem? h1))

/-- endpoints have nothing inside them -/
theorem endpoint_childless {ops : List (Op α)} {heap : Heap α} (h : Reflects ops heap) {r i : Nat} {l : List Nat}
    (he : Endpoint ops r i l) : Childless ops i := by
  obtain ⟨_, c, h1, h2⟩ := he
  rintro d hd hp
  obtain ⟨k, hk⟩ := List.getElem?_of_mem hd
  obtain ⟨n, _, ho⟩ := nodeAt h hk
  have := (ho.parentOk i hp).2
  rw [(getElem_handlersOf h1).1] at this
  exact h2 this

/-- the dump of a root: all endpoints below it, depth first -/
theorem dump_spec {ops : List (Op α)} {heap : Heap α} (h : Reflects ops heap) {r : Nat}
    (hr : ∃ c, (made ops)[r]? = some c ∧ c.parent = none) :
    ∃ es : List (Nat × List Nat),
      (∀ e, e ∈ es ↔ Under ops r e.1 e.2 ∧ Childless ops e.1) ∧
      es.Pairwise (fun a b => Precedes a.2 b.2) ∧
      (((∀ e ∈ es, GoodChain ops r e) → NoDouble (routesOf ops r es) →
        ∃ rs, dumpRoute heap heap.length r newRouteStore = .ok rs) ∧
      (∀ rs, dumpRoute heap heap.length r newRouteStore = .ok rs → (∀ e ∈ es, GoodChain ops r e) ∧
        NoDouble (routesOf ops r es) ∧ rs.routeSlice = routesOf ops r es) ∧
      (dumpRoute heap heap.length r newRouteStore = .error .doubleUri → ¬ NoDouble (routesOf ops r es))) := by
  obtain ⟨c, hc, hp⟩ := hr
  have hl : Lineage (made ops) r [r] := .root hc hp
  have hlt := hl.lt
  rw [← h.1] at hlt
  have hmem : ∀ e, e ∈ leaves (made ops) heap.length r [r] ↔ Under ops r e.1 e.2 ∧ Childless ops e.1 := by
    intro e
    rw [← kids_nil, mem_leaves h heap.length hl (by omega)]
    unfold Under
    constructor
    · rintro ⟨h1, ⟨s, h2⟩, h3⟩; exact ⟨⟨h1, by rw [← h2]; rfl⟩, h3⟩
    · rintro ⟨⟨h1, h2⟩, h3⟩
      refine ⟨h1, ?_, h3⟩
      cases hx : e.2 with
      | nil => rw [hx] at h2; cases h2
      | cons y ys => rw [hx] at h2; simp at h2; subst h2; exact ⟨ys, rfl⟩
  refine ⟨_, hmem, leaves_sorted _ _ _ _, ?_⟩
  rw [(dump_eq h heap.length).1 r [r] newRouteStore hlt (by omega)]
  have := dump_fold h (r := r) (es := leaves (made ops) heap.length r [r]) (fun e he => ((hmem e).1 he).1)
    (rs := newRouteStore) storeInv_new (by simp [NoDouble, newRouteStore])
  simpa [newRouteStore] using this

end Water
