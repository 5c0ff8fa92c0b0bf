import Verif.Lemmas.Erase
/- Helper lemmas: the static map. -/
namespace Water
open Spec
variable {α : Type}

theorem find_of_pairwise {β : Type} {f : β → Str} {l : List β} (h : l.Pairwise (fun a b => f a ≠ f b)) {x : β}
    (hx : x ∈ l) : l.find? (fun y => f y == f x) = some x := by
  induction l with
  | nil => cases hx
  | cons y ys ih =>
    rw [List.pairwise_cons] at h
    rw [List.find?_cons]
    rcases List.mem_cons.1 hx with rfl | hx
    · simp
    · have := h.1 x hx
      rw [show (f y == f x) = false by simpa using this]
      exact ih h.2 hx

theorem childLt_ne {rx : Regex} {P : Str → Entry α → Prop} {tbl : List (Entry α)} {a b : Seg}
    (ha : analyzePattern rx a.pattern = .ok a) (hb : analyzePattern rx b.pattern = .ok b)
    (h : ChildLt P tbl a b) : a.pattern ≠ b.pattern := by
  intro he
  have hab : a = b := by rw [he, hb] at ha; injection ha with ha; exact ha.symm
  subst hab
  rcases h with h | ⟨_, l1, x, l2, _, h1, h2, _⟩
  · omega
  · exact h2 h1

theorem Built.ends_ne {rx : Regex} {tbl : List (Entry α)} {seg : Seg} {subs : List (Node α)} {ends : List (EndNode α)}
    (hb : Built rx tbl (.mk seg subs ends)) : ends.Pairwise (fun a b => a.seg.pattern ≠ b.seg.pattern) := by
  cases hb with
  | mk endsOrd endsOk endsAll subsOrd subsOk subsAll subsBuilt =>
    rw [List.pairwise_map] at endsOrd
    exact endsOrd.imp_of_mem (fun ha hb h => childLt_ne (endsOk _ ha).1 (endsOk _ hb).1 h)

theorem Built.subs_ne {rx : Regex} {tbl : List (Entry α)} {seg : Seg} {subs : List (Node α)} {ends : List (EndNode α)}
    (hb : Built rx tbl (.mk seg subs ends)) : subs.Pairwise (fun a b => a.seg.pattern ≠ b.seg.pattern) := by
  cases hb with
  | mk endsOrd endsOk endsAll subsOrd subsOk subsAll subsBuilt =>
    rw [List.pairwise_map] at subsOrd
    exact subsOrd.imp_of_mem (fun ha hb h => childLt_ne (subsOk _ ha).1 (subsOk _ hb).1 h)

/-- the selected end node is the one reached by the selected segments -/
theorem sel_endAt {rx : Regex} {tbl : List (Entry α)} {n : Node α} (hb : Built rx tbl n) {ss r : List Str}
    {e : EndNode α} (h : sel rx n ss = some (r, e)) : endAt r n = some e := by
  induction ss generalizing tbl n r with
  | nil => cases n; simp [sel] at h
  | cons s rest ih =>
    have he := fun seg subs ends (h : n = .mk seg subs ends) => (h ▸ hb).ends_ne
    have hs := fun seg subs ends (h : n = .mk seg subs ends) => (h ▸ hb).subs_ne
    cases n with
    | mk seg subs ends =>
      have he := he _ _ _ rfl
      have hs := hs _ _ _ rfl
      cases rest with
      | nil =>
        simp only [sel, Option.map_eq_some_iff, Prod.mk.injEq] at h
        obtain ⟨e', hf, rfl, rfl⟩ := h
        exact find_of_pairwise (f := fun e : EndNode α => e.seg.pattern) he (List.mem_of_find?_eq_some hf)
      | cons t ss =>
        simp only [sel, Option.or_eq_some_iff] at h
        rcases h with h | ⟨_, h⟩
        · obtain ⟨as, m, bs, r0, rfl, hacc, hsel, rfl, hnot⟩ := selSubs_some h
          have hm : m ∈ as ++ m :: bs := by simp
          have hbm : Built rx (below m.seg.pattern tbl) m := by
            cases hb with
            | mk _ _ _ _ _ _ subsBuilt => exact subsBuilt m hm
          have h1 := ih hbm hsel
          have hr0 := (accepts_ne_nil (sel_spec hbm hsel).1).1
          cases r0 with
          | nil => exact absurd rfl hr0
          | cons q r0 =>
            simp only [endAt]
            rw [find_of_pairwise (f := fun e : Node α => e.seg.pattern) hs hm]
            exact h1
        · obtain ⟨as, rfl, rfl, ht⟩ := lastStar_some h
          exact find_of_pairwise (f := fun e : EndNode α => e.seg.pattern) he (by simp)

theorem static_literal {rx : Regex} {seg : Seg} {p : Str} (h : analyzePattern rx p = .ok seg) (ht : seg.typ = .static) :
    kind p = .literal := by
  obtain ⟨_, _, h3, _⟩ := analyze_spec h
  rw [← h3, ht]; rfl

theorem staticPath_literal {rx : Regex} {tbl : List (Entry α)} {n : Node α} (hb : Built rx tbl n) {segs : List Str}
    (h : staticPath segs n = true) : ∀ p ∈ segs, kind p = .literal := by
  match segs, n with
  | [], n => simp
  | [p], .mk seg subs ends =>
    simp only [staticPath, Bool.and_eq_true] at h
    intro q hq
    simp at hq; subst hq
    cases hf : ends.find? (fun e => e.seg.pattern == q) with
    | none => rw [hf] at h; simp at h
    | some e =>
      rw [hf] at h
      simp at h
      have hp := List.find?_some hf
      simp at hp
      cases hb with
      | mk _ endsOk _ _ _ _ _ =>
        have := (endsOk e (List.mem_of_find?_eq_some hf)).1
        rw [hp] at this
        exact static_literal this h.2
  | p :: q :: rest, .mk seg subs ends =>
    simp only [staticPath, Bool.and_eq_true] at h
    cases hf : subs.find? (fun e => e.seg.pattern == p) with
    | none => rw [hf] at h; simp at h
    | some n =>
      rw [hf] at h
      simp only [] at h
      have hp := List.find?_some hf
      simp at hp
      have hn := List.mem_of_find?_eq_some hf
      cases hb with
      | mk _ _ _ _ subsOk _ subsBuilt =>
        have hok := (subsOk n hn).1
        rw [hp] at hok
        have ih := staticPath_literal (subsBuilt n hn) h.2
        intro x hx
        rcases List.mem_cons.1 hx with rfl | hx
        · apply static_literal hok
          have h2 := h.2
          cases n with
          | mk sg sb en =>
            cases rest with
            | nil => simp only [staticPath, Bool.and_eq_true] at h2; simpa [Node.seg] using h2.1
            | cons a b => simp only [staticPath, Bool.and_eq_true] at h2; simpa [Node.seg] using h2.1
        · exact ih x hx

theorem mkEngine_methods {rx : Regex} {st : Bool} {nf : List α} {rs : List (Route α)} {e : Engine α}
    (h : mkEngine rx st nf rs = .ok e) : ∀ v ∈ rs, (methodIndex v.method).isSome := by
  unfold mkEngine at h
  cases hc : checkRoutes rs with
  | error er => rw [hc] at h; simp [bind, Except.bind] at h
  | ok rs' =>
    rw [hc] at h; simp only [bind, Except.bind] at h
    obtain ⟨rfl, hdead⟩ := checkRoutes_ok hc
    clear hdead
    generalize newEngine st nf = e0 at h
    clear hc
    induction rs generalizing e0 with
    | nil => simp
    | cons v vs ih =>
      simp only [List.map_cons, buildTree] at h
      cases hs : buildStep rx e0 { v with variant := variantUri v.uri } with
      | error er => rw [hs] at h; simp [bind, Except.bind] at h
      | ok e1 =>
        rw [hs] at h; simp only [bind, Except.bind] at h
        intro w hw
        rcases List.mem_cons.1 hw with rfl | hw
        · unfold buildStep at hs
          cases hm : methodIndex w.method with
          | none => simp only [hm] at hs; cases hs
          | some i => rfl
        · exact ih e1 h w hw

/-- the trees do not depend on the static option -/
theorem buildTree_trees {rx : Regex} {vs : List (Route α)} {e e' e1 : Engine α} (ht : e.trees = e'.trees)
    (h : buildTree rx e vs = .ok e1) : ∃ e1', buildTree rx e' vs = .ok e1' ∧ e1'.trees = e1.trees := by
  induction vs generalizing e e' with
  | nil => simp [buildTree] at h; subst h; exact ⟨e', rfl, ht.symm⟩
  | cons v vs ih =>
    unfold buildTree at h ⊢
    cases hs : buildStep rx e v with
    | error er => rw [hs] at h; simp [bind, Except.bind] at h
    | ok e2 =>
      rw [hs] at h
      simp only [bind, Except.bind] at h ⊢
      have : ∃ e2', buildStep rx e' v = .ok e2' ∧ e2.trees = e2'.trees := by
        unfold buildStep at hs ⊢
        cases hm : methodIndex v.method with
        | none => rw [hm] at hs; cases hs
        | some i =>
          rw [hm] at hs
          simp only [bind, Except.bind] at hs ⊢
          rw [← ht]
          cases ha : Node.add rx ((e.trees i).getD newTree) v.variant v.handlers v.uri with
          | error er => rw [ha] at hs; simp at hs
          | ok t' =>
            rw [ha] at hs
            simp only [pure, Except.pure] at hs ⊢
            have h1 : e2.trees = setAt e.trees i (some t') := by
              split at hs <;> (injection hs with hs; rw [← hs])
            split
            · exact ⟨_, rfl, h1⟩
            · exact ⟨_, rfl, h1⟩
      obtain ⟨e2', h2, h3⟩ := this
      rw [h2]
      exact ih h3 h

/-- what the static map holds -/
def StaticInv (rs : List (Route α)) (e : Engine α) : Prop :=
  ∀ m i, methodIndex m = some i → ∀ u segs, e.statics i u = some segs →
    ∃ v ∈ rs, v.method = m ∧ variantUri v.uri = u ∧ routeSegs v.uri = segs ∧ ∀ p ∈ segs, kind p = .literal

theorem staticInv_step {rx : Regex} {rs : List (Route α)} {e e' : Engine α} {v : Route α}
    (hv : v.variant = variantUri v.uri) (hh : v.uri.head? = some slash)
    (hinv : EngineInv rx rs e) (hs : StaticInv rs e) (h : buildStep rx e v = .ok e') : StaticInv (rs ++ [v]) e' := by
  have hinv' := buildStep_inv hv hh hinv h
  unfold buildStep at h
  cases hm : methodIndex v.method with
  | none => rw [hm] at h; cases h
  | some i =>
    rw [hm] at h
    simp only [bind, Except.bind] at h
    cases ha : Node.add rx ((e.trees i).getD newTree) v.variant v.handlers v.uri with
    | error er => rw [ha] at h; simp at h
    | ok t' =>
      rw [ha] at h
      simp only [pure, Except.pure] at h
      have hold : ∀ m j, methodIndex m = some j → ∀ u segs, e.statics j u = some segs →
          ∃ v' ∈ rs ++ [v], v'.method = m ∧ variantUri v'.uri = u ∧ routeSegs v'.uri = segs ∧
            ∀ p ∈ segs, kind p = .literal := by
        intro m j hj u segs hu
        obtain ⟨w, hw, h1⟩ := hs m j hj u segs hu
        exact ⟨w, by simp [hw], h1⟩
      split at h
      · rename_i hc
        injection h with h
        subst h
        simp only [Bool.and_eq_true] at hc
        intro m j hj u segs hu
        simp only [setAt] at hu
        by_cases hji : j = i
        · subst hji
          simp only [if_true, Map.set] at hu
          by_cases huv : u = v.variant
          · simp only [huv, if_true, Option.some.injEq] at hu
            subst hu
            have hmm := methodIndex_inj hj hm
            have ht := hinv' v.method j hm
            simp only [setAt, if_true] at ht
            have hseg : addSegments v.variant = routeSegs v.uri := by rw [hv]; exact addSegments_variantUri hh
            exact ⟨v, by simp, hmm.symm, by rw [huv, hv], hseg.symm, staticPath_literal ht.1 hc.2⟩
          · simp only [huv, if_false] at hu
            exact hold m j hj u segs hu
        · simp only [hji, if_false] at hu
          exact hold m j hj u segs hu
      · injection h with h
        subst h
        intro m j hj u segs hu
        exact hold m j hj u segs hu

theorem staticInv_tree {rx : Regex} {vs : List (Route α)} {rs : List (Route α)} {e e' : Engine α}
    (hv : ∀ v ∈ vs, v.variant = variantUri v.uri ∧ v.uri.head? = some slash)
    (hinv : EngineInv rx rs e) (hs : StaticInv rs e) (h : buildTree rx e vs = .ok e') : StaticInv (rs ++ vs) e' := by
  induction vs generalizing rs e with
  | nil => simp [buildTree] at h; rw [← h]; simpa using hs
  | cons v vs ih =>
    unfold buildTree at h
    cases hst : buildStep rx e v with
    | error er => rw [hst] at h; simp [bind, Except.bind] at h
    | ok e1 =>
      rw [hst] at h; simp only [bind, Except.bind] at h
      have hv1 := hv v (by simp)
      have := ih (rs := rs ++ [v]) (fun x hx => hv x (by simp [hx])) (buildStep_inv hv1.1 hv1.2 hinv hst)
        (staticInv_step hv1.1 hv1.2 hinv hs hst) h
      simpa using this

theorem mkEngine_static {rx : Regex} {st : Bool} {nf : List α} {rs : List (Route α)} {e : Engine α}
    (h : mkEngine rx st nf rs = .ok e) : StaticInv rs e := by
  unfold mkEngine at h
  cases hc : checkRoutes rs with
  | error er => rw [hc] at h; simp [bind, Except.bind] at h
  | ok rs' =>
    rw [hc] at h; simp only [bind, Except.bind] at h
    obtain ⟨h1, h2⟩ := checkRoutes_ok hc
    subst h1
    have := staticInv_tree (rs := []) (e := newEngine st nf) (rx := rx) (e' := e) ?_ ?_ ?_ h
    · intro m i hi u segs hu
      obtain ⟨v, hv, h3⟩ := this m i hi u segs hu
      simp only [List.nil_append, List.mem_map] at hv
      obtain ⟨w, hw, rfl⟩ := hv
      exact ⟨w, hw, h3⟩
    · intro v hv
      obtain ⟨w, hw, rfl⟩ := List.mem_map.1 hv
      exact ⟨rfl, head_of_check (h2 w hw)⟩
    · intro m i _; simp [newEngine, tableFor]
    · intro m i _ u segs hu; simp [newEngine, Map.empty] at hu

/-- a plain literal route is its own translation -/
theorem variantUri_literal {u : Str} (hu : Plain u) (hl : ∀ p ∈ routeSegs u, kind p = .literal) :
    variantUri u = u ∧ pathSegs u = routeSegs u := by
  have h1 := routeSegs_plain hu
  have h2 : ∀ s ∈ pathSegs u, ginSeg s = s := fun s hs =>
    ginSeg_literal (hl _ (by rw [h1]; exact List.mem_map_of_mem hs))
  have h3 : (pathSegs u).map ginSeg = pathSegs u := by
    conv => rhs; rw [← List.map_id (pathSegs u)]
    exact List.map_congr_left (fun s hs => h2 s hs)
  refine ⟨?_, by rw [h1, h3]⟩
  rcases plain_cases hu with rfl | ⟨t, rfl, h4, h5⟩
  · decide
  · apply splitB_injective (c := slash)
    rw [splitB_variantUri (by rfl), splitB_cons_slash, ← pathSegs_plain h4, List.map_cons, h3]
    simp [ginSeg]

/-- two engines built from the same routes with and without the static map dispatch alike on plain routes -/
theorem static_dispatch {rx : Regex} {nf : List α} {rs : List (Route α)} {e e0 : Engine α}
    (h : mkEngine rx true nf rs = .ok e) (h0 : mkEngine rx false nf rs = .ok e0) {m : Str}
    (hplain : ∀ v ∈ rs, v.method = m → Plain v.uri) (path : Str) : routeOf rx e m path = routeOf rx e0 m path := by
  have htrees : e.trees = e0.trees := by
    unfold mkEngine at h h0
    cases hc : checkRoutes rs with
    | error er => rw [hc] at h; simp [bind, Except.bind] at h
    | ok rs' =>
      rw [hc] at h h0
      simp only [bind, Except.bind] at h h0
      obtain ⟨e1', h1, h2⟩ := buildTree_trees (e := newEngine true nf) (e' := newEngine false nf) rfl h
      rw [h0] at h1; injection h1 with h1; subst h1; exact h2.symm
  obtain ⟨hinv, hst, _, _⟩ := mkEngine_inv h
  obtain ⟨_, hst0, _, _⟩ := mkEngine_inv h0
  unfold routeOf
  cases hi : methodIndex m with
  | none => rfl
  | some i =>
    simp only []
    unfold lookup
    rw [hst, hst0, htrees]
    simp only [if_true, Bool.false_eq_true, if_false]
    have hb := hinv m i hi
    rw [htrees] at hb
    cases ht : e0.trees i with
    | none =>
      simp only []
      cases e.statics i path <;> rfl
    | some t =>
      rw [ht] at hb
      simp only [] at hb ⊢
      cases hu : e.statics i path with
      | none => rfl
      | some segs =>
        simp only []
        cases hend : endAt segs t with
        | none => rfl
        | some n =>
          simp only []
          rw [matchUri_snd]
          obtain ⟨v, hv, hvm, hvu, hvs, hl⟩ := mkEngine_static h m i hi path segs hu
          obtain ⟨h1, h2⟩ := variantUri_literal (hplain v hv hvm) (by rw [hvs]; exact hl)
          have hpath : path = v.uri := by rw [← hvu, h1]
          subst hpath
          rw [h2, hvs]
          have hx : (⟨segs, v.handlers, v.uri⟩ : Entry α) ∈ tableFor m rs :=
            mem_tableFor.2 ⟨v, hv, hvm, by rw [hvs]⟩
          have hne : segs ≠ [] := by rw [← hvs]; exact routeSegs_ne_nil _
          cases hsel : sel rx t segs with
          | none => exact absurd (accepts_refl hne hl) (sel_complete hb.1 hsel _ hx)
          | some p =>
            obtain ⟨r, n'⟩ := p
            obtain ⟨h3, _, _, h6⟩ := sel_spec hb.1 hsel
            have hr := selected_literal h3 h6 hx rfl hl
            subst hr
            rw [sel_endAt hb.1 hsel] at hend
            simpa using hend.symm

end Water
