import Verif.Props.Routing
/-
Properties C13 (the static-route option) and C14 (FullPath).
-/
namespace Water
open Spec Demo
variable {α : Type}

/-! ## C13 -/

/-- C13, construction: the option decides nothing about whether the engine can be built. -/
theorem C13_same_construction {rx : Regex} {nf : List α} {rs : List (Route α)} :
    (∃ e, mkEngine rx true nf rs = .ok e) ↔ ∃ e, mkEngine rx false nf rs = .ok e := by
  have key : ∀ a b : Bool, (∃ e, mkEngine rx a nf rs = .ok e) → ∃ e, mkEngine rx b nf rs = .ok e := by
    rintro a b ⟨e, h⟩
    unfold mkEngine at h ⊢
    cases hc : checkRoutes rs with
    | error er => rw [hc] at h; simp [bind, Except.bind] at h
    | ok rs' =>
      rw [hc] at h
      simp only [bind, Except.bind] at h ⊢
      obtain ⟨e1', h1, _⟩ := buildTree_trees (e := newEngine a nf) (e' := newEngine b nf) rfl h
      exact ⟨e1', h1⟩
  exact ⟨key true false, key false true⟩

/-- C13 (partial): with the static option on, every request is dispatched to the same end node (same handlers,
same FullPath) as without it, provided the paths registered for the method have no empty inner segment.
Missing: `C13_refuted`; and the Params of a static hit are those of an earlier request, see `C13_params`. -/
theorem C13_static_transparent_partial {rx : Regex} {nf : List α} {rs : List (Route α)} {e e0 : Engine α}
    (h : mkEngine rx true nf rs = .ok e) (h0 : mkEngine rx false nf rs = .ok e0) {m : Str}
    (hplain : ∀ v ∈ rs, v.method = m → Plain v.uri) (path : Str) :
    routeOf rx e m path = routeOf rx e0 m path :=
  static_dispatch h h0 hplain path

/-- what a request finds with the option on is what it finds without, or it is a hit in the static map -/
theorem static_lookup {rx : Regex} {nf : List α} {rs : List (Route α)} {e e0 : Engine α}
    (h : mkEngine rx true nf rs = .ok e) (h0 : mkEngine rx false nf rs = .ok e0) {m path : Str} {i : Nat} (hi : methodIndex m = some i) :
    lookup rx e i path = lookup rx e0 i path ∨
      ((lookup rx e i path).2 = none ∧ ∃ v ∈ rs, v.method = m ∧ path = variantUri v.uri ∧
        ∀ p ∈ routeSegs v.uri, kind p = .literal) := by
  have htrees : e.trees = e0.trees := by
    unfold mkEngine at h h0
    cases hc : checkRoutes rs with
    | error er => rw [hc] at h; simp [bind, Except.bind] at h
    | ok rs' =>
      rw [hc] at h h0
      simp only [bind, Except.bind] at h h0
      obtain ⟨e1', h1, h2⟩ := buildTree_trees (e := newEngine true nf) (e' := newEngine false nf) rfl h
      rw [h0] at h1; injection h1 with h1; subst h1; exact h2.symm
  have hst := (mkEngine_inv h).2.1
  have hst0 := (mkEngine_inv h0).2.1
  unfold lookup
  rw [hst, hst0, htrees]
  simp only [if_true, Bool.false_eq_true, if_false]
  cases ht : e0.trees i with
  | none => left; cases e.statics i path <;> rfl
  | some t =>
    cases hu : e.statics i path with
    | none => exact .inl rfl
    | some segs =>
      simp only []
      cases hend : endAt segs t with
      | none => exact .inl rfl
      | some n =>
        right
        obtain ⟨v, hv, hvm, hvu, hvs, hl⟩ := mkEngine_static h m i hi path segs hu
        exact ⟨rfl, v, hv, hvm, hvu.symm, by rw [hvs]; exact hl⟩

/-- C13, the other half of what a handler sees: either the request sets the same Params as without the option,
or it does not set Params at all (a static hit), in which case the route without the option is literal. -/
theorem C13_params {rx : Regex} {nf : List α} {rs : List (Route α)} {e e0 : Engine α}
    (h : mkEngine rx true nf rs = .ok e) (h0 : mkEngine rx false nf rs = .ok e0) {m path : Str} :
    paramsOf rx e m path = paramsOf rx e0 m path ∨
      (paramsOf rx e m path = none ∧ ∃ v ∈ rs, v.method = m ∧ path = variantUri v.uri ∧
        ∀ p ∈ routeSegs v.uri, kind p = .literal) := by
  unfold paramsOf
  cases hi : methodIndex m with
  | none => exact .inl rfl
  | some i =>
    simp only []
    rcases static_lookup (path := path) h h0 hi with h1 | ⟨h1, h2⟩
    · rw [h1]; exact .inl rfl
    · rw [h1]; exact .inr ⟨rfl, h2⟩

/-- both engines agree on a table with literal and other routes -/
example : withEngine true [get b!"/a/<x>" [1], get b!"/a/b" [2], get b!"/" [3], get b!"/*" [4]] (fun e =>
      run e mGET b!"/a/b" == some [2] && run e mGET b!"/a/c" == some [1] && run e mGET b!"/" == some [3] &&
      run e mGET b!"/a/b/" == some [2]) = true ∧
    withEngine false [get b!"/a/<x>" [1], get b!"/a/b" [2], get b!"/" [3], get b!"/*" [4]] (fun e =>
      run e mGET b!"/a/b" == some [2] && run e mGET b!"/a/c" == some [1] && run e mGET b!"/" == some [3] &&
      run e mGET b!"/a/b/" == some [2]) = true := by
  decide +kernel

/-- C13 as stated is false: `/a//b` is reached at `/a//b` only with the option. -/
theorem C13_refuted : ¬ ∀ (rx : Regex) (rs : List (Route Nat)) (e e0 : Engine Nat),
    mkEngine rx true [] rs = .ok e → mkEngine rx false [] rs = .ok e0 →
    ∀ m path : Str, routeOf rx e m path = routeOf rx e0 m path := by
  intro hall
  have hw : withEngine true [get b!"/a//b" [1]] (fun e => run e mGET b!"/a//b" == some [1]) = true := by decide +kernel
  have hw0 : withEngine false [get b!"/a//b" [1]] (fun e => run e mGET b!"/a//b" == none) = true := by decide +kernel
  obtain ⟨e, he, hrun⟩ := withEngine_spec hw
  obtain ⟨e0, he0, hrun0⟩ := withEngine_spec hw0
  unfold run at hrun hrun0
  rw [hall _ _ e e0 he he0 mGET b!"/a//b"] at hrun
  cases hx : routeOf Demo.rx e0 mGET b!"/a//b" with
  | none => rw [hx] at hrun; exact absurd hrun (by decide)
  | some n => rw [hx] at hrun0; simp at hrun0

/-! ## C14 -/

/-- C14 (partial): when no two registrations for the method are spellings of the same pattern, the handlers
that run and the FullPath come from one registration, which accepts the path. -/
theorem C14_full_path_partial {rx : Regex} {nf : List α} {rs : List (Route α)} {e : Engine α}
    (h : mkEngine rx false nf rs = .ok e) {m path : Str} {n : EndNode α} (hr : routeOf rx e m path = some n)
    (hinj : rs.Pairwise (fun a b => a.method = m → b.method = m → routeSegs a.uri ≠ routeSegs b.uri)) :
    ∃ v ∈ rs, v.method = m ∧ v.handlers = n.handlers ∧ v.uri = n.uri ∧ RouteAccepts rx v path := by
  obtain ⟨r, ps, _, h2, h3, h4, _, _⟩ := dispatch_spec h hr
  obtain ⟨v, hv, hm, hs, hh⟩ := firstHandlers_mem h3
  obtain ⟨w, hw, hwm, hws, hwu⟩ := lastUri_mem h4
  have heq : w = v := by
    rcases List.append_of_mem hv with ⟨a, b, hab⟩
    rw [hab] at hw hinj
    rw [List.pairwise_append] at hinj
    rcases List.mem_append.1 hw with hw | hw
    · exact absurd (by rw [hs, hws]) (hinj.2.2 w hw v (by simp) hwm hm)
    · rcases List.mem_cons.1 hw with hw | hw
      · exact hw
      · exact absurd (by rw [hs, hws]) ((List.pairwise_cons.1 hinj.2.1).1 w hw hm hwm)
  subst heq
  exact ⟨w, hv, hm, hh, hwu, by unfold RouteAccepts; rw [hs]; exact h2⟩

/-- C14, the general case: the handlers are those of the FIRST registration of the chosen pattern and FullPath
is the spelling used by the LAST one. -/
theorem C14_first_handlers_last_spelling {rx : Regex} {nf : List α} {rs : List (Route α)} {e : Engine α}
    (h : mkEngine rx false nf rs = .ok e) {m path : Str} {n : EndNode α} (hr : routeOf rx e m path = some n) :
    ∃ r, Accepts rx r (pathSegs path) ∧
      (∃ l1 v l2, rs = l1 ++ v :: l2 ∧ v.method = m ∧ routeSegs v.uri = r ∧ v.handlers = n.handlers ∧
        ∀ w ∈ l1, w.method = m → routeSegs w.uri ≠ r) ∧
      (∃ l1 v l2, rs = l1 ++ v :: l2 ∧ v.method = m ∧ routeSegs v.uri = r ∧ v.uri = n.uri ∧
        ∀ w ∈ l2, w.method = m → routeSegs w.uri ≠ r) := by
  obtain ⟨r, ps, _, h2, h3, h4, _, _⟩ := dispatch_spec h hr
  refine ⟨r, h2, ?_, ?_⟩
  · obtain ⟨l1, x, l2, h5, h6, h7, h8⟩ := h3
    unfold tableFor at h5
    obtain ⟨a, b, h9, h10, h11⟩ := List.map_eq_append_iff.1 h5
    obtain ⟨v, b', h12, h13, h14⟩ := List.map_eq_cons_iff.1 h11
    subst h12
    obtain ⟨c, d, h15, h16, h17⟩ := List.filter_eq_append_iff.1 h9
    obtain ⟨d1, d2, h18, h19, h20, h21⟩ := List.filter_eq_cons_iff.1 h17
    subst h13
    refine ⟨c ++ d1, v, d2, by rw [h15, h18]; simp, by simpa using h20, h6, h7, ?_⟩
    intro w hw hwm
    rcases List.mem_append.1 hw with hw | hw
    · have : w ∈ a := by rw [← h16]; exact List.mem_filter.2 ⟨hw, by simpa using hwm⟩
      exact h8 ⟨routeSegs w.uri, w.handlers, w.uri⟩ (by rw [← h10]; exact List.mem_map.2 ⟨w, this, rfl⟩)
    · exact absurd (by simpa using hwm) (h19 w hw)
  · obtain ⟨l1, x, l2, h5, h6, h7, h8⟩ := h4
    unfold tableFor at h5
    obtain ⟨a, b, h9, h10, h11⟩ := List.map_eq_append_iff.1 h5
    obtain ⟨v, b', h12, h13, h14⟩ := List.map_eq_cons_iff.1 h11
    subst h12
    obtain ⟨c, d, h15, h16, h17⟩ := List.filter_eq_append_iff.1 h9
    obtain ⟨d1, d2, h18, h19, h20, h21⟩ := List.filter_eq_cons_iff.1 h17
    subst h13
    refine ⟨c ++ d1, v, d2, by rw [h15, h18]; simp, by simpa using h20, h6, h7, ?_⟩
    intro w hw hwm
    have : w ∈ b' := by rw [← h21]; exact List.mem_filter.2 ⟨hw, by simpa using hwm⟩
    exact h8 ⟨routeSegs w.uri, w.handlers, w.uri⟩ (by rw [← h14]; exact List.mem_map.2 ⟨w, this, rfl⟩)

example : withEngine false [get b!"/u/:id" [1], get b!"/u/*" [2]] (fun e =>
    run e mGET b!"/u/7" == some [1] && full e mGET b!"/u/7" == some b!"/u/:id") = true := by decide +kernel

/-- C14 as stated is false: `/u/:id` and then `/u/<id>`; the handlers of the first run, FullPath is the second. -/
theorem C14_refuted : ¬ ∀ (rx : Regex) (rs : List (Route Nat)) (e : Engine Nat),
    mkEngine rx false [] rs = .ok e → NoDouble rs → ∀ (m path : Str) (n : EndNode Nat), routeOf rx e m path = some n →
    ∃ v ∈ rs, v.method = m ∧ v.handlers = n.handlers ∧ v.uri = n.uri := by
  intro hall
  have hw : withEngine false [get b!"/u/:id" [1], get b!"/u/<id>" [2]] (fun e =>
      run e mGET b!"/u/7" == some [1] && full e mGET b!"/u/7" == some b!"/u/<id>") = true := by decide +kernel
  obtain ⟨e, he, hrun⟩ := withEngine_spec hw
  simp only [Bool.and_eq_true, beq_iff_eq] at hrun
  unfold run full at hrun
  cases hn : routeOf Demo.rx e mGET b!"/u/7" with
  | none => rw [hn] at hrun; exact absurd hrun.1 (by decide)
  | some n =>
    rw [hn] at hrun
    simp only [Option.map_some, Option.some.injEq] at hrun
    obtain ⟨v, hv, _, hh, hu⟩ := hall _ _ e he (by unfold NoDouble; decide) _ _ n hn
    rw [hrun.1] at hh
    rw [hrun.2] at hu
    simp only [List.mem_cons, List.not_mem_nil, or_false] at hv
    rcases hv with rfl | rfl
    · exact absurd hu (by decide)
    · exact absurd hh (by decide)

end Water
