import Verif.Props.Demo
import Verif.Lemmas.Source
/-
Properties C01-C12: which route a request reaches and which parameters it sees.
`mkEngine rx false nf rs = .ok e` says that building the engine from the registrations `rs` (in order)
succeeded, without the static-route option (C13 is about that option). `rx` is an arbitrary regexp engine,
handlers are values of an arbitrary type. `routeOf rx e m path` is the end node a request is dispatched to:
its `handlers` are the chain that runs and its `uri` is what `FullPath` reports.
-/
namespace Water
open Spec Demo
variable {α : Type}

/-! ## C01, C02 -/

/-- C01: a dispatched request runs the chain of a registration for its method whose pattern accepts the path. -/
theorem C01_dispatch_sound {rx : Regex} {nf : List α} {rs : List (Route α)} {e : Engine α}
    (h : mkEngine rx false nf rs = .ok e) {m path : Str} {n : EndNode α} (hr : routeOf rx e m path = some n) :
    ∃ v ∈ rs, v.method = m ∧ v.handlers = n.handlers ∧ RouteAccepts rx v path := by
  obtain ⟨r, ps, _, h2, h3, _, _, _⟩ := dispatch_spec h hr
  obtain ⟨v, hv, hm, hs, hh⟩ := firstHandlers_mem h3
  exact ⟨v, hv, hm, hh, by unfold RouteAccepts; rw [hs]; exact h2⟩

/-- C02: a request is dispatched as soon as some registration for its method accepts its path. -/
theorem C02_dispatch_complete {rx : Regex} {nf : List α} {rs : List (Route α)} {e : Engine α}
    (h : mkEngine rx false nf rs = .ok e) {v : Route α} (hv : v ∈ rs) {path : Str} (ha : RouteAccepts rx v path) :
    ∃ n, routeOf rx e v.method path = some n := by
  cases hr : routeOf rx e v.method path with
  | some n => exact ⟨n, rfl⟩
  | none =>
    exact absurd ha (dispatch_none h (mkEngine_methods h v hv) hr ⟨routeSegs v.uri, v.handlers, v.uri⟩
      (mem_tableFor.2 ⟨v, hv, rfl, rfl⟩))

/-- C01 and C02 together: a request is not found exactly when no registration for its method accepts it. -/
theorem C02_not_found_iff {rx : Regex} {nf : List α} {rs : List (Route α)} {e : Engine α}
    (h : mkEngine rx false nf rs = .ok e) (m path : Str) :
    routeOf rx e m path = none ↔ ∀ v ∈ rs, v.method = m → ¬ RouteAccepts rx v path := by
  constructor
  · rintro hr v hv rfl ha
    obtain ⟨n, hn⟩ := C02_dispatch_complete h hv ha
    rw [hr] at hn; cases hn
  · intro hall
    cases hr : routeOf rx e m path with
    | none => rfl
    | some n =>
      obtain ⟨v, hv, hm, _, ha⟩ := C01_dispatch_sound h hr
      exact absurd ha (hall v hv hm)

/-- the hypotheses of C01/C02 are met by an engine with a literal, a named, a regexp and a catch-all route;
`/a/b/c` backtracks out of `/a/b/d` -/
def demoRoutes : List (Route Nat) :=
  [get b!"/a/<x>/c" [1], get b!"/a/b/d" [2], get b!"/a/<y ~ (a.)>/*rest" [3], post b!"/a/b/c" [4], get b!"/" [5]]

example : withEngine false demoRoutes (fun e =>
    run e mGET b!"/a/b/c" == some [1] && run e mGET b!"/a/b/d" == some [2] &&
    run e mGET b!"/a/a1/q/r" == some [3] && run e mPOST b!"/a/b/c" == some [4] &&
    run e mGET b!"/" == some [5] && run e mGET b!"/a/b/e" == none && run e mPOST b!"/a/z/c" == none) = true := by
  decide +kernel

/-! ## C03, C04 -/

/-- C03: against every other accepting registration, at the first difference of the two patterns the chosen
one has a segment of a kind at least as strong, and it does not end (in an absorbing `*`) where the other
one descends. -/
theorem C03_precedence {rx : Regex} {nf : List α} {rs : List (Route α)} {e : Engine α}
    (h : mkEngine rx false nf rs = .ok e) {m path : Str} {n : EndNode α} (hr : routeOf rx e m path = some n) :
    ∃ v ∈ rs, v.method = m ∧ v.handlers = n.handlers ∧ RouteAccepts rx v path ∧
      ∀ w ∈ rs, w.method = m → RouteAccepts rx w path → routeSegs w.uri ≠ routeSegs v.uri →
        ∃ c a ra b rb, Differ (routeSegs v.uri) (routeSegs w.uri) c a ra b rb ∧
          (kind a).rank ≤ (kind b).rank ∧ (ra = [] → rb = []) := by
  obtain ⟨r, ps, _, h2, h3, _, h5, _⟩ := dispatch_spec h hr
  obtain ⟨v, hv, hm, hs, hh⟩ := firstHandlers_mem h3
  refine ⟨v, hv, hm, hh, by unfold RouteAccepts; rw [hs]; exact h2, ?_⟩
  intro w hw hwm hwa hne
  rw [hs] at hne ⊢
  rcases h5 ⟨routeSegs w.uri, w.handlers, w.uri⟩ (mem_tableFor.2 ⟨w, hw, hwm, rfl⟩) hwa with h6 | h6
  · exact absurd h6 hne
  · obtain ⟨c, a, ra, b, rb, hd, h7⟩ := h6
    refine ⟨c, a, ra, b, rb, hd, ?_⟩
    rcases h7 with ⟨h8, h9, h10⟩ | ⟨h8, h9, h10, _⟩ | ⟨h8, h9, _, h10⟩ | ⟨h8, h9, _, h10, h11, _⟩
    · exact ⟨by omega, fun h => absurd h h8⟩
    · refine ⟨?_, fun h => absurd h h8⟩
      rw [h10]; cases kind a <;> decide
    · exact ⟨by omega, fun _ => h9⟩
    · exact ⟨by rw [h10, h11]; decide, fun _ => h9⟩

/-- all four kinds compete for `/p/a1`; the strongest one wins, and `*` loses against a longer route -/
example : withEngine false [get b!"/p/*" [1], get b!"/p/<x>" [2], get b!"/p/<x ~ (a.)>" [3], get b!"/p/a1" [4],
    get b!"/p/<x>/z" [5]] (fun e =>
    run e mGET b!"/p/a1" == some [4] && run e mGET b!"/p/a2" == some [3] && run e mGET b!"/p/q" == some [2] &&
    run e mGET b!"/p/q/z" == some [5] && run e mGET b!"/p/q/y" == some [1]) = true := by
  decide +kernel

/-- C04 (partial): ties between segments of the same kind go to the segment registered first, when both routes
continue below it or both end there on the last path segment. The missing case is in `C04_refuted`. -/
theorem C04_ties_partial {rx : Regex} {nf : List α} {rs : List (Route α)} {e : Engine α}
    (h : mkEngine rx false nf rs = .ok e) {m path : Str} {n : EndNode α} (hr : routeOf rx e m path = some n) :
    ∃ v ∈ rs, v.method = m ∧ v.handlers = n.handlers ∧ RouteAccepts rx v path ∧
      ∀ w ∈ rs, w.method = m → RouteAccepts rx w path → routeSegs w.uri ≠ routeSegs v.uri →
        ∃ c a ra b rb, Differ (routeSegs v.uri) (routeSegs w.uri) c a ra b rb ∧
          ((kind a).rank = (kind b).rank →
            (ra ≠ [] → rb ≠ [] → Before (Through (c ++ [a])) (Through (c ++ [b])) (tableFor m rs)) ∧
            (ra = [] → rb = [] → (pathSegs path).length = c.length + 1 →
              Before (fun x => x.segs = routeSegs v.uri) (fun x => x.segs = routeSegs w.uri) (tableFor m rs))) := by
  obtain ⟨r, ps, _, h2, h3, _, h5, _⟩ := dispatch_spec h hr
  obtain ⟨v, hv, hm, hs, hh⟩ := firstHandlers_mem h3
  refine ⟨v, hv, hm, hh, by unfold RouteAccepts; rw [hs]; exact h2, ?_⟩
  intro w hw hwm hwa hne
  rw [hs] at hne ⊢
  rcases h5 ⟨routeSegs w.uri, w.handlers, w.uri⟩ (mem_tableFor.2 ⟨w, hw, hwm, rfl⟩) hwa with h6 | h6
  · exact absurd h6 hne
  · obtain ⟨c, a, ra, b, rb, hd, h7⟩ := h6
    refine ⟨c, a, ra, b, rb, hd, fun heq => ⟨fun ha hb => ?_, fun ha hb hl => ?_⟩⟩
    · rcases h7 with ⟨_, _, h10⟩ | ⟨_, h9, _⟩ | ⟨h8, _⟩ | ⟨h8, _⟩
      · rcases h10 with h10 | h10
        · omega
        · exact h10.2
      · exact absurd h9 hb
      · exact absurd h8 ha
      · exact absurd h8 ha
    · rcases h7 with ⟨h8, _⟩ | ⟨h8, _⟩ | ⟨_, _, _, h10⟩ | ⟨_, _, h10, _⟩
      · exact absurd ha h8
      · exact absurd ha h8
      · rcases h10 with h10 | h10
        · omega
        · exact h10.2
      · omega

/-- C04, remaining case: between two final `*` segments absorbing several path segments the one registered
LAST wins. -/
theorem C04_absorbing_last {rx : Regex} {nf : List α} {rs : List (Route α)} {e : Engine α}
    (h : mkEngine rx false nf rs = .ok e) {m path : Str} {n : EndNode α} (hr : routeOf rx e m path = some n) :
    ∃ v ∈ rs, v.method = m ∧ v.handlers = n.handlers ∧ RouteAccepts rx v path ∧
      ∀ w ∈ rs, w.method = m → RouteAccepts rx w path →
        ∀ c a b, routeSegs v.uri = c ++ [a] → routeSegs w.uri = c ++ [b] → a ≠ b →
          c.length + 1 < (pathSegs path).length →
          Before (fun x => x.segs = routeSegs w.uri) (fun x => x.segs = routeSegs v.uri) (tableFor m rs) := by
  obtain ⟨r, ps, _, h2, h3, _, h5, _⟩ := dispatch_spec h hr
  obtain ⟨v, hv, hm, hs, hh⟩ := firstHandlers_mem h3
  refine ⟨v, hv, hm, hh, by unfold RouteAccepts; rw [hs]; exact h2, ?_⟩
  intro w hw hwm hwa c a b hva hwb hab hlt
  rw [hs] at hva ⊢
  rcases h5 ⟨routeSegs w.uri, w.handlers, w.uri⟩ (mem_tableFor.2 ⟨w, hw, hwm, rfl⟩) hwa with h6 | h6
  · simp only [hva, hwb, List.append_cancel_left_eq, List.cons.injEq, and_true] at h6
    exact absurd h6.symm hab
  · obtain ⟨c', a', ra, b', rb, hd, h7⟩ := h6
    have hd2 : Differ (routeSegs w.uri) r c b [] a [] := ⟨hwb, hva, .inl (Ne.symm hab)⟩
    obtain ⟨rfl, rfl, rfl, rfl, rfl⟩ := hd.unique hd2
    rcases h7 with ⟨h8, _⟩ | ⟨h8, _⟩ | ⟨_, _, h9, _⟩ | ⟨_, _, _, _, _, h9⟩
    · exact absurd rfl h8
    · exact absurd rfl h8
    · omega
    · exact h9

/-- C04 as stated (first registered wins whenever the kinds at the first difference are equal) is false:
`/*a` and then `/*b`; a request with two segments runs `/*b`. -/
theorem C04_refuted : ¬ ∀ (rx : Regex) (rs : List (Route Nat)) (e : Engine Nat),
    mkEngine rx false [] rs = .ok e → ∀ (m path : Str) (n : EndNode Nat), routeOf rx e m path = some n →
    ∃ v ∈ rs, v.method = m ∧ v.handlers = n.handlers ∧ RouteAccepts rx v path ∧
      ∀ w ∈ rs, w.method = m → RouteAccepts rx w path →
        ∀ c a b, routeSegs v.uri = c ++ [a] → routeSegs w.uri = c ++ [b] → a ≠ b → kind a = kind b →
          Before (fun x => x.segs = routeSegs v.uri) (fun x => x.segs = routeSegs w.uri) (tableFor m rs) := by
  intro hall
  have hw : withEngine false [get b!"/*a" [1], get b!"/*b" [2]] (fun e => run e mGET b!"/x/y" == some [2]) = true := by
    decide +kernel
  obtain ⟨e, he, hrun⟩ := withEngine_spec hw
  unfold run at hrun
  cases hn : routeOf Demo.rx e mGET b!"/x/y" with
  | none => rw [hn] at hrun; simp at hrun
  | some n =>
    rw [hn] at hrun
    simp at hrun
    obtain ⟨v, hv, _, hh, _, hb⟩ := hall _ _ e he _ _ n hn
    simp only [List.mem_cons, List.not_mem_nil, or_false] at hv
    rcases hv with rfl | rfl
    · rw [hrun] at hh; simp [Demo.get] at hh
    · have := hb (get b!"/*a" [1]) (by simp) rfl (.rest (by decide)) [] b!"*b" b!"*a" (by decide) (by decide)
        (by decide) (by decide)
      obtain ⟨l1, x, l2, h1, h2, h3, h4⟩ := this
      cases l1 with
      | nil =>
        simp only [List.nil_append] at h1
        have h5 : x.segs = [b!"*a"] := by
          have : (tableFor mGET [get b!"/*a" [1], get b!"/*b" [2]]).head? = some x := by rw [h1]; rfl
          have h6 : (tableFor mGET [get b!"/*a" [1], get b!"/*b" [2]]).head?.map Entry.segs = some [b!"*a"] := by
            decide
          rw [this] at h6; simpa using h6
        exact h3 h5
      | cons y l1 =>
        have h5 : y.segs = [b!"*a"] := by
          have : (tableFor mGET [get b!"/*a" [1], get b!"/*b" [2]]).head? = some y := by rw [h1]; rfl
          have h6 : (tableFor mGET [get b!"/*a" [1], get b!"/*b" [2]]).head?.map Entry.segs = some [b!"*a"] := by
            decide
          rw [this] at h6; simpa using h6
        exact h4 y (by simp) h5

/-- C04 in action: `/<x>/c` and `/<y>/c`, the first one wins -/
example : withEngine false [get b!"/<x>/c" [1], get b!"/<y>/c" [2], get b!"/<z>" [3], get b!"/<w>" [4]] (fun e =>
    run e mGET b!"/q/c" == some [1] && run e mGET b!"/q" == some [3]) = true := by
  decide +kernel

/-! ## C05 -/

/-- C05 (partial): a route made of literals is what a request for its own path runs, whatever else is
registered, provided the paths registered for the method have no empty inner segment (see `C05_refuted`)
and no path is registered twice (which the router rejects, C15). -/
theorem C05_literal_wins_partial {rx : Regex} {nf : List α} {rs : List (Route α)} {e : Engine α}
    (h : mkEngine rx false nf rs = .ok e) (hd : NoDouble rs) {v : Route α} (hv : v ∈ rs)
    (hplain : ∀ w ∈ rs, w.method = v.method → Plain w.uri)
    (hlit : ∀ p ∈ routeSegs v.uri, kind p = .literal) :
    ∃ n, routeOf rx e v.method v.uri = some n ∧ n.handlers = v.handlers ∧ n.uri = v.uri := by
  obtain ⟨h1, h2⟩ := variantUri_literal (hplain v hv rfl) hlit
  have hacc : RouteAccepts rx v v.uri := by
    unfold RouteAccepts; rw [h2]; exact accepts_refl (routeSegs_ne_nil _) hlit
  obtain ⟨n, hn⟩ := C02_dispatch_complete h hv hacc
  refine ⟨n, hn, ?_⟩
  obtain ⟨r, ps, _, h3, h4, h5, h6, _⟩ := dispatch_spec h hn
  have hr : r = routeSegs v.uri := by
    rw [h2] at h3 h6
    exact selected_literal h3 h6 (mem_tableFor.2 ⟨v, hv, rfl, rfl⟩) rfl hlit
  have huniq : ∀ w ∈ rs, w.method = v.method → routeSegs w.uri = r → w = v := by
    intro w hw hwm hws
    have hwl : ∀ p ∈ routeSegs w.uri, kind p = .literal := by rw [hws, hr]; exact hlit
    have h7 := (variantUri_literal (hplain w hw hwm) hwl).2
    have h8 : w.uri = v.uri := plain_ext (hplain w hw hwm) (hplain v hv rfl) (by rw [h7, h2, hws, hr])
    rcases List.append_of_mem hv with ⟨a, b, hab⟩
    unfold NoDouble at hd
    rw [hab] at hw hd
    rw [List.pairwise_append] at hd
    rcases List.mem_append.1 hw with hw | hw
    · exact absurd ⟨hwm, h8⟩ (hd.2.2 w hw v (by simp))
    · rcases List.mem_cons.1 hw with hw | hw
      · exact hw
      · exact absurd ⟨hwm.symm, h8.symm⟩ ((List.pairwise_cons.1 hd.2.1).1 w hw)
  obtain ⟨w, hw, hwm, hws, hwh⟩ := firstHandlers_mem h4
  obtain ⟨w', hw', hwm', hws', hwu⟩ := lastUri_mem h5
  rw [huniq w hw hwm hws] at hwh
  rw [huniq w' hw' hwm' hws'] at hwu
  exact ⟨hwh.symm, hwu.symm⟩

/-- the hypotheses hold with competing routes of every kind before and after -/
example : withEngine false [get b!"/*" [1], get b!"/<x>/<y>" [2], get b!"/a/b" [3], get b!"/a/:z" [4], get b!"/a/*k" [5]]
    (fun e => run e mGET b!"/a/b" == some [3] && full e mGET b!"/a/b" == some b!"/a/b") = true := by
  decide +kernel

/-- C05 as stated is false: after `/a//b`, the handlers of `/a/b` are never run for `/a/b`. -/
theorem C05_refuted : ¬ ∀ (rx : Regex) (rs : List (Route Nat)) (e : Engine Nat),
    mkEngine rx false [] rs = .ok e → NoDouble rs → ∀ v ∈ rs, Plain v.uri →
      (∀ p ∈ routeSegs v.uri, kind p = .literal) →
      ∃ n, routeOf rx e v.method v.uri = some n ∧ n.handlers = v.handlers := by
  intro hall
  have hw : withEngine false [get b!"/a//b" [1], get b!"/a/b" [2]] (fun e => run e mGET b!"/a/b" == some [1]) = true := by
    decide +kernel
  obtain ⟨e, he, hrun⟩ := withEngine_spec hw
  obtain ⟨n, hn, hh⟩ := hall _ _ e he (by unfold NoDouble; decide) (get b!"/a/b" [2]) (by simp)
    (.inr ⟨[b!"a", b!"b"], by decide, by decide, by decide⟩) (by decide)
  unfold run at hrun
  rw [show routeOf Demo.rx e mGET b!"/a/b" = some n from hn] at hrun
  simp [hh, Demo.get] at hrun

/-! ## C06, C07, C10, C11: parameters -/

/-- C06 (partial): when the parameter names of the chosen pattern are distinct, every one of its bindings is
in Params with the value found in the path, for names that are not set by an inner regexp segment, and for
those too if no registered pattern uses a name in two inner regexp segments. What is missing (see
`C06_refuted`): a failed branch may overwrite the value of an inner regexp segment. -/
theorem C06_param_values_partial {rx : Regex} {nf : List α} {rs : List (Route α)} {e : Engine α}
    (h : mkEngine rx false nf rs = .ok e) {m path : Str} {n : EndNode α} (hr : routeOf rx e m path = some n) :
    ∃ v ∈ rs, v.method = m ∧ v.uri = n.uri ∧ RouteAccepts rx v path ∧
      ∃ ps, paramsOf rx e m path = some ps ∧
        (((bindings rx 0 (routeSegs v.uri) (pathSegs path)).map Prod.fst).Nodup →
          ∀ x val, (x, val) ∈ bindings rx 0 (routeSegs v.uri) (pathSegs path) →
            (InnerRegexName (routeSegs v.uri) x →
              ∀ w ∈ rs, w.method = m → ¬ RepeatsInnerRegexName (routeSegs w.uri)) →
            ps x = some val) := by
  obtain ⟨r, ps, h1, h2, _, h4, _, h6⟩ := dispatch_spec h hr
  obtain ⟨v, hv, hm, hs, hu⟩ := lastUri_mem h4
  refine ⟨v, hv, hm, hu, by unfold RouteAccepts; rw [hs]; exact h2, ps, h1, ?_⟩
  rw [hs]
  intro hn x val hx hrep
  refine h6.2 hn x val hx (fun hi y hy => ?_)
  obtain ⟨w, hw, hwm, rfl⟩ := mem_tableFor.1 hy
  exact hrep hi w hw hwm

/-- a route with all kinds of binding -/
example : withEngine false [get b!"/<u ~ (a.)>/<v>/*/<w>/*rest" [1]] (fun e =>
    param e mGET b!"/a1/q/s/t/x/y" b!"u" == some b!"a1" && param e mGET b!"/a1/q/s/t/x/y" b!"v" == some b!"q" &&
    param e mGET b!"/a1/q/s/t/x/y" b!"*0" == some b!"s" && param e mGET b!"/a1/q/s/t/x/y" b!"w" == some b!"t" &&
    param e mGET b!"/a1/q/s/t/x/y" b!"rest" == some b!"x/y") = true := by
  decide +kernel

/-- C06 as stated is false: with `/<x ~ (a.)>/<x ~ (b.)>/c` and `/<x ~ (a.)>/<y>/d`, the request `/a1/b1/d`
is dispatched to the second route, whose only binding of `x` is `a1`, but Params holds `x = b1`. -/
theorem C06_refuted : ¬ ∀ (rx : Regex) (rs : List (Route Nat)) (e : Engine Nat),
    mkEngine rx false [] rs = .ok e → ∀ (m path : Str) (n : EndNode Nat), routeOf rx e m path = some n →
    ∃ v ∈ rs, v.method = m ∧ v.uri = n.uri ∧ RouteAccepts rx v path ∧
      ∃ ps, paramsOf rx e m path = some ps ∧
        (((bindings rx 0 (routeSegs v.uri) (pathSegs path)).map Prod.fst).Nodup →
          ∀ x val, (x, val) ∈ bindings rx 0 (routeSegs v.uri) (pathSegs path) → ps x = some val) := by
  intro hall
  have hw : withEngine false [get b!"/<x ~ (a.)>/<x ~ (b.)>/c" [1], get b!"/<x ~ (a.)>/<y>/d" [2]] (fun e =>
      full e mGET b!"/a1/b1/d" == some b!"/<x ~ (a.)>/<y>/d" &&
      param e mGET b!"/a1/b1/d" b!"x" == some b!"b1") = true := by decide +kernel
  obtain ⟨e, he, hrun⟩ := withEngine_spec hw
  simp only [Bool.and_eq_true, beq_iff_eq] at hrun
  obtain ⟨hfull, hpar⟩ := hrun
  unfold full at hfull
  unfold param at hpar
  cases hn : routeOf Demo.rx e mGET b!"/a1/b1/d" with
  | none => rw [hn] at hfull; cases hfull
  | some n =>
    rw [hn] at hfull
    simp only [Option.map_some, Option.some.injEq] at hfull
    obtain ⟨v, hv, _, hu, _, ps, hps, hval⟩ := hall _ _ e he _ _ n hn
    rw [hps] at hpar
    simp only [Option.bind_some] at hpar
    rw [hu, hfull] at hval
    have := hval (by decide +kernel) b!"x" b!"a1" (by decide +kernel)
    rw [this] at hpar
    exact absurd hpar (by decide)

/-- C07 (partial): every key of Params is declared by the chosen pattern, or is a name of a non-final regexp
segment of some registered pattern. Missing (see `C07_refuted`): names written by branches that failed. -/
theorem C07_no_other_params_partial {rx : Regex} {nf : List α} {rs : List (Route α)} {e : Engine α}
    (h : mkEngine rx false nf rs = .ok e) {m path : Str} {n : EndNode α} (hr : routeOf rx e m path = some n) :
    ∃ v ∈ rs, v.method = m ∧ v.uri = n.uri ∧ RouteAccepts rx v path ∧
      ∃ ps, paramsOf rx e m path = some ps ∧ ∀ x, ps x ≠ none →
        x ∈ declared 0 (routeSegs v.uri) ∨
          ∃ w ∈ rs, w.method = m ∧ InnerRegexName (routeSegs w.uri) x := by
  obtain ⟨r, ps, h1, h2, _, h4, _, h6⟩ := dispatch_spec h hr
  obtain ⟨v, hv, hm, hs, hu⟩ := lastUri_mem h4
  refine ⟨v, hv, hm, hu, by unfold RouteAccepts; rw [hs]; exact h2, ps, h1, ?_⟩
  rw [hs]
  intro x hx
  by_cases hd : x ∈ declared 0 r
  · exact .inl hd
  · right
    by_cases hl : ∃ y ∈ tableFor m rs, InnerRegexName y.segs x
    · obtain ⟨y, hy, hi⟩ := hl
      obtain ⟨w, hw, hwm, rfl⟩ := mem_tableFor.1 hy
      exact ⟨w, hw, hwm, hi⟩
    · refine absurd ?_ hx
      apply h6.1 x _ hl
      intro hb
      obtain ⟨⟨x', v'⟩, hb1, rfl⟩ := List.mem_map.1 hb
      exact hd (bindings_names hb1)

/-- C06 and C07 in full for routers without non-final regexp segments: if the names of the chosen pattern are
distinct, Params is exactly its set of bindings. -/
theorem C07_params_exact {rx : Regex} {nf : List α} {rs : List (Route α)} {e : Engine α}
    (h : mkEngine rx false nf rs = .ok e) {m path : Str} {n : EndNode α} (hr : routeOf rx e m path = some n)
    (hrx : ∀ w ∈ rs, w.method = m → ∀ x, ¬ InnerRegexName (routeSegs w.uri) x) :
    ∃ v ∈ rs, v.method = m ∧ v.uri = n.uri ∧ RouteAccepts rx v path ∧
      ∃ ps, paramsOf rx e m path = some ps ∧
        (((bindings rx 0 (routeSegs v.uri) (pathSegs path)).map Prod.fst).Nodup →
          ∀ x val, ps x = some val ↔ (x, val) ∈ bindings rx 0 (routeSegs v.uri) (pathSegs path)) := by
  obtain ⟨r, ps, h1, h2, _, h4, _, h6⟩ := dispatch_spec h hr
  obtain ⟨v, hv, hm, hs, hu⟩ := lastUri_mem h4
  refine ⟨v, hv, hm, hu, by unfold RouteAccepts; rw [hs]; exact h2, ps, h1, ?_⟩
  rw [hs]
  intro hn x val
  have hnl : ∀ x, ¬ ∃ y ∈ tableFor m rs, InnerRegexName y.segs x := by
    rintro x ⟨y, hy, hi⟩
    obtain ⟨w, hw, hwm, rfl⟩ := mem_tableFor.1 hy
    exact hrx w hw hwm x hi
  have hback : ∀ x val, (x, val) ∈ bindings rx 0 r (pathSegs path) → ps x = some val := fun x val hx =>
    h6.2 hn x val hx (fun hi => absurd hi (by rw [← hs]; exact hrx v hv hm x))
  constructor
  · intro hx
    by_cases hb : x ∈ (bindings rx 0 r (pathSegs path)).map Prod.fst
    · obtain ⟨⟨x', v'⟩, hb1, rfl⟩ := List.mem_map.1 hb
      rw [hback x' v' hb1] at hx
      injection hx with hx
      rw [← hx]; exact hb1
    · rw [h6.1 x hb (hnl x)] at hx; cases hx
  · exact hback x val

/-- `demoRoutes` has a non-final regexp segment; without it the hypothesis of `C07_params_exact` holds -/
example : withEngine false [get b!"/a/<x>/*rest" [1], get b!"/b/<y ~ (a.)>" [2]] (fun e =>
    param e mGET b!"/a/1/2/3" b!"x" == some b!"1" && param e mGET b!"/a/1/2/3" b!"rest" == some b!"2/3" &&
    param e mGET b!"/a/1/2/3" b!"y" == none && param e mGET b!"/b/a7" b!"y" == some b!"a7") = true := by
  decide +kernel

/-- **C07 (where every value comes from).** Whatever the result of the search, also for the handlers of a path that is not found, every
value in Params is taken from the path of this request: it is bound by the chosen pattern, or captured by a regexp segment, not the last
one, of a registered pattern of the method that accepts the path up to and including that segment. -/
theorem C07_source {rx : Regex} {nf : List α} {rs : List (Route α)} {e : Engine α}
    (h : mkEngine rx false nf rs = .ok e) {m path : Str} {ps : Params} (hp : paramsOf rx e m path = some ps) {x val : Str}
    (hx : ps x = some val) :
    (∃ n, routeOf rx e m path = some n ∧ ∃ v ∈ rs, v.method = m ∧ v.uri = n.uri ∧ RouteAccepts rx v path ∧
      (x, val) ∈ bindings rx 0 (routeSegs v.uri) (pathSegs path)) ∨
    ∃ w ∈ rs, w.method = m ∧ Captures rx (routeSegs w.uri) (pathSegs path) x val := by
  rcases params_source h hp hx with ⟨n, r, h1, h2, h3, h4⟩ | ⟨y, hy, hc⟩
  · left
    obtain ⟨v, hv, hm, hs, hu⟩ := lastUri_mem h3
    refine ⟨n, h1, v, hv, hm, hu, ?_, ?_⟩
    · unfold RouteAccepts; rw [hs]; exact h2
    · rw [hs]; exact h4
  · right
    obtain ⟨w, hw, hwm, rfl⟩ := mem_tableFor.1 hy
    exact ⟨w, hw, hwm, hc⟩

/-- a value left behind by a route that failed after its first segment, seen by another route and when nothing is found -/
example : withEngine false [get b!"/<x ~ (a.)>/c" [1], get b!"/<y>/d" [2]] (fun e =>
      full e mGET b!"/a1/d" == some b!"/<y>/d" && param e mGET b!"/a1/d" b!"x" == some b!"a1" &&
      full e mGET b!"/a1/e" == none && param e mGET b!"/a1/e" b!"x" == some b!"a1") = true ∧
    Captures rx (routeSegs b!"/<x ~ (a.)>/c") (pathSegs b!"/a1/d") b!"x" b!"a1" := by
  refine ⟨by decide +kernel, ?_⟩
  rw [show routeSegs b!"/<x ~ (a.)>/c" = [b!"<x ~ (a.)>", b!"c"] by decide +kernel, show pathSegs b!"/a1/d" = [b!"a1", b!"d"] by decide +kernel]
  exact .here (by decide +kernel) (by
    unfold acceptsSeg
    rw [show kind b!"<x ~ (a.)>" = .regexp by decide +kernel]
    decide +kernel) (by decide +kernel)

/-- C07 as stated is false: a failed regexp branch leaves its names behind. -/
theorem C07_refuted : ¬ ∀ (rx : Regex) (rs : List (Route Nat)) (e : Engine Nat),
    mkEngine rx false [] rs = .ok e → ∀ (m path : Str) (n : EndNode Nat), routeOf rx e m path = some n →
    ∃ v ∈ rs, v.method = m ∧ v.uri = n.uri ∧
      ∃ ps, paramsOf rx e m path = some ps ∧ ∀ x, ps x ≠ none → x ∈ declared 0 (routeSegs v.uri) := by
  intro hall
  have hw : withEngine false [get b!"/<x ~ (a.)>/c" [1], get b!"/<y>/d" [2]] (fun e =>
      full e mGET b!"/a1/d" == some b!"/<y>/d" && param e mGET b!"/a1/d" b!"x" == some b!"a1") = true := by
    decide +kernel
  obtain ⟨e, he, hrun⟩ := withEngine_spec hw
  simp only [Bool.and_eq_true, beq_iff_eq] at hrun
  obtain ⟨hfull, hpar⟩ := hrun
  unfold full at hfull
  unfold param at hpar
  cases hn : routeOf Demo.rx e mGET b!"/a1/d" with
  | none => rw [hn] at hfull; cases hfull
  | some n =>
    rw [hn] at hfull
    simp only [Option.map_some, Option.some.injEq] at hfull
    obtain ⟨v, hv, _, hu, ps, hps, hval⟩ := hall _ _ e he _ _ n hn
    rw [hps] at hpar
    simp only [Option.bind_some] at hpar
    rw [hu, hfull] at hval
    have := hval b!"x" (by rw [hpar]; simp)
    exact absurd this (by decide +kernel)

/-! ## C08 -/

/-- dispatch looks at a path only through its segments -/
theorem pathSegs_append_slash {path : Str} (hp : path.getLast? ≠ some slash ∨ path = [slash]) :
    pathSegs (path ++ [slash]) = pathSegs path := by
  rcases hp with hp | rfl
  · unfold pathSegs stripSlashes
    cases path with
    | nil => decide
    | cons c t =>
      by_cases hc : c = slash
      · subst hc
        have ht : t.getLast? ≠ some slash := by
          intro h; apply hp
          cases t with
          | nil => cases h
          | cons x xs => rw [List.getLast?_cons_cons]; exact h
        simp [ht]
      · simp only [List.cons_append, List.head?_cons, Option.some.injEq, hc, if_false]
        rw [← List.cons_append]
        simp only [List.getLast?_append, List.getLast?_singleton, Option.some_or, if_true, List.dropLast_concat, hp,
          if_false]
  · decide

/-- C08 (partial): appending one '/' to a path that does not already end in '/' (or to "/" itself) changes
neither the route nor the Params. For paths already ending in '/' see `C08_refuted`. -/
theorem C08_trailing_slash_partial {rx : Regex} {nf : List α} {rs : List (Route α)} {e : Engine α}
    (h : mkEngine rx false nf rs = .ok e) (m : Str) {path : Str}
    (hp : path.getLast? ≠ some slash ∨ path = [slash]) :
    routeOf rx e m (path ++ [slash]) = routeOf rx e m path ∧
      paramsOf rx e m (path ++ [slash]) = paramsOf rx e m path := by
  have hst := (mkEngine_inv h).2.1
  have hseg := pathSegs_append_slash hp
  rw [pathSegs_eq, pathSegs_eq] at hseg
  have hstr := splitB_injective hseg
  unfold routeOf paramsOf
  cases methodIndex m with
  | none => exact ⟨rfl, rfl⟩
  | some i =>
    simp only []
    have : lookup rx e i (path ++ [slash]) = lookup rx e i path := by
      unfold lookup
      rw [hst]
      simp only [Bool.false_eq_true, if_false]
      cases e.trees i with
      | none => rfl
      | some t => simp only [matchUri]; rw [hstr]
    rw [this]; exact ⟨rfl, rfl⟩

example : withEngine false [get b!"/a/<x>" [1]] (fun e =>
    run e mGET b!"/a/q" == some [1] && run e mGET b!"/a/q/" == some [1] &&
    param e mGET b!"/a/q/" b!"x" == some b!"q") = true := by decide +kernel

/-- C08 without the condition is false: `/a/` is not found while `/a//` runs `/a/<x>` with x = "". -/
theorem C08_refuted : ¬ ∀ (rx : Regex) (rs : List (Route Nat)) (e : Engine Nat),
    mkEngine rx false [] rs = .ok e → ∀ (m path : Str), routeOf rx e m (path ++ [slash]) = routeOf rx e m path := by
  intro hall
  have hw : withEngine false [get b!"/a/<x>" [1]] (fun e =>
      run e mGET b!"/a/" == none && run e mGET b!"/a//" == some [1]) = true := by decide +kernel
  obtain ⟨e, he, hrun⟩ := withEngine_spec hw
  simp only [Bool.and_eq_true, beq_iff_eq] at hrun
  unfold run at hrun
  have := hall _ _ e he mGET b!"/a/"
  rw [show b!"/a/" ++ [slash] = b!"/a//" from rfl] at this
  rw [this, hrun.1] at hrun
  exact absurd hrun.2 (by decide)

/-! ## C09 -/

/-- C09: which requests are served depends only on the set of registrations, not on their order (nor on
handlers or repetitions). -/
theorem C09_order_independent {rx : Regex} {nf nf' : List α} {rs rs' : List (Route α)} {e e' : Engine α}
    (h : mkEngine rx false nf rs = .ok e) (h' : mkEngine rx false nf' rs' = .ok e')
    (hperm : rs.Perm rs') (m path : Str) : (routeOf rx e m path).isSome = (routeOf rx e' m path).isSome := by
  have h1 := C02_not_found_iff h m path
  have h2 := C02_not_found_iff h' m path
  have h3 : routeOf rx e m path = none ↔ routeOf rx e' m path = none := by
    rw [h1, h2]
    exact ⟨fun hh v hv => hh v (hperm.symm.subset hv), fun hh v hv => hh v (hperm.subset hv)⟩
  cases hr : routeOf rx e m path with
  | none => rw [h3.1 hr]
  | some n =>
    cases hr' : routeOf rx e' m path with
    | none => rw [h3.2 hr'] at hr; cases hr
    | some n' => rfl

/-- C09, stronger: if moreover no two registrations for the method tie (equal kinds at their first
difference), the very same registration answers in every order. -/
theorem C09_same_route_without_ties {rx : Regex} {nf nf' : List α} {rs rs' : List (Route α)} {e e' : Engine α}
    (h : mkEngine rx false nf rs = .ok e) (h' : mkEngine rx false nf' rs' = .ok e')
    (hperm : rs.Perm rs') {m path : Str}
    (hties : ∀ v ∈ rs, ∀ w ∈ rs, v.method = m → w.method = m → ∀ c a ra b rb,
      Differ (routeSegs v.uri) (routeSegs w.uri) c a ra b rb → (kind a).rank = (kind b).rank → ¬ (ra = [] ↔ rb = []))
    (hinj : ∀ v ∈ rs, ∀ w ∈ rs, v.method = m → w.method = m → routeSegs v.uri = routeSegs w.uri → v = w) :
    (routeOf rx e m path).map (fun n => (n.handlers, n.uri)) =
      (routeOf rx e' m path).map (fun n => (n.handlers, n.uri)) := by
  have hsome := C09_order_independent h h' hperm m path
  cases hr : routeOf rx e m path with
  | none =>
    rw [hr] at hsome
    cases hr' : routeOf rx e' m path with
    | none => rfl
    | some n' => rw [hr'] at hsome; cases hsome
  | some n =>
    cases hr' : routeOf rx e' m path with
    | none => rw [hr, hr'] at hsome; cases hsome
    | some n' =>
      obtain ⟨r, ps, _, h2, h3, h4, h5, _⟩ := dispatch_spec h hr
      obtain ⟨r', ps', _, h2', h3', h4', h5', _⟩ := dispatch_spec h' hr'
      obtain ⟨v, hv, hm, hs, hh⟩ := firstHandlers_mem h3
      obtain ⟨w, hw, hwm, hws, hwu⟩ := lastUri_mem h4
      obtain ⟨v', hv', hm', hs', hh'⟩ := firstHandlers_mem h3'
      obtain ⟨w', hw', hwm', hws', hwu'⟩ := lastUri_mem h4'
      have hv'' := hperm.symm.subset hv'
      have hw'' := hperm.symm.subset hw'
      have hrr : r = r' := by
        rcases h5 _ (mem_tableFor.2 ⟨v', hv'', hm', rfl⟩) (by rw [hs']; exact h2') with e1 | e1
        · rw [← e1, hs']
        · rcases h5' _ (mem_tableFor.2 ⟨v, hperm.subset hv, hm, rfl⟩) (by rw [hs]; exact h2) with e2 | e2
          · rw [← e2, hs]
          · simp only [hs'] at e1
            simp only [hs] at e2
            obtain ⟨c, a, ra, b, rb, d1, d2, d3, _⟩ := e1.asymm e2
            exact absurd d3 (hties v hv v' hv'' hm hm' c a ra b rb (by rw [hs, hs']; exact d1) d2)
      have e1 : v = v' := hinj v hv v' hv'' hm hm' (by rw [hs, hs', hrr])
      have e2 : w = w' := hinj w hw w' hw'' hwm hwm' (by rw [hws, hws', hrr])
      simp only [Option.map_some]
      rw [← hh, ← hh', ← hwu, ← hwu', e1, e2]

example : withEngine false [get b!"/a/<x>" [1], get b!"/a/b" [2]] (fun e => run e mGET b!"/a/b" == some [2]) = true ∧
    withEngine false [get b!"/a/b" [2], get b!"/a/<x>" [1]] (fun e => run e mGET b!"/a/b" == some [2]) = true := by
  decide +kernel

/-! ## C10 -/

/-- C10, acceptance: literals followed by `*` accept every path below the prefix, at any depth. -/
theorem C10_catch_all_accepts {rx : Regex} {ps rest : List Str} (hl : ∀ p ∈ ps, kind p = .literal)
    {g : Str} (hg : kind g = .star) (hne : rest ≠ []) : Accepts rx (ps ++ [g]) (ps ++ rest) := by
  induction ps with
  | nil =>
    match rest with
    | [] => exact absurd rfl hne
    | [s] => exact .last (by simp [acceptsSeg, hg])
    | s :: t :: r => exact .rest hg
  | cons p ps ih =>
    have ih := ih (fun x hx => hl x (by simp [hx]))
    have hp : acceptsSeg rx p p := by simp [acceptsSeg, hl p (by simp)]
    cases ps with
    | nil =>
      match rest with
      | [] => exact absurd rfl hne
      | s :: r => exact .cons hp ih
    | cons q ps => exact .cons hp ih

/-- what literals followed by a bare `*` bind -/
theorem bindings_catch_all {rx : Regex} {ps rest : List Str} (hl : ∀ p ∈ ps, kind p = .literal) (hne : rest ≠ []) :
    bindings rx 0 (ps ++ [[star]]) (ps ++ rest) = [(b!"*0", join [slash] rest)] := by
  induction ps with
  | nil =>
    cases rest with
    | nil => exact absurd rfl hne
    | cons s r =>
      have hk : kind [star] = .star := by decide
      have hs : starName [star] = [] := by decide
      simp only [List.nil_append, bindings, bindSeg, hk, hs, if_true]
      rfl
  | cons p ps ih =>
    have ih := ih (fun x hx => hl x (by simp [hx]))
    have hp := hl p (by simp)
    have hnil : ∀ a b c, bindSeg rx 0 p a b c = [] := by intro a b c; simp [bindSeg, hp]
    cases ps with
    | nil =>
      simp only [List.cons_append, List.nil_append, bindings, hnil, hp, reduceCtorEq, if_false] at ih ⊢
      exact ih
    | cons q ps =>
      simp only [List.cons_append, bindings, hnil, hp, reduceCtorEq, if_false, List.nil_append] at ih ⊢
      exact ih

/-- C10: the catch-all route is dispatched for every path below its prefix (to it or to a route that also
accepts), and when it is the chosen one, `*0` is exactly the remaining path text. -/
theorem C10_catch_all_remainder {rx : Regex} {nf : List α} {rs : List (Route α)} {e : Engine α}
    (h : mkEngine rx false nf rs = .ok e) {v : Route α} (hv : v ∈ rs) {ps rest : List Str} {path : Str}
    (hsegs : routeSegs v.uri = ps ++ [[star]]) (hl : ∀ p ∈ ps, kind p = .literal)
    (hpath : pathSegs path = ps ++ rest) (hne : rest ≠ []) :
    ∃ n, routeOf rx e v.method path = some n ∧
      ∃ w ∈ rs, w.method = v.method ∧ w.uri = n.uri ∧ RouteAccepts rx w path ∧
        (routeSegs w.uri = routeSegs v.uri →
          ∃ par, paramsOf rx e v.method path = some par ∧ par b!"*0" = some (join [slash] rest)) := by
  have hacc : RouteAccepts rx v path := by
    unfold RouteAccepts; rw [hsegs, hpath]; exact C10_catch_all_accepts hl (by decide) hne
  obtain ⟨n, hn⟩ := C02_dispatch_complete h hv hacc
  refine ⟨n, hn, ?_⟩
  obtain ⟨w, hw, hwm, hwu, hwa, par, hpar, hval⟩ := C06_param_values_partial h hn
  refine ⟨w, hw, hwm, hwu, hwa, fun hs => ⟨par, hpar, ?_⟩⟩
  rw [hs, hsegs, hpath, bindings_catch_all hl hne] at hval
  refine hval (by simp) b!"*0" _ (by simp) ?_
  rintro ⟨c, p, q, rest', h1, h2, _⟩
  exfalso
  have hp : p ∈ ps := by
    have hlen : (ps ++ [[star]]).length = (c ++ p :: q :: rest').length := by rw [h1]
    have h3 : (ps ++ [[star]])[c.length]? = some p := by rw [h1]; simp
    rw [List.getElem?_append_left (by simp at hlen; omega)] at h3
    exact List.mem_of_getElem? h3
  rw [hl p hp] at h2; cases h2

example : withEngine false [get b!"/static/*" [1], get b!"/static/<x>/z" [2]] (fun e =>
    run e mGET b!"/static/a/b/c" == some [1] && param e mGET b!"/static/a/b/c" b!"*0" == some b!"a/b/c" &&
    run e mGET b!"/static/a" == some [1] && run e mGET b!"/static/a/z" == some [2]) = true := by decide +kernel

/-! ## C11 -/

theorem declared_underscore {g : Nat} {r : List Str} (h : underscore ∈ declared g r) :
    ∃ p ∈ r, kind p = .regexp ∧ underscore ∈ regexNames p := by
  induction r generalizing g with
  | nil => simp [declared] at h
  | cons p r ih =>
    unfold declared at h
    rcases List.mem_append.1 h with h | h
    · unfold declaredSeg at h
      cases hk : kind p with
      | literal => simp [hk] at h
      | regexp => simp only [hk] at h; exact ⟨p, by simp, hk, h⟩
      | name =>
        simp only [hk] at h
        split at h
        · cases h
        · rename_i hne; simp at h; exact absurd h.symm hne
      | star =>
        simp only [hk] at h
        split at h
        · simp [anonKey, underscore] at h; exact absurd h.1 (by decide)
        · split at h
          · cases h
          · rename_i hne; simp at h; exact absurd h.symm hne
    · obtain ⟨q, hq, h1⟩ := ih h
      exact ⟨q, by simp [hq], h1⟩

/-- C11 (partial): `_` is never recorded unless a regexp segment is named `_` (see `C11_refuted`). -/
theorem C11_underscore_partial {rx : Regex} {nf : List α} {rs : List (Route α)} {e : Engine α}
    (h : mkEngine rx false nf rs = .ok e) {m path : Str} {n : EndNode α} (hr : routeOf rx e m path = some n)
    (hrx : ∀ w ∈ rs, w.method = m → ∀ p ∈ routeSegs w.uri, kind p = .regexp → b!"_" ∉ regexNames p) :
    ∃ ps, paramsOf rx e m path = some ps ∧ ps b!"_" = none := by
  obtain ⟨v, hv, hm, _, _, ps, hps, hall⟩ := C07_no_other_params_partial h hr
  refine ⟨ps, hps, ?_⟩
  cases hx : ps b!"_" with
  | none => rfl
  | some val =>
    exfalso
    rcases hall b!"_" (by rw [hx]; simp) with h1 | ⟨w, hw, hwm, c, p, q, rest, h1, h2, h3⟩
    · obtain ⟨p, hp, hk, hn⟩ := declared_underscore h1
      exact hrx v hv hm p hp hk hn
    · exact hrx w hw hwm p (by rw [h1]; simp) h2 h3

/-- C11, acceptance: a segment named `_` accepts like any segment of its kind (the name plays no role). -/
theorem C11_accepts_like_its_kind {rx : Regex} {p q : Str} (hp : kind p = kind q)
    (hk : kind p = .name ∨ kind p = .star) (s : Str) : acceptsSeg rx p s ↔ acceptsSeg rx q s := by
  unfold acceptsSeg
  rw [← hp]
  rcases hk with hk | hk <;> simp [hk]

example : withEngine false [get b!"/<_>/<x>/*_" [1]] (fun e =>
    run e mGET b!"/a/b/c/d" == some [1] && param e mGET b!"/a/b/c/d" b!"_" == none &&
    param e mGET b!"/a/b/c/d" b!"x" == some b!"b") = true := by decide +kernel

/-- C11 as stated is false for regexp segments: `<_ ~ (a.)>` records `_`. -/
theorem C11_refuted : ¬ ∀ (rx : Regex) (rs : List (Route Nat)) (e : Engine Nat),
    mkEngine rx false [] rs = .ok e → ∀ (m path : Str) (n : EndNode Nat), routeOf rx e m path = some n →
    ∃ ps, paramsOf rx e m path = some ps ∧ ps b!"_" = none := by
  intro hall
  have hw : withEngine false [get b!"/<_ ~ (a.)>" [1]] (fun e =>
      run e mGET b!"/a1" == some [1] && param e mGET b!"/a1" b!"_" == some b!"a1") = true := by decide +kernel
  obtain ⟨e, he, hrun⟩ := withEngine_spec hw
  simp only [Bool.and_eq_true, beq_iff_eq] at hrun
  unfold run param at hrun
  cases hn : routeOf Demo.rx e mGET b!"/a1" with
  | none => rw [hn] at hrun; exact absurd hrun.1 (by decide)
  | some n =>
    obtain ⟨ps, h1, h2⟩ := hall _ _ e he _ _ n hn
    rw [h1] at hrun
    simp only [Option.bind_some, h2] at hrun
    exact absurd hrun.2 (by decide)

/-! ## C12 -/

/-- C12, segment-wise: the translation maps each segment by itself, `:x` to `<x>`; a segment that begins with
neither ':' nor '*' is left alone. -/
theorem C12_segmentwise {uri : Str} (h : uri.head? = some slash) :
    splitB slash (variantUri uri) = (splitB slash uri).map ginSeg ∧
      (∀ s, s.head? ≠ some colon → s.head? ≠ some star → ginSeg s = s) ∧
      (∀ x, ginSeg (colon :: x) = [lt] ++ trimSpace x ++ [gt]) :=
  ⟨splitB_variantUri h, fun _ h1 h2 => ginSeg_plain h1 h2, fun x => by simp [ginSeg]⟩

/-- C12, idempotence. -/
theorem C12_idempotent {uri : Str} (h : uri.head? = some slash) : variantUri (variantUri uri) = variantUri uri :=
  variantUri_idem h

theorem checkRoutes_of {rs : List (Route α)} (h : ∀ v ∈ rs, v.uri = [slash] ∨ checkSplitPattern v.uri = true) :
    checkRoutes rs = .ok (rs.map (fun v => { v with variant := variantUri v.uri })) := by
  induction rs with
  | nil => rfl
  | cons v vs ih =>
    unfold checkRoutes
    have h1 : (v.uri == [slash] || checkSplitPattern v.uri) = true := by
      rcases h v (by simp) with h1 | h1 <;> simp [h1]
    rw [h1, ih (fun x hx => h x (by simp [hx]))]
    rfl

theorem check_variant {uri : Str} (h : uri = [slash] ∨ checkSplitPattern uri = true) :
    variantUri uri = [slash] ∨ checkSplitPattern (variantUri uri) = true := by
  have hhead := head_of_check h
  rcases h with rfl | h
  · left; decide
  · right
    have hh := head_variantUri hhead
    have hs := splitB_variantUri hhead
    unfold checkSplitPattern at h ⊢
    rw [hhead] at h
    rw [hh]
    cases hl : uri.getLast? with
    | none => rw [hl] at h; cases h
    | some l =>
      rw [hl] at h
      simp only [Bool.and_eq_true, bne_iff_ne, ne_eq] at h
      cases hl' : (variantUri uri).getLast? with
      | none => rw [List.getLast?_eq_none_iff] at hl'; rw [hl'] at hh; cases hh
      | some l' =>
        simp only [beq_self_eq_true, Bool.true_and, bne_iff_ne, ne_eq]
        rintro rfl
        obtain ⟨t, ht⟩ : ∃ t, variantUri uri = t ++ [slash] := by
          obtain ⟨t, ht⟩ := List.getLast?_eq_some_iff.1 hl'
          exact ⟨t, ht⟩
        rw [ht, splitB_concat_slash] at hs
        have h1 : ((splitB slash uri).map ginSeg).getLast? = some [] := by rw [← hs]; simp
        rw [List.getLast?_map] at h1
        cases h2 : (splitB slash uri).getLast? with
        | none => rw [h2] at h1; cases h1
        | some x =>
          rw [h2] at h1
          simp only [Option.map_some, Option.some.injEq, ginSeg_eq_nil] at h1
          subst h1
          rcases getLast_splitB h2 with h3 | h3
          · rw [h3] at hhead; cases hhead
          · rw [h3] at hl
            simp at hl
            exact h.2 hl.symm

/-- C12, construction: if the gin-style table builds, so does the translated one. -/
theorem C12_translated_builds {rx : Regex} {st : Bool} {nf : List α} {rs : List (Route α)} {e : Engine α}
    (h : mkEngine rx st nf rs = .ok e) :
    ∃ e', mkEngine rx st nf (rs.map (fun v => { v with uri := variantUri v.uri })) = .ok e' := by
  have hok := (mkEngine_inv h).2.2.2
  unfold mkEngine at h ⊢
  rw [checkRoutes_of hok] at h
  rw [checkRoutes_of (fun v hv => by
    obtain ⟨w, hw, rfl⟩ := List.mem_map.1 hv
    exact check_variant (hok w hw))]
  simp only [bind, Except.bind] at h ⊢
  have h1 := buildTree_erase rx (rs.map (fun v => { v with variant := variantUri v.uri })) (newEngine st nf)
  have h2 := buildTree_erase rx ((rs.map (fun v => { v with uri := variantUri v.uri })).map
    (fun v => { v with variant := variantUri v.uri })) (newEngine st nf)
  have h3 : (rs.map (fun v => { v with variant := variantUri v.uri })).map (fun v => { v with uri := [] }) =
      ((rs.map (fun v => { v with uri := variantUri v.uri })).map
        (fun v => { v with variant := variantUri v.uri })).map (fun v => ({ v with uri := [] } : Route α)) := by
    simp only [List.map_map]
    apply List.map_congr_left
    intro v hv
    simp [variantUri_idem (head_of_check (hok v hv))]
  rw [h, h3] at h1
  rw [← h1] at h2
  cases hb : buildTree rx (newEngine st nf) ((rs.map (fun v => { v with uri := variantUri v.uri })).map
    (fun v => { v with variant := variantUri v.uri })) with
  | ok e' => exact ⟨e', rfl⟩
  | error er => rw [hb] at h2; cases h2

/-- C12, same routing tree: registering the translated paths instead of the gin-style ones yields an engine
that dispatches every request to the same handlers with the same parameters (with or without the static
option). -/
theorem C12_same_dispatch {rx : Regex} {st : Bool} {nf : List α} {rs : List (Route α)} {e e' : Engine α}
    (h : mkEngine rx st nf rs = .ok e)
    (h' : mkEngine rx st nf (rs.map (fun v => { v with uri := variantUri v.uri })) = .ok e') (m path : Str) :
    (routeOf rx e m path).map (·.handlers) = (routeOf rx e' m path).map (·.handlers) ∧
      paramsOf rx e m path = paramsOf rx e' m path := by
  have hslash := (mkEngine_inv h).2.2.2
  have herase : eraseE e = eraseE e' := by
    unfold mkEngine at h h'
    cases hc : checkRoutes rs with
    | error er => rw [hc] at h; simp [bind, Except.bind] at h
    | ok rs1 =>
      cases hc' : checkRoutes (rs.map (fun v => { v with uri := variantUri v.uri })) with
      | error er => rw [hc'] at h'; simp [bind, Except.bind] at h'
      | ok rs2 =>
        rw [hc] at h; rw [hc'] at h'
        simp only [bind, Except.bind] at h h'
        have h1 := buildTree_erase rx rs1 (newEngine st nf)
        have h2 := buildTree_erase rx rs2 (newEngine st nf)
        rw [h] at h1; rw [h'] at h2
        have h3 : rs1.map (fun v => { v with uri := [] }) = rs2.map (fun v => { v with uri := [] }) := by
          rw [(checkRoutes_ok hc).1, (checkRoutes_ok hc').1]
          simp only [List.map_map]
          apply List.map_congr_left
          intro v hv
          simp [variantUri_idem (head_of_check (hslash v hv))]
        rw [h3] at h1
        rw [← h1] at h2
        simp only [Except.map, Except.ok.injEq] at h2
        exact h2.symm
  unfold routeOf paramsOf
  cases methodIndex m with
  | none => exact ⟨rfl, rfl⟩
  | some i =>
    simp only []
    have h1 := lookup_erase rx e i path
    have h2 := lookup_erase rx e' i path
    rw [herase] at h1
    rw [h1] at h2
    simp only [Prod.mk.injEq] at h2
    refine ⟨?_, by rw [h2.2]⟩
    have : ∀ o : Option (EndNode α), o.map (·.handlers) = (o.map eraseEnd).map (·.handlers) := by
      intro o; cases o <;> rfl
    rw [this, h2.1, ← this]

example : variantUri b!"/user/:name/x:y/* z " = b!"/user/<name>/x:y/* z" := by decide

example : withEngine false [get b!"/user/:name/*rest" [1]] (fun e =>
      run e mGET b!"/user/bob/a/b" == some [1] && param e mGET b!"/user/bob/a/b" b!"name" == some b!"bob") = true ∧
    withEngine false [get b!"/user/<name>/*rest" [1]] (fun e =>
      run e mGET b!"/user/bob/a/b" == some [1] && param e mGET b!"/user/bob/a/b" b!"name" == some b!"bob") = true := by
  decide +kernel

end Water
