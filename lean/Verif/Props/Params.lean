import Verif.Lemmas.Trail
import Verif.Props.Compose
/-
C106: the parameter map of a request, exactly. The properties C06 and C07 say when it is what one expects; this one says what it is
in every case.
-/
namespace Water
open Spec Demo
variable {α : Type} {ω : Type}

/-- There is exactly one answer to what a path is served by. -/
theorem C106_picked (rx : Regex) (tbl : List (Spec.Entry α)) (ss : List Str) :
    ∃ ro, Picked rx tbl ss ro ∧ ∀ ro', Picked rx tbl ss ro' → ro' = ro := by
  by_cases h : ∃ x ∈ tbl, Accepts rx x.segs ss
  · obtain ⟨r, h1, h2⟩ := C86_unique h
    refine ⟨some r, h1, ?_⟩
    rintro (_ | r') h'
    · obtain ⟨x, hx, ha⟩ := h
      exact absurd ha (h' x hx)
    · rw [h2 r' h']
  · have hn : ∀ x ∈ tbl, ¬ Accepts rx x.segs ss := fun x hx ha => h ⟨x, hx, ha⟩
    refine ⟨none, hn, ?_⟩
    rintro (_ | r') h'
    · rfl
    · obtain ⟨⟨x, hx, rfl⟩, ha, _⟩ := h'
      exact absurd ha (hn x hx)

theorem picked_unique {rx : Regex} {tbl : List (Spec.Entry α)} {ss : List Str} {ro ro' : Option (List Str)} (h : Picked rx tbl ss ro)
    (h' : Picked rx tbl ss ro') : ro = ro' := by
  obtain ⟨_, _, hu⟩ := C106_picked rx tbl ss
  rw [hu ro h, hu ro' h']

/-- the map the search returns -/
theorem lookup_holds {rx : Regex} {nf : List α} {rs : List (Route α)} {e : Engine α} (h : mkEngine rx false nf rs = .ok e) {m path : Str}
    {i : Nat} (hi : methodIndex m = some i) {ro : Option (List Str)} (hro : Picked rx (tableFor m rs) (pathSegs path) ro) :
    ∃ q, (lookup rx e i path).2 = some q ∧ ∀ x v, q.getD Map.empty x = some v ↔ ParamIs rx (tableFor m rs) (pathSegs path) ro x v := by
  obtain ⟨hinv, hst, _, _⟩ := mkEngine_inv h
  have h1 := hinv m i hi
  unfold lookup
  rw [hst]
  simp only [Bool.false_eq_true, if_false]
  cases ht : e.trees i with
  | none =>
    rw [ht] at h1
    simp only [] at h1
    refine ⟨none, rfl, fun x v => ?_⟩
    rw [h1] at hro ⊢
    simp only [Option.getD_none, Map.empty, reduceCtorEq, false_iff]
    rintro (⟨r, rfl, _⟩ | ⟨_, d, ⟨⟨y, hy, _⟩, _⟩, _⟩)
    · obtain ⟨⟨y, hy, _⟩, _⟩ := hro
      cases hy
    · cases hy
  | some t =>
    rw [ht] at h1
    refine ⟨some (matchUri rx (some t) path).1, rfl, fun x v => ?_⟩
    have hpick : Picked rx (tableFor m rs) (pathSegs path) (pick (sel rx t (pathSegs path))) := by
      rcases hs : sel rx t (pathSegs path) with _ | ⟨r, n⟩
      · exact sel_complete h1.1 hs
      · obtain ⟨h2, h3, h4, h5⟩ := sel_spec h1.1 hs
        exact ⟨firstHandlers_entry h3, h2, h5⟩
    obtain rfl := picked_unique hro hpick
    have hp := matchNext_params rx t 0 (trimSuffix (trimPrefix path [slash]) [slash]) Map.empty h1.1.treeOk x
    have hn := lastCap_newest h1.1 (ss := pathSegs path) (x := x) (v := v)
    rw [← pathSegs_eq] at hp
    have hm : (matchUri rx (some t) path).1 x =
        (matchNext rx t 0 (trimSuffix (trimPrefix path [slash]) [slash]) Map.empty).1 x := rfl
    rw [Option.getD_some, hm, hp]
    unfold ParamIs
    rw [← hn]
    unfold settledBy pick Map.empty
    rcases sel rx t (pathSegs path) with _ | ⟨r, n⟩
    · simp
    · simp only [Option.bind_some, Option.map_some, Option.some.injEq, exists_eq_left', forall_eq', Option.or_none]
      cases (settled rx 0 r (pathSegs path)).lookup x with
      | none => simp
      | some w => simp

/-- **C106.** For every table of registrations, every method and path: a name has a value in the parameter map if and only if the chosen
pattern settles it to that value, or does not settle it and the value is the newest capture of an inner regexp tried before the search
was over. There are no conditions on the patterns; the theorem covers requests that find no route too. -/
theorem C106_exact {rx : Regex} {nf : List α} {rs : List (Route α)} {e : Engine α} (h : mkEngine rx false nf rs = .ok e) {m path : Str}
    (hm : (methodIndex m).isSome) {ro : Option (List Str)} (hro : Picked rx (tableFor m rs) (pathSegs path) ro) (x v : Str) :
    (paramsOf rx e m path).getD Map.empty x = some v ↔ ParamIs rx (tableFor m rs) (pathSegs path) ro x v := by
  obtain ⟨i, hi⟩ := Option.isSome_iff_exists.1 hm
  obtain ⟨q, hq, hh⟩ := lookup_holds h hi hro
  rw [← hh]
  unfold paramsOf
  rw [hi]
  simp only [hq, Option.join_some]

/-- **C89 (found, exact parameters, partial).** As `C89_found_partial`, without conditions on the patterns: the parameters are those of
C106. Missing: what the handlers do wrong in C88, and the static-route option (C13, C34). -/
theorem C89_found_exact_partial {rx : Regex} {o : Oracle} {nf : List (Prog ω)} {rs : List (Route (Prog ω))} {e : Engine (Prog ω)}
    (h : mkEngine rx false nf rs = .ok e) {req : Req} (hr : Routed req) {r : List Str} {hs : List (Prog ω)} {u : Str}
    (hb : Best rx (tableFor req.method rs) (pathSegs req.path) r) (hf : FirstHandlers (tableFor req.method rs) r hs)
    (hu : LastUri (tableFor req.method rs) r u) (hone : ∀ h ∈ hs, Single h) (c : Ctx ω) (rw : Writer) (body : Option Str) (w : ω) :
    ∃ ps : Params, (∀ x v, ps x = some v ↔ ParamIs rx (tableFor req.method rs) (pathSegs req.path) (some r) x v) ∧
      Composed (serve rx o e c req rw body w) o req hs (fresh (some u) ps rw body w) := by
  obtain ⟨i, hi⟩ := hr.index
  obtain ⟨q, hq, hh⟩ := lookup_holds h hi (ro := some r) hb
  have hserved := (C86_served h req.method req.path hs u).2 ⟨r, hb, hf, hu⟩
  refine ⟨q.getD Map.empty, hh, ?_⟩
  cases hno : routeOf rx e req.method req.path with
  | none => rw [hno] at hserved; cases hserved
  | some n =>
    rw [hno] at hserved
    simp only [Option.map_some, Option.some.injEq, Prod.mk.injEq] at hserved
    obtain ⟨rfl, rfl⟩ := hserved
    simp only [routeOf, hi] at hno
    rw [serve_routed hr.ungated hi, serveRouted_chain (hs := n.handlers) (by rw [hno]; rfl), hno, hq]
    have hcomp := C88_composition_partial o req (startSt c n.handlers (some n.uri) (some q) rw body w) rfl hone
    have hstart : unchained (startSt c n.handlers (some n.uri) (some q) rw body w) =
        fresh (some n.uri) (q.getD Map.empty) rw body w := by
      cases q <;> rfl
    rw [hstart] at hcomp
    have hh : (startSt c n.handlers (some n.uri) (some q) rw body w).ctx.handlers = n.handlers := rfl
    rw [hh] at hcomp
    unfold Composed
    simp only [Option.map_some]
    rw [hcomp]
    exact ⟨rfl, rfl, rfl, rfl⟩

/-- **C89 (not found, exact parameters, partial).** As `C89_missing_partial`, without conditions on the patterns: the not-found handlers
see the newest captures of the regexps that were tried. -/
theorem C89_missing_exact_partial {rx : Regex} {o : Oracle} {nf : List (Prog ω)} {rs : List (Route (Prog ω))} {e : Engine (Prog ω)}
    (h : mkEngine rx false nf rs = .ok e) {req : Req} (hr : Routed req) (hnone : ∀ v ∈ rs, v.method = req.method → ¬ RouteAccepts rx v req.path)
    (hnf : nf ≠ []) (hone : ∀ h ∈ nf, Single h) (c : Ctx ω) (rw : Writer) (body : Option Str) (w : ω) :
    ∃ ps : Params, (∀ x v, ps x = some v ↔ Newest rx (tableFor req.method rs) (pathSegs req.path) none x v) ∧
      Composed (serve rx o e c req rw body w) o req nf (fresh none ps rw body w) := by
  obtain ⟨i, hi⟩ := hr.index
  obtain ⟨_, _, hnfe, _⟩ := mkEngine_inv h
  have hpk : Picked rx (tableFor req.method rs) (pathSegs req.path) none := by
    intro y hy ha
    obtain ⟨v, hv, hvm, rfl⟩ := mem_tableFor.1 hy
    exact hnone v hv hvm ha
  obtain ⟨q, hq, hh⟩ := lookup_holds h hi hpk
  have hno := (C02_not_found_iff h req.method req.path).2 hnone
  simp only [routeOf, hi] at hno
  refine ⟨q.getD Map.empty, fun x v => (hh x v).trans (by simp [ParamIs]), ?_⟩
  have hch : chainFor e (lookup rx e i req.path).1 = some nf := by
    rw [hno]
    unfold chainFor
    rw [hnfe, if_pos (by simpa using hnf)]
  rw [serve_routed hr.ungated hi, serveRouted_chain hch, hno, hq]
  have hcomp := C88_composition_partial o req (startSt c nf none (some q) rw body w) rfl hone
  have hstart : unchained (startSt c nf none (some q) rw body w) = fresh none (q.getD Map.empty) rw body w := by
    cases q <;> rfl
  rw [hstart] at hcomp
  have hh : (startSt c nf none (some q) rw body w).ctx.handlers = nf := rfl
  rw [hh] at hcomp
  unfold Composed
  simp only [Option.map_none]
  rw [hcomp]
  exact ⟨rfl, rfl, rfl, rfl⟩

/-- **C89 (static routes, exact parameters, partial).** As `C89_static_partial`, with the parameters of C106 in the first case. -/
theorem C89_static_exact_partial {rx : Regex} {o : Oracle} {nf : List (Prog ω)} {rs : List (Route (Prog ω))} {e : Engine (Prog ω)}
    (h : mkEngine rx true nf rs = .ok e) {req : Req} (hr : Routed req) {r : List Str} {hs : List (Prog ω)} {u : Str}
    (hplain : ∀ v ∈ rs, v.method = req.method → Plain v.uri)
    (hb : Best rx (tableFor req.method rs) (pathSegs req.path) r) (hf : FirstHandlers (tableFor req.method rs) r hs)
    (hu : LastUri (tableFor req.method rs) r u) (hone : ∀ h ∈ hs, Single h) (c : Ctx ω) (rw : Writer) (body : Option Str) (w : ω) :
    (∃ ps : Params, (∀ x v, ps x = some v ↔ ParamIs rx (tableFor req.method rs) (pathSegs req.path) (some r) x v) ∧
      Composed (serve rx o e c req rw body w) o req hs (fresh (some u) ps rw body w)) ∨
    (Composed (serve rx o e c req rw body w) o req hs (fresh (some u) c.params rw body w) ∧
      ∃ v ∈ rs, v.method = req.method ∧ req.path = variantUri v.uri ∧ ∀ p ∈ routeSegs v.uri, kind p = .literal) := by
  obtain ⟨e0, h0⟩ := C13_same_construction.1 ⟨e, h⟩
  obtain ⟨i, hi⟩ := hr.index
  have hserved := (C86_served h0 req.method req.path hs u).2 ⟨r, hb, hf, hu⟩
  have hsame := C13_static_transparent_partial h h0 hplain req.path
  cases hno : routeOf rx e0 req.method req.path with
  | none => rw [hno] at hserved; cases hserved
  | some n =>
    rw [hno] at hserved hsame
    simp only [Option.map_some, Option.some.injEq, Prod.mk.injEq] at hserved
    obtain ⟨rfl, rfl⟩ := hserved
    rcases static_lookup (path := req.path) h h0 hi with hl | ⟨hl, hv⟩
    · left
      obtain ⟨ps, hps, this⟩ := C89_found_exact_partial (o := o) h0 hr hb hf hu hone c rw body w
      refine ⟨ps, hps, ?_⟩
      simp only [routeOf, hi] at hno
      rw [serve_routed hr.ungated hi, serveRouted_chain (hs := n.handlers) (by rw [hno]; rfl)] at this
      rw [serve_routed hr.ungated hi, hl, serveRouted_chain (hs := n.handlers) (by rw [hno]; rfl)]
      exact this
    · right
      refine ⟨?_, hv⟩
      simp only [routeOf, hi] at hsame
      rw [serve_routed hr.ungated hi, serveRouted_chain (hs := n.handlers) (by rw [hsame]; rfl), hsame, hl]
      have hcomp := C88_composition_partial o req (startSt c n.handlers (some n.uri) none rw body w) rfl hone
      have hstart : unchained (startSt c n.handlers (some n.uri) none rw body w) = fresh (some n.uri) c.params rw body w := rfl
      rw [hstart] at hcomp
      have hh : (startSt c n.handlers (some n.uri) none rw body w).ctx.handlers = n.handlers := rfl
      rw [hh] at hcomp
      unfold Composed
      simp only [Option.map_some]
      rw [hcomp]
      exact ⟨rfl, rfl, rfl, rfl⟩

/-- two segments capture `x` before the search settles on the second route: the deeper one, tried later, is the newest. On `/a1/b1/z`
nothing is found, and the capture is there all the same. On `/a1/b2/e` the name is settled by the chosen route. -/
def twoCaptures : List (Route Nat) :=
  [get b!"/<x ~ (a.)>/<x ~ (b.)>/c" [1], get b!"/<y>/<z>/d" [2], get b!"/<x>/<z>/e" [3]]

theorem twoCaptures_holds : ∃ ro ro' ro'',
    Picked rx (tableFor mGET twoCaptures) (pathSegs b!"/a1/b1/d") ro ∧ ParamIs rx (tableFor mGET twoCaptures) (pathSegs b!"/a1/b1/d") ro b!"x" b!"b1" ∧
    Picked rx (tableFor mGET twoCaptures) (pathSegs b!"/a1/b1/z") ro' ∧ ParamIs rx (tableFor mGET twoCaptures) (pathSegs b!"/a1/b1/z") ro' b!"x" b!"b1" ∧
    Picked rx (tableFor mGET twoCaptures) (pathSegs b!"/a1/b1/e") ro'' ∧
      ParamIs rx (tableFor mGET twoCaptures) (pathSegs b!"/a1/b1/e") ro'' b!"x" b!"a1" := by
  have hw : withEngine false twoCaptures (fun e => param e mGET b!"/a1/b1/d" b!"x" == some b!"b1" &&
      param e mGET b!"/a1/b1/z" b!"x" == some b!"b1" && param e mGET b!"/a1/b1/e" b!"x" == some b!"a1") = true := by decide +kernel
  obtain ⟨e, he, hrun⟩ := withEngine_spec hw
  simp only [Bool.and_eq_true, beq_iff_eq] at hrun
  have hpar : ∀ path v, param e mGET path b!"x" = some v → (paramsOf rx e mGET path).getD Map.empty b!"x" = some v := by
    intro path v h
    unfold param at h
    revert h
    cases paramsOf rx e mGET path with
    | none => simp
    | some ps => simp
  obtain ⟨ro, h1, _⟩ := C106_picked rx (tableFor mGET twoCaptures) (pathSegs b!"/a1/b1/d")
  obtain ⟨ro', h2, _⟩ := C106_picked rx (tableFor mGET twoCaptures) (pathSegs b!"/a1/b1/z")
  obtain ⟨ro'', h3, _⟩ := C106_picked rx (tableFor mGET twoCaptures) (pathSegs b!"/a1/b1/e")
  have hm : (methodIndex mGET).isSome := by decide +kernel
  exact ⟨ro, ro', ro'', h1, (C106_exact he hm h1 _ _).1 (hpar _ _ hrun.1.1), h2, (C106_exact he hm h2 _ _).1 (hpar _ _ hrun.1.2), h3,
    (C106_exact he hm h3 _ _).1 (hpar _ _ hrun.2)⟩

end Water
