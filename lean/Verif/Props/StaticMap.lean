import Verif.Lemmas.StaticMap
import Verif.Props.Params
/-
C107: the dispatch with the static-route option, exactly. C13 says when the option makes no difference; this says what it does in every
case.
-/
namespace Water
open Spec Demo
variable {α : Type} {ω : Type}

theorem same_trees {rx : Regex} {nf : List α} {rs : List (Route α)} {e e0 : Engine α}
    (h : mkEngine rx true nf rs = .ok e) (h0 : mkEngine rx false nf rs = .ok e0) : e.trees = e0.trees := by
  unfold mkEngine at h h0
  cases hc : checkRoutes rs with
  | error er => rw [hc] at h; simp [bind, Except.bind] at h
  | ok rs' =>
    rw [hc] at h h0
    simp only [bind, Except.bind] at h h0
    obtain ⟨e1', h1, h2⟩ := buildTree_trees (e := newEngine true nf) (e' := newEngine false nf) rfl h
    rw [h0] at h1; injection h1 with h1; subst h1; exact h2.symm

/-- a request is a hit in the static map exactly if its path is registered and literal -/
theorem lookup_static {rx : Regex} {nf : List α} {rs : List (Route α)} {e e0 : Engine α}
    (h : mkEngine rx true nf rs = .ok e) (h0 : mkEngine rx false nf rs = .ok e0) {m path : Str} {i : Nat} (hi : methodIndex m = some i) :
    (StaticAt rs m path ∧ ∃ n, lookup rx e i path = (some n, none) ∧ FirstHandlers (tableFor m rs) (routeSegs path) n.handlers ∧
      LastUri (tableFor m rs) (routeSegs path) n.uri) ∨
    (¬ StaticAt rs m path ∧ lookup rx e i path = lookup rx e0 i path) := by
  obtain ⟨hinv, hst, _, hchk⟩ := mkEngine_inv h
  obtain ⟨_, hst0, _, _⟩ := mkEngine_inv h0
  have hb := hinv m i hi
  by_cases hat : StaticAt rs m path
  · refine .inl ⟨hat, ?_⟩
    obtain ⟨v, hv, rfl, rfl, hl⟩ := hat
    have hmap := mkEngine_staticAll h v hv hl i hi
    rw [variantUri_of_literal (hchk v hv) hl] at hmap
    have hx : (⟨routeSegs v.uri, v.handlers, v.uri⟩ : Spec.Entry α) ∈ tableFor v.method rs := mem_tableFor.2 ⟨v, hv, rfl, rfl⟩
    cases ht : e.trees i with
    | none => rw [ht] at hb; rw [hb] at hx; cases hx
    | some t =>
      rw [ht] at hb
      obtain ⟨n, h1, h2, h3⟩ := endAt_complete hb.1 hx (routeSegs_ne_nil _)
      refine ⟨n, ?_, h2, h3⟩
      simp only [] at h1
      unfold lookup
      simp only [hst, if_true, hmap, ht, h1]
  · refine .inr ⟨hat, ?_⟩
    have hno : e.statics i path = none := by
      cases hs : e.statics i path with
      | none => rfl
      | some segs =>
        obtain ⟨v, hv, h1, h2, h3, h4⟩ := mkEngine_static h m i hi path segs hs
        rw [← h3] at h4
        exact absurd ⟨v, hv, h1, by rw [← h2, variantUri_of_literal (hchk v hv) h4], h4⟩ hat
    unfold lookup
    simp only [hst, hst0, if_true, Bool.false_eq_true, if_false, hno, same_trees h h0]

/-- **C107 (dispatch).** With the option on, a request is served with these handlers and this full path if and only if its path is a
registered literal and they are those of its pattern, or it is not and they are those of the best pattern. -/
theorem C107_served {rx : Regex} {nf : List α} {rs : List (Route α)} {e : Engine α} (h : mkEngine rx true nf rs = .ok e) (m path : Str)
    (hs : List α) (u : Str) :
    (routeOf rx e m path).map (fun n => (n.handlers, n.uri)) = some (hs, u) ↔ StaticChosen rx rs m path hs u := by
  obtain ⟨e0, h0⟩ := C13_same_construction.1 ⟨e, h⟩
  have hold := C86_served h0 m path hs u
  cases hi : methodIndex m with
  | none =>
    have hno : ∀ v ∈ rs, v.method ≠ m := by
      rintro v hv rfl
      have := mkEngine_methods h v hv
      rw [hi] at this
      cases this
    simp only [routeOf, hi, Option.map_none, reduceCtorEq, false_iff] at hold ⊢
    rintro (⟨⟨v, hv, hm, _⟩, _⟩ | ⟨_, hc⟩)
    · exact hno v hv hm
    · exact hold hc
  | some i =>
    simp only [routeOf, hi] at hold ⊢
    unfold StaticChosen
    rcases lookup_static (path := path) h h0 hi with ⟨hat, n, hn, h2, h3⟩ | ⟨hat, hl⟩
    · rw [hn]
      simp only [hat, Option.map_some, Option.some.injEq, Prod.mk.injEq, true_and, not_true, false_and, or_false]
      constructor
      · rintro ⟨rfl, rfl⟩; exact ⟨h2, h3⟩
      · rintro ⟨h4, h5⟩; exact ⟨firstHandlers_unique h2 h4, lastUri_unique h3 h5⟩
    · rw [hl, hold]
      simp [hat]

/-- **C107 (parameters).** A hit in the static map is exactly a path registered as a literal, and leaves the parameters of the context
alone; every other request sets them to what C106 says. -/
theorem C107_params {rx : Regex} {nf : List α} {rs : List (Route α)} {e : Engine α} (h : mkEngine rx true nf rs = .ok e) {m path : Str}
    {i : Nat} (hi : methodIndex m = some i) :
    ((lookup rx e i path).2 = none ↔ StaticAt rs m path) ∧
    ∀ q, (lookup rx e i path).2 = some q → ∀ ro, Picked rx (tableFor m rs) (pathSegs path) ro →
      ∀ x v, q.getD Map.empty x = some v ↔ ParamIs rx (tableFor m rs) (pathSegs path) ro x v := by
  obtain ⟨e0, h0⟩ := C13_same_construction.1 ⟨e, h⟩
  rcases lookup_static (path := path) h h0 hi with ⟨hat, n, hn, _⟩ | ⟨hat, hl⟩
  · rw [hn]
    exact ⟨by simp [hat], fun q hq => by cases hq⟩
  · obtain ⟨ro0, hro0, _⟩ := C106_picked rx (tableFor m rs) (pathSegs path)
    rw [hl]
    refine ⟨?_, fun q hq ro hro => ?_⟩
    · obtain ⟨q, hq, _⟩ := lookup_holds h0 hi hro0
      simp [hq, hat]
    · obtain ⟨q', hq', hh⟩ := lookup_holds h0 hi hro
      rw [hq] at hq'
      injection hq' with hq'
      subst hq'
      exact hh

/-- **C107 (difference).** The option changes the end node of a request exactly if its path is registered as a literal and that pattern
is not the one the tree would choose. -/
theorem C107_differs {rx : Regex} {nf : List α} {rs : List (Route α)} {e e0 : Engine α} (h : mkEngine rx true nf rs = .ok e)
    (h0 : mkEngine rx false nf rs = .ok e0) {m path : Str} {hs : List α} {u : Str} :
    ((routeOf rx e m path).map (fun n => (n.handlers, n.uri)) = some (hs, u) ∧
      (routeOf rx e0 m path).map (fun n => (n.handlers, n.uri)) ≠ some (hs, u)) ↔
    StaticAt rs m path ∧ FirstHandlers (tableFor m rs) (routeSegs path) hs ∧ LastUri (tableFor m rs) (routeSegs path) u ∧
      ¬ Chosen rx (tableFor m rs) (pathSegs path) hs u := by
  rw [ne_eq, C107_served h, C86_served h0]
  unfold StaticChosen
  constructor
  · rintro ⟨⟨h1, h2, h3⟩ | ⟨h1, h2⟩, h4⟩
    · exact ⟨h1, h2, h3, h4⟩
    · exact absurd h2 h4
  · rintro ⟨h1, h2, h3, h4⟩
    exact ⟨.inl ⟨h1, h2, h3⟩, h4⟩

/-- **C89 (static routes, any table, partial).** A path registered as a literal is served with the handlers of its pattern, and with the
parameters left in the context by the request before. Missing: what the handlers do wrong in C88. -/
theorem C89_static_hit_partial {rx : Regex} {o : Oracle} {nf : List (Prog ω)} {rs : List (Route (Prog ω))} {e : Engine (Prog ω)}
    (h : mkEngine rx true nf rs = .ok e) {req : Req} (hr : Routed req) {hs : List (Prog ω)} {u : Str}
    (hat : StaticAt rs req.method req.path) (hf : FirstHandlers (tableFor req.method rs) (routeSegs req.path) hs)
    (hu : LastUri (tableFor req.method rs) (routeSegs req.path) u) (hone : ∀ h ∈ hs, Single h) (c : Ctx ω) (rw : Writer)
    (body : Option Str) (w : ω) : Composed (serve rx o e c req rw body w) o req hs (fresh (some u) c.params rw body w) := by
  obtain ⟨e0, h0⟩ := C13_same_construction.1 ⟨e, h⟩
  obtain ⟨i, hi⟩ := hr.index
  rcases lookup_static (path := req.path) h h0 hi with ⟨_, n, hn, h2, h3⟩ | ⟨hno, _⟩
  · obtain rfl := firstHandlers_unique h2 hf
    obtain rfl := lastUri_unique h3 hu
    rw [serve_routed hr.ungated hi, serveRouted_chain (hs := n.handlers) (by rw [hn]; rfl), hn]
    have hcomp := C88_composition_partial o req (startSt c n.handlers (some n.uri) none rw body w) rfl hone
    have hstart : unchained (startSt c n.handlers (some n.uri) none rw body w) = fresh (some n.uri) c.params rw body w := rfl
    rw [hstart] at hcomp
    have hh : (startSt c n.handlers (some n.uri) none rw body w).ctx.handlers = n.handlers := rfl
    rw [hh] at hcomp
    unfold Composed
    simp only [Option.map_some]
    rw [hcomp]
    exact ⟨rfl, rfl, rfl, rfl⟩
  · exact absurd hat hno

/-- **C107 (other paths).** With the option on, a path that is not registered as a literal is served as without it: the same outcome,
response, world and parsed forms, for every request and context, whatever the handlers do. -/
theorem C107_miss {rx : Regex} {o : Oracle} {nf : List (Prog ω)} {rs : List (Route (Prog ω))} {e e0 : Engine (Prog ω)}
    (h : mkEngine rx true nf rs = .ok e) (h0 : mkEngine rx false nf rs = .ok e0) {req : Req}
    (hat : ¬ StaticAt rs req.method req.path) (c : Ctx ω) (rw : Writer) (body : Option Str) (w : ω) :
    serve rx o e c req rw body w = serve rx o e0 c req rw body w := by
  have hnf : e.noFound = e0.noFound := (mkEngine_inv h).2.2.1.trans (mkEngine_inv h0).2.2.1.symm
  unfold serve
  split
  · rfl
  · cases hi : methodIndex req.method with
    | none => rfl
    | some i =>
      rcases lookup_static (path := req.path) h h0 hi with ⟨hyes, _⟩ | ⟨_, hl⟩
      · exact absurd hyes hat
      · simp only [hl]
        unfold serveRouted
        simp only [chainFor, hnf]

/-- `/a//b` is registered as it stands, so it is served by its own route, and the tree alone would find `/a/<x>/b`, for the empty
segment; `/a/c` is served alike with and without the option, and so are the paths that are not registered -/
example : withEngine true [get b!"/a//b" [1], get b!"/a/<x>/b" [2], get b!"/a/c" [3], get b!"/<y>/c" [4]] (fun e =>
      Demo.run e mGET b!"/a//b" == some [1] && Demo.run e mGET b!"/a/c" == some [3] && Demo.run e mGET b!"/d/c" == some [4]) = true ∧
    withEngine false [get b!"/a//b" [1], get b!"/a/<x>/b" [2], get b!"/a/c" [3], get b!"/<y>/c" [4]] (fun e =>
      Demo.run e mGET b!"/a//b" == some [2] && Demo.run e mGET b!"/a/c" == some [3] && Demo.run e mGET b!"/d/c" == some [4]) = true := by
  decide +kernel

example : StaticAt [get b!"/a//b" [1], get b!"/a/<x>/b" [2]] mGET b!"/a//b" := ⟨_, List.mem_cons_self, rfl, rfl, by decide +kernel⟩

/-- **C05 (exactly).** A route made of literals, with no empty segment, is beaten for its own path by nothing but another spelling of
the same pattern: whatever else is registered, its path is served with the handlers of the first registration of its pattern. -/
theorem C05_exact {rx : Regex} {nf : List α} {rs : List (Route α)} {e : Engine α} (h : mkEngine rx false nf rs = .ok e) {v : Route α}
    (hv : v ∈ rs) (hplain : Plain v.uri) (hlit : ∀ p ∈ routeSegs v.uri, kind p = .literal) (hs : List α) (u : Str) :
    (routeOf rx e v.method v.uri).map (fun n => (n.handlers, n.uri)) = some (hs, u) ↔
      FirstHandlers (tableFor v.method rs) (routeSegs v.uri) hs ∧ LastUri (tableFor v.method rs) (routeSegs v.uri) u := by
  obtain ⟨_, hps⟩ := variantUri_literal hplain hlit
  have hx : (⟨routeSegs v.uri, v.handlers, v.uri⟩ : Spec.Entry α) ∈ tableFor v.method rs := mem_tableFor.2 ⟨v, hv, rfl, rfl⟩
  have hacc : Accepts rx (routeSegs v.uri) (pathSegs v.uri) := by rw [hps]; exact accepts_refl (routeSegs_ne_nil _) hlit
  rw [C86_served h]
  have hbest : ∀ r, Best rx (tableFor v.method rs) (pathSegs v.uri) r → r = routeSegs v.uri := by
    rintro r ⟨hr, ha, hw⟩
    rw [hps] at ha hw
    exact selected_literal ha hw hx rfl hlit
  constructor
  · rintro ⟨r, hb, hf, hu⟩
    obtain rfl := hbest r hb
    exact ⟨hf, hu⟩
  · rintro ⟨hf, hu⟩
    obtain ⟨r, hb, _⟩ := C86_unique ⟨_, hx, hacc⟩
    obtain rfl := hbest r hb
    exact ⟨_, hb, hf, hu⟩

/-- **C05 (static option).** With the static-route option there is no exception at all: a route made of literals gets the requests for
its own path, if it is the first registration of its pattern. -/
theorem C05_static {rx : Regex} {nf : List α} {rs : List (Route α)} {e : Engine α} (h : mkEngine rx true nf rs = .ok e) {v : Route α}
    (hv : v ∈ rs) (hlit : ∀ p ∈ routeSegs v.uri, kind p = .literal) (hs : List α) (u : Str) :
    (routeOf rx e v.method v.uri).map (fun n => (n.handlers, n.uri)) = some (hs, u) ↔
      FirstHandlers (tableFor v.method rs) (routeSegs v.uri) hs ∧ LastUri (tableFor v.method rs) (routeSegs v.uri) u := by
  have hat : StaticAt rs v.method v.uri := ⟨v, hv, rfl, rfl, hlit⟩
  rw [C107_served h]
  simp [StaticChosen, hat]

end Water
