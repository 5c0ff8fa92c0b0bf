import Verif.Lemmas.Handler
import Verif.Props.Static
/-
Properties C15-C21 and C66: registering routes and building the engine.
`runOps [] ops = .ok heap` says that the registration calls `ops` were made without a panic. The statements
speak about the history of calls `ops` (Spec/Register.lean), not about the heap of routers.
-/
namespace Water
open Spec Demo
variable {α : Type}

/-- Handler succeeded: what it built, in terms of the history -/
theorem handler_ok {rx : Regex} {ops : List (Op α)} {heap : Heap α} (h : runOps [] ops = .ok heap) {r : Nat}
    {opts : List (Opt α)} {e : Engine α} (he : handler rx heap r opts = .ok e) :
    IsRoot ops r ∧ ∃ es : List (Nat × List Nat),
      (∀ x, x ∈ es ↔ Under ops r x.1 x.2 ∧ Childless ops x.1) ∧ es.Pairwise (fun a b => Precedes a.2 b.2) ∧
      (∀ x ∈ opts, OptOk x) ∧ (∀ x ∈ noFoundOf ops r opts, (payload x).isSome) ∧ (∀ x ∈ es, GoodChain ops r x) ∧
      NoDouble (routesOf ops r es) ∧ (∃ o, dumpFor heap r opts = .ok (o, routesOf ops r es)) ∧
      mkEngine rx (staticOf opts) ((noFoundOf ops r opts).filterMap payload) (routesOf ops r es) = .ok e := by
  have hr := run_reflects h
  unfold handler at he
  cases hd : dumpFor heap r opts with
  | error er => rw [hd] at he; cases he
  | ok x =>
    obtain ⟨o, rs⟩ := x
    rw [hd] at he
    simp only [bind, Except.bind] at he
    have hroot : IsRoot ops r := by
      unfold dumpFor at hd
      cases hn : heap[r]? with
      | none => rw [hn] at hd; cases hd
      | some n =>
        rw [hn] at hd
        simp only [] at hd
        by_cases hm : n.method ≠ []
        · rw [if_pos hm] at hd; cases hd
        · rw [if_neg hm] at hd
          by_cases hp : n.parent ≠ none
          · rw [if_pos hp] at hd; cases hd
          · have hlt := (List.getElem?_eq_some_iff.1 hn).1
            rw [hr.1] at hlt
            have hc : (made ops)[r]? = some (made ops)[r] := by simp [hlt]
            have ho := hr.2 r n _ hn hc
            exact ⟨_, hc, by rw [← ho.parent]; simpa using hp⟩
    obtain ⟨es, h1, h2, h3, h4, _⟩ := handler_spec hr hroot opts
    obtain ⟨h5, h6, h7, h8⟩ := h3.1 ⟨_, hd⟩
    obtain ⟨h9, h10, h11, h12⟩ := h4 o rs hd
    rw [h9, h10, h12] at he
    exact ⟨hroot, es, h1, h2, h5, h6, h7, h8, ⟨o, by rw [h12]⟩, he⟩

/-! ## C15 -/

theorem lineage_eq_of {ops : List (Op α)} {r i : Nat} {l l' : List Nat} (h : Under ops r i l) (h' : Under ops r i l') :
    l = l' := h.1.unique h'.1

/-- the routes of the endpoints have no double exactly when no two endpoints share method and path -/
theorem noDouble_iff {ops : List (Op α)} {heap : Heap α} (h : Reflects ops heap) {r : Nat} {es : List (Nat × List Nat)}
    (hes : ∀ e, e ∈ es ↔ Under ops r e.1 e.2 ∧ Childless ops e.1)
    (hord : es.Pairwise (fun a b => Precedes a.2 b.2)) :
    NoDouble (routesOf ops r es) ↔ ∀ i l j k, Endpoint ops r i l → Endpoint ops r j k → i ≠ j →
      ¬ (methodOf ops i = methodOf ops j ∧ fullPath ops l = fullPath ops k) := by
  have hpre : ∀ {a b : List Nat}, Precedes a b → a ≠ b := by
    rintro a b ⟨c, x, s, y, t, rfl, rfl, hlt⟩ heq
    have := List.append_cancel_left heq
    injection this with h1 _
    omega
  unfold NoDouble routesOf
  rw [List.pairwise_map]
  constructor
  · intro hp i l j k hi hj hne ⟨hm, hu⟩
    have key : ∀ i l, Endpoint ops r i l → (i, l) ∈ es.filter (fun e => methodOf ops e.1 ≠ []) := by
      intro i l he
      rw [List.mem_filter]
      refine ⟨(hes (i, l)).2 ⟨he.1, endpoint_childless h he⟩, ?_⟩
      obtain ⟨_, c, hc, hm⟩ := he
      rw [(getElem_handlersOf hc).1]
      simpa using hm
    have h1 := key i l hi
    have h2 := key j k hj
    have hneq : ((i, l) : Nat × List Nat) ≠ (j, k) := by intro hx; injection hx with hx _; exact hne hx
    rcases List.getElem_of_mem h1 with ⟨a, ha, ha'⟩
    rcases List.getElem_of_mem h2 with ⟨b, hb, hb'⟩
    have hab : a ≠ b := by rintro rfl; exact hneq (ha'.symm.trans hb')
    rcases Nat.lt_or_gt_of_ne hab with hlt | hlt
    · have := (List.pairwise_iff_getElem.1 hp) a b ha hb hlt
      rw [ha', hb'] at this
      exact this ⟨hm, hu⟩
    · have := (List.pairwise_iff_getElem.1 hp) b a hb ha hlt
      rw [ha', hb'] at this
      exact this ⟨hm.symm, hu.symm⟩
  · intro hall
    have hord' := List.Pairwise.filter (fun e : Nat × List Nat => methodOf ops e.1 ≠ []) hord
    refine hord'.imp_of_mem ?_
    intro a b ha hb hab
    rw [List.mem_filter] at ha hb
    have hend : ∀ x : Nat × List Nat, x ∈ es → decide (methodOf ops x.1 ≠ []) = true → Endpoint ops r x.1 x.2 := by
      intro x hx hm
      have hu := ((hes x).1 hx).1
      have hlt := hu.1.lt
      have hc : (made ops)[x.1]? = some (made ops)[x.1] := by simp [hlt]
      rw [(getElem_handlersOf hc).1] at hm
      exact ⟨hu, _, hc, by simpa using hm⟩
    have ea := hend a ha.1 (by simpa using ha.2)
    have eb := hend b hb.1 (by simpa using hb.2)
    refine hall a.1 a.2 b.1 b.2 ea eb ?_
    intro heq
    refine hpre hab ?_
    have := eb.1
    rw [← heq] at this
    exact lineage_eq_of ea.1 this

/-- C15: two different registrations below a root with the same method and full path make `Handler` fail,
through whatever groups they were made. -/
theorem C15_double_rejected {rx : Regex} {ops : List (Op α)} {heap : Heap α} (h : runOps [] ops = .ok heap) {r : Nat}
    {opts : List (Opt α)} {i j : Nat} {l k : List Nat} (hi : Endpoint ops r i l) (hj : Endpoint ops r j k) (hne : i ≠ j)
    (hm : methodOf ops i = methodOf ops j) (hp : fullPath ops l = fullPath ops k) :
    ∃ p, handler rx heap r opts = .error p := by
  cases he : handler rx heap r opts with
  | error p => exact ⟨p, rfl⟩
  | ok e =>
    obtain ⟨_, es, h1, h2, _, _, _, h3, _⟩ := handler_ok h he
    exact absurd ⟨hm, hp⟩ ((noDouble_iff (run_reflects h) h1 h2).1 h3 i l j k hi hj hne)

/-- C15, the other direction: the double-registration panic is only raised when there is a double. -/
theorem C15_only_doubles {rx : Regex} {ops : List (Op α)} {heap : Heap α} (h : runOps [] ops = .ok heap) {r : Nat}
    (hr : IsRoot ops r) {opts : List (Opt α)} (he : handler rx heap r opts = .error .doubleUri) :
    ∃ i l j k, Endpoint ops r i l ∧ Endpoint ops r j k ∧ i ≠ j ∧ methodOf ops i = methodOf ops j ∧
      fullPath ops l = fullPath ops k := by
  obtain ⟨es, h1, h2, _, _, h5⟩ := handler_spec (run_reflects h) hr opts
  unfold handler at he
  cases hd : dumpFor heap r opts with
  | ok x =>
    rw [hd] at he
    simp only [bind, Except.bind] at he
    exact absurd he mkEngine_not_double
  | error er =>
    rw [hd] at he
    simp only [bind, Except.bind, Except.error.injEq] at he
    subst he
    have := h5 hd
    rw [noDouble_iff (run_reflects h) h1 h2] at this
    apply Classical.byContradiction
    intro hno
    apply this
    intro i l j k hi hj hne hx
    exact hno ⟨i, l, j, k, hi, hj, hne, hx.1, hx.2⟩

/-! ## C16 -/

/-- C16: `Handler` returns an engine exactly when: every not-found option has handlers, and all of them (and,
if there is such an option, the root's `Before` handlers) are supported; every endpoint and every empty group
below the root (and the root, if nothing was made in it) has at least one handler in its chain and only
supported ones; no two endpoints share method and path; every path is `/` or starts and does not end with a
slash; and every path segment is a well-formed pattern. Otherwise it panics. -/
theorem C16_construction {rx : Regex} {ops : List (Op α)} {heap : Heap α} (h : runOps [] ops = .ok heap) {r : Nat}
    (hr : IsRoot ops r) (opts : List (Opt α)) :
    (∃ e, handler rx heap r opts = .ok e) ↔
      (∀ hs, Opt.noFound hs ∈ opts → hs ≠ [] ∧ ∀ x ∈ hs, (payload x).isSome) ∧
      ((∃ hs, Opt.noFound hs ∈ opts) → ∀ x ∈ beforesOf ops r, (payload x).isSome) ∧
      (∀ i l, Under ops r i l → Childless ops i →
        chainOf ops r i l ≠ [] ∧ ∀ x ∈ chainOf ops r i l, (payload x).isSome) ∧
      (∀ i l j k, Endpoint ops r i l → Endpoint ops r j k → i ≠ j →
        ¬ (methodOf ops i = methodOf ops j ∧ fullPath ops l = fullPath ops k)) ∧
      (∀ i l, Endpoint ops r i l → PathForm (fullPath ops l) ∧ ∀ p ∈ routeSegs (fullPath ops l), WellFormed rx p) := by
  have hrf := run_reflects h
  obtain ⟨es, h1, h2, h3, h4, _⟩ := handler_spec hrf hr opts
  have hmem := fun v => mem_routesOf (v := v) h1 hrf
  have hmeth : ∀ v ∈ routesOf ops r es, v.method ∈ methodNames := by
    intro v hv
    obtain ⟨i, l, he, rfl⟩ := (hmem v).1 hv
    obtain ⟨_, c, hc, hm⟩ := he
    obtain ⟨n, _, ho⟩ := nodeAt hrf hc
    show methodOf ops i ∈ methodNames
    rw [(getElem_handlersOf hc).1]
    exact (ho.leaf hm).1
  have hopt : (∀ x ∈ opts, OptOk x) ↔ ∀ hs, Opt.noFound hs ∈ opts → hs ≠ [] ∧ ∀ x ∈ hs, (payload x).isSome := by
    constructor
    · intro hx hs hm; exact hx _ hm
    · intro hx x hm
      cases x with
      | noFound hs => exact hx hs hm
      | staticRouter b => trivial
      | maxMultipart b => trivial
  have hnf : (∀ x ∈ opts, OptOk x) → ((∀ x ∈ noFoundOf ops r opts, (payload x).isSome) ↔
      ((∃ hs, Opt.noFound hs ∈ opts) → ∀ x ∈ beforesOf ops r, (payload x).isSome)) := by
    intro hall
    unfold noFoundOf
    cases hg : noFoundGiven opts with
    | none =>
      have := noFoundGiven_none.1 hg
      refine iff_of_true (by simp) ?_
      rintro ⟨hs, hm⟩; exact absurd hm (this hs)
    | some hs =>
      have hm := noFoundGiven_mem hg
      constructor
      · intro hx _ x hxm; exact hx x (List.mem_append_left _ hxm)
      · intro hx x hxm
        rcases List.mem_append.1 hxm with hxm | hxm
        · exact hx ⟨hs, hm⟩ x hxm
        · exact (hall _ hm).2 x hxm
  have hgood : (∀ e ∈ es, GoodChain ops r e) ↔ ∀ i l, Under ops r i l → Childless ops i →
        chainOf ops r i l ≠ [] ∧ ∀ x ∈ chainOf ops r i l, (payload x).isSome := by
    constructor
    · intro hx i l hu hc; exact hx (i, l) ((h1 (i, l)).2 ⟨hu, hc⟩)
    · intro hx e he
      obtain ⟨hu, hc⟩ := (h1 e).1 he
      exact hx e.1 e.2 hu hc
  have hform : (∀ v ∈ routesOf ops r es, PathForm v.uri ∧ ∀ p ∈ routeSegs v.uri, WellFormed rx p) ↔
      ∀ i l, Endpoint ops r i l → PathForm (fullPath ops l) ∧ ∀ p ∈ routeSegs (fullPath ops l), WellFormed rx p := by
    constructor
    · intro hx i l he; exact hx (routeFor ops r (i, l)) ((hmem _).2 ⟨i, l, he, rfl⟩)
    · intro hx v hv
      obtain ⟨i, l, he, rfl⟩ := (hmem v).1 hv
      exact hx i l he
  rw [← hform, ← noDouble_iff hrf h1 h2, ← hgood, ← hopt]
  constructor
  · rintro ⟨e, he⟩
    unfold handler at he
    cases hd : dumpFor heap r opts with
    | error er => rw [hd] at he; cases he
    | ok x =>
      obtain ⟨o, rs⟩ := x
      rw [hd] at he
      simp only [bind, Except.bind] at he
      obtain ⟨a, b, c, d⟩ := h3.1 ⟨_, hd⟩
      obtain ⟨_, _, _, hrs⟩ := h4 o rs hd
      subst hrs
      exact ⟨a, (hnf a).1 b, c, d, (mkEngine_iff hmeth).1 ⟨e, he⟩⟩
  · rintro ⟨a, b, c, d, f⟩
    obtain ⟨⟨o, rs⟩, hd⟩ := h3.2 ⟨a, (hnf a).2 b, c, d⟩
    obtain ⟨_, _, _, hrs⟩ := h4 o rs hd
    subst hrs
    unfold handler
    rw [hd]
    exact (mkEngine_iff hmeth).2 f

/-- C16, sub routers: a router that was made by `Group` (or an end point) never gets an engine, whatever the
options. -/
theorem C16_sub {rx : Regex} {ops : List (Op α)} {heap : Heap α} (h : runOps [] ops = .ok heap) {r : Nat}
    {opts : List (Opt α)} {c : Made α} (hc : (made ops)[r]? = some c) (hp : c.parent ≠ none) :
    ∃ e, handler rx heap r opts = .error e := by
  have hr := run_reflects h
  have hl : r < heap.length := by
    have := (List.getElem?_eq_some_iff.1 hc).1
    have h2 := hr.1
    omega
  have hn := hr.2 r _ c (List.getElem?_eq_getElem hl) hc
  have hpar := hn.parent
  have : ∃ e, dumpFor heap r opts = .error e := by
    unfold dumpFor
    rw [List.getElem?_eq_getElem hl]
    simp only []
    split
    · exact ⟨_, rfl⟩
    · rw [if_pos (by rw [hpar]; exact hp)]
      exact ⟨_, rfl⟩
  obtain ⟨e, he⟩ := this
  exact ⟨e, by unfold handler; rw [he]; rfl⟩

/-- a group of a real history: the hypotheses of `C16_sub` hold -/
example : (made ([.newRouter, .group 0 b!"/g"] : List (Op Nat)))[1]?.any (fun c => c.parent.isSome) = true ∧
    (match runOps [] ([.newRouter, .group 0 b!"/g"] : List (Op Nat)) with
      | .ok _ => true | .error _ => false) = true := by decide +kernel

/-! ## C17, C18, C19 -/

/-- C17: whatever request is dispatched, the chain it runs is that of an endpoint registered below the root
for its method: the root's `Before` handlers, the middleware of all enclosing routers from the root inwards,
and the endpoint's own handlers. Its path accepts the request, unless the static option is on and the request
path is (the variant form of) a path cut into the same segments. -/
theorem C17_chain {rx : Regex} {ops : List (Op α)} {heap : Heap α} (h : runOps [] ops = .ok heap) {r : Nat}
    {opts : List (Opt α)} {e : Engine α} (he : handler rx heap r opts = .ok e) {m path : Str} {n : EndNode α}
    (hd : routeOf rx e m path = some n) :
    ∃ i l, Endpoint ops r i l ∧ methodOf ops i = m ∧
      n.handlers.map some = (beforesOf ops r ++ l.flatMap (usesOf ops) ++ handlersOf ops i).map payload ∧
      (Accepts rx (routeSegs (fullPath ops l)) (pathSegs path) ∨
        staticOf opts = true ∧ ∃ j k, Endpoint ops r j k ∧ methodOf ops j = m ∧
          routeSegs (fullPath ops k) = routeSegs (fullPath ops l) ∧ path = variantUri (fullPath ops k)) := by
  have hrf := run_reflects h
  obtain ⟨_, es, h1, _, _, _, h7, _, _, he⟩ := handler_ok h he
  obtain ⟨v, hv, hm, hh, ha⟩ := dispatch_registered he hd
  obtain ⟨i, l, hend, rfl⟩ := (mem_routesOf h1 hrf).1 hv
  refine ⟨i, l, hend, hm, ?_, ?_⟩
  · rw [← hh]
    have := (h7 (i, l) ((h1 (i, l)).2 ⟨hend.1, endpoint_childless hrf hend⟩)).2
    exact (payload_all this).symm
  · rcases ha with ha | ⟨hs, w, hw, h2, h3, h4⟩
    · exact .inl ha
    · obtain ⟨j, k, hend', rfl⟩ := (mem_routesOf h1 hrf).1 hw
      exact .inr ⟨hs, j, k, hend', h2, h3, h4⟩

/-- C17, completeness: every endpoint is reachable in the sense of C02: a path it accepts is dispatched. -/
theorem C17_dispatched {rx : Regex} {ops : List (Op α)} {heap : Heap α} (h : runOps [] ops = .ok heap) {r : Nat}
    {opts : List (Opt α)} {e : Engine α} (he : handler rx heap r opts = .ok e) (hs : staticOf opts = false)
    {i : Nat} {l : List Nat} (hend : Endpoint ops r i l) {path : Str}
    (ha : Accepts rx (routeSegs (fullPath ops l)) (pathSegs path)) :
    ∃ n, routeOf rx e (methodOf ops i) path = some n := by
  have hrf := run_reflects h
  obtain ⟨_, es, h1, _, _, _, _, _, _, he⟩ := handler_ok h he
  rw [hs] at he
  exact C02_dispatch_complete he ((mem_routesOf h1 hrf).2 ⟨i, l, hend, rfl⟩) ha

/-- C18: a handler given to `Use` at any point of the history, before or after the endpoint was registered,
is in the chain of every endpoint enclosed by that router, between the `Before` handlers and the endpoint's
own; and only there. -/
theorem C18_late_use {ops : List (Op α)} {r i : Nat} {l : List Nat} {g : Nat} (hend : Endpoint ops r i l) (hg : g ∈ l)
    {pre post : List (Op α)} {hs : List (HVal α)} (hops : ops = pre ++ [.use g hs] ++ post) :
    ∃ a b, chainOf ops r i l = beforesOf ops r ++ a ++ hs ++ b ++ handlersOf ops i ∧ a ++ hs ++ b = l.flatMap (usesOf ops) := by
  obtain ⟨l1, l2, rfl⟩ := List.append_of_mem hg
  have hu : usesOf ops g = usesOf pre g ++ hs ++ usesOf post g := by
    rw [hops]; simp [usesOf, usesBy]
  refine ⟨l1.flatMap (usesOf ops) ++ usesOf pre g, usesOf post g ++ l2.flatMap (usesOf ops), ?_, ?_⟩
  · simp [chainOf, hu, List.append_assoc]
  · simp [hu, List.append_assoc]

/-- C18, that is all `Use` does: calling `Use` on `g` later gives the same paths and, outside `g`, the same
chains. -/
theorem C18_use_frame {ops : List (Op α)} {r i : Nat} {l : List Nat} {g : Nat} {hs : List (HVal α)} (hg : g ∉ l) :
    chainOf (ops ++ [.use g hs]) r i l = chainOf ops r i l ∧ fullPath (ops ++ [.use g hs]) l = fullPath ops l ∧
      (Endpoint (ops ++ [.use g hs]) r i l ↔ Endpoint ops r i l) := by
  have hm : made (ops ++ [.use g hs]) = made ops := by simp [made, madeBy]
  have hu : ∀ j ∈ l, usesOf (ops ++ [.use g hs]) j = usesOf ops j := by
    intro j hj
    have : g ≠ j := by rintro rfl; exact hg hj
    simp [usesOf, usesBy, this]
  have hflat : ∀ l : List Nat, (∀ j ∈ l, usesOf (ops ++ [.use g hs]) j = usesOf ops j) →
      l.flatMap (usesOf (ops ++ [.use g hs])) = l.flatMap (usesOf ops) := by
    intro l
    induction l with
    | nil => intro _; rfl
    | cons x xs ih =>
      intro hx
      rw [List.flatMap_cons, List.flatMap_cons, hx x (by simp), ih (fun j hj => hx j (by simp [hj]))]
  refine ⟨?_, ?_, ?_⟩
  · unfold chainOf handlersOf
    rw [hm, hflat l hu]
    simp [beforesOf, beforesBy]
  · unfold fullPath patternOf; rw [hm]
  · unfold Endpoint Under; rw [hm]

/-- C19 (partial): a middleware passed to `r.Group(p, mw)` is treated exactly as `r.Use(mw)` called after
`r.Group(p)`: same history effect for paths and chains. So it does reach the endpoints of the new group (they
are below `r`) and stays inside `r`, but not inside the group. Missing: see `C19_refuted`. -/
theorem C19_group_mw_partial (a b : List (Op α)) (g : Nat) (h : α) (r i : Nat) (l : List Nat) :
    chainOf (a ++ [.groupMw g h] ++ b) r i l = chainOf (a ++ [.use g [.ctxFunc h]] ++ b) r i l ∧
    fullPath (a ++ [.groupMw g h] ++ b) l = fullPath (a ++ [.use g [.ctxFunc h]] ++ b) l ∧
    (Endpoint (a ++ [.groupMw g h] ++ b) r i l ↔ Endpoint (a ++ [.use g [.ctxFunc h]] ++ b) r i l) ∧
    (Endpoint (a ++ [.groupMw g h] ++ b) r i l → g ∈ l → HVal.ctxFunc h ∈ chainOf (a ++ [.groupMw g h] ++ b) r i l) := by
  have hm : made (a ++ [.groupMw g h] ++ b) = made (a ++ [.use g [.ctxFunc h]] ++ b) := by
    simp only [made, List.filterMap_append]; rfl
  have hu : usesOf (a ++ [.groupMw g h] ++ b) = usesOf (a ++ [.use g [.ctxFunc h]] ++ b) := by
    funext j; simp [usesOf, usesBy]
  have hb : beforesOf (a ++ [.groupMw g h] ++ b) r = beforesOf (a ++ [.use g [.ctxFunc h]] ++ b) r := by
    simp [beforesOf, beforesBy]
  refine ⟨?_, ?_, ?_, ?_⟩
  · unfold chainOf handlersOf; rw [hm, hu, hb]
  · unfold fullPath patternOf; rw [hm]
  · unfold Endpoint Under; rw [hm]
  · intro _ hg
    unfold chainOf
    refine List.mem_append_left _ (List.mem_append_right _ (List.mem_flatMap.2 ⟨g, hg, ?_⟩))
    simp [usesOf, usesBy]

/-- build an engine from a history and test it -/
def withRouter (ops : List (Op Nat)) (r : Nat) (opts : List (Opt Nat)) (p : Engine Nat → Bool) : Bool :=
  match runOps [] ops with
  | .error _ => false
  | .ok heap =>
    match handler rx heap r opts with
    | .ok e => p e
    | .error _ => false

theorem withRouter_spec {ops : List (Op Nat)} {r : Nat} {opts : List (Opt Nat)} {p : Engine Nat → Bool}
    (h : withRouter ops r opts p = true) :
    ∃ heap e, runOps [] ops = .ok heap ∧ handler rx heap r opts = .ok e ∧ p e = true := by
  unfold withRouter at h
  cases h1 : runOps [] ops with
  | error er => rw [h1] at h; cases h
  | ok heap =>
    rw [h1] at h
    simp only [] at h
    cases h2 : handler rx heap r opts with
    | error er => rw [h2] at h; cases h
    | ok e => rw [h2] at h; exact ⟨heap, e, rfl, h2, h⟩

/-- a handler -/
def fn (k : Nat) : HVal Nat := .ctxFunc k

/-- `Before` 1 on the root; an endpoint; `Use` 2 on the root; a group `/api` with a sub-group `/v1`; endpoints
inside; and late `Use` calls 5 on `/v1`, 6 on `/api` -/
def demoOps : List (Op Nat) :=
  [.newRouter, .before 0 [fn 1], .handle 0 mGET b!"/" [fn 10], .use 0 [fn 2], .group 0 b!" /api ", .group 2 b!"/v1",
   .handle 3 mGET b!"/users/<id>" [fn 11, fn 12], .handle 2 mPOST b!"/users" [fn 13], .use 3 [fn 5], .use 2 [fn 6]]

/-- the hypotheses of C15-C20 are met: the chains have the order the theorems claim -/
example : withRouter demoOps 0 [] (fun e =>
    run e mGET b!"/" == some [1, 2, 10] && run e mGET b!"/api/v1/users/7" == some [1, 2, 6, 5, 11, 12] &&
    run e mPOST b!"/api/users" == some [1, 2, 6, 13] && run e mGET b!"/api/users" == none) = true := by
  decide +kernel

/-- a double made through two different groups is rejected -/
example : (match runOps [] (demoOps ++ [.handle 0 mPOST b!"/api/users " [fn 14]]) with
    | .ok heap => (match handler rx heap 0 [] with | .error .doubleUri => true | _ => false)
    | .error _ => false) = true := by
  decide +kernel

/-- construction fails on each of the defects of C16 -/
example :
    -- nothing registered; an empty group without middleware; an unsupported handler; bad paths; bad patterns
    (withRouter [.newRouter] 0 [] (fun _ => true) ||
     withRouter [.newRouter, .group 0 b!"/g", .handle 0 mGET b!"/" [fn 1]] 0 [] (fun _ => true) ||
     withRouter [.newRouter, .handle 0 mGET b!"/" [.other]] 0 [] (fun _ => true) ||
     withRouter [.newRouter, .handle 0 mGET b!"/a/" [fn 1]] 0 [] (fun _ => true) ||
     withRouter [.newRouter, .handle 0 mGET b!"a" [fn 1]] 0 [] (fun _ => true) ||
     withRouter [.newRouter, .handle 0 mGET b!"/x<id>" [fn 1]] 0 [] (fun _ => true) ||
     withRouter [.newRouter, .handle 0 mGET b!"/<a,b ~ (a.)>" [fn 1]] 0 [] (fun _ => true) ||
     withRouter [.newRouter, .handle 0 mGET b!"/" [fn 1]] 0 [.noFound []] (fun _ => true)) = false ∧
    -- an empty group is accepted when there is middleware above it
    withRouter [.newRouter, .use 0 [fn 1], .group 0 b!"/g"] 0 [.noFound [fn 2]] (fun _ => true) = true := by
  decide +kernel

/-- the history of `C19_refuted`: an endpoint `/public`, then `Group("/admin", 9)` with an endpoint `/x` -/
def c19ops : List (Op Nat) :=
  [.newRouter, .handle 0 mGET b!"/public" [fn 1]] ++ groupCall 0 b!"/admin" [.mw 9] ++ [.handle 2 mGET b!"/x" [fn 2]]

/-- C19 is false: `Group("/admin", mw)` makes `mw` run for endpoints outside the group, even those registered
before it, although `mw` is given nowhere else. -/
theorem C19_refuted : ¬ ∀ (a b : List (Op Nat)) (g : Nat) (p : Str) (mw : Nat) (heap : Heap Nat) (e : Engine Nat)
    (m path : Str) (n : EndNode Nat),
    runOps [] (a ++ groupCall g p [.mw mw] ++ b) = .ok heap → handler rx heap 0 [] = .ok e →
    (∀ r hs, .use r hs ∉ a ++ b) → (∀ r hs, .before r hs ∉ a ++ b) → (∀ r h, .groupMw r h ∉ a ++ b) →
    (∀ r m p hs, .handle r m p hs ∈ a ++ b → fn mw ∉ hs) →
    routeOf rx e m path = some n → mw ∈ n.handlers →
    ∃ i l, Endpoint (a ++ groupCall g p [.mw mw] ++ b) 0 i l ∧ (made a).length ∈ l ∧
      fullPath (a ++ groupCall g p [.mw mw] ++ b) l = n.uri := by
  intro hall
  have hw : withRouter c19ops 0 [] (fun e =>
      run e mGET b!"/public" == some [9, 1] && full e mGET b!"/public" == some b!"/public") = true := by
    decide +kernel
  obtain ⟨heap, e, h1, h2, h3⟩ := withRouter_spec hw
  cases hn : routeOf rx e mGET b!"/public" with
  | none => simp [run, hn] at h3
  | some n =>
    have h4 : n.handlers = [9, 1] ∧ n.uri = b!"/public" := by simpa [run, full, hn] using h3
    obtain ⟨i, l, he, hmem, hf⟩ := hall [.newRouter, .handle 0 mGET b!"/public" [fn 1]]
      [.handle 2 mGET b!"/x" [fn 2]] 0 b!"/admin" 9 heap e mGET b!"/public" n h1 h2
      (by intro r hs h; simp at h) (by intro r hs h; simp at h) (by intro r hs h; simp at h)
      (by
        intro r m p hs h
        simp at h
        rcases h with ⟨_, _, _, rfl⟩ | ⟨_, _, _, rfl⟩ <;> simp [fn])
      hn (by rw [h4.1]; simp)
    rw [h4.2] at hf
    -- the lineages of the four things made
    have l0 : Lineage (made c19ops) 0 [0] := .root rfl rfl
    have l1 : Lineage (made c19ops) 1 [0, 1] := .child rfl rfl l0
    have l2 : Lineage (made c19ops) 2 [0, 2] := .child rfl rfl l0
    have l3 : Lineage (made c19ops) 3 [0, 2, 3] := .child rfl rfl l2
    have hl : Lineage (made c19ops) i l := he.1.1
    have hlt : i < 4 := hl.lt
    have hmem' : 2 ∈ l := hmem
    have hf' : fullPath c19ops l = b!"/public" := hf
    match i, hlt with
    | 0, _ => rw [hl.unique l0] at hmem'; simp at hmem'
    | 1, _ => rw [hl.unique l1] at hmem'; simp at hmem'
    | 2, _ => rw [hl.unique l2] at hf'; exact absurd hf' (by decide +kernel)
    | 3, _ => rw [hl.unique l3] at hf'; exact absurd hf' (by decide +kernel)

/-! ## C20 -/

/-- C20: the routes the engine is built from are exactly the endpoints below the root, each once, in depth-first
registration order, each with the concatenation of the trimmed patterns from the root to it as its path. -/
theorem C20_endpoints {rx : Regex} {ops : List (Op α)} {heap : Heap α} (h : runOps [] ops = .ok heap) {r : Nat}
    {opts : List (Opt α)} {e : Engine α} (he : handler rx heap r opts = .ok e) :
    ∃ es : List (Nat × List Nat),
      (∀ i l, (i, l) ∈ es ↔ Endpoint ops r i l) ∧ (es.map Prod.fst).Nodup ∧
      es.Pairwise (fun a b => Precedes a.2 b.2) ∧
      (∃ o, dumpFor heap r opts = .ok (o, es.map (routeFor ops r))) ∧
      mkEngine rx (staticOf opts) ((noFoundOf ops r opts).filterMap payload) (es.map (routeFor ops r)) = .ok e := by
  have hrf := run_reflects h
  obtain ⟨_, es, h1, h2, _, _, _, _, h5, h6⟩ := handler_ok h he
  have hmem : ∀ i l, (i, l) ∈ es.filter (fun e => methodOf ops e.1 ≠ []) ↔ Endpoint ops r i l := by
    intro i l
    rw [List.mem_filter, h1]
    constructor
    · rintro ⟨⟨hu, _⟩, hm⟩
      have hlt := hu.1.lt
      have hc : (made ops)[i]? = some (made ops)[i] := by simp [hlt]
      rw [(getElem_handlersOf hc).1] at hm
      exact ⟨hu, _, hc, by simpa using hm⟩
    · intro hend
      refine ⟨⟨hend.1, endpoint_childless hrf hend⟩, ?_⟩
      obtain ⟨_, c, hc, hm⟩ := hend
      rw [(getElem_handlersOf hc).1]
      simpa using hm
  refine ⟨es.filter (fun e => methodOf ops e.1 ≠ []), hmem, ?_, h2.filter _, h5, h6⟩
  rw [List.Nodup, List.pairwise_map]
  refine (h2.filter _).imp_of_mem ?_
  intro a b ha hb hab heq
  have ea := (hmem a.1 a.2).1 ha
  have eb := (hmem b.1 b.2).1 hb
  rw [← heq] at eb
  have hl := ea.1.1.unique eb.1.1
  obtain ⟨c, x, s, y, t, h7, h8, hlt⟩ := hab
  rw [hl, h8] at h7
  have := List.append_cancel_left h7
  injection this with h9 _
  omega

/-- depth-first order: the endpoint made last, inside the first group, comes before the one after the group -/
example : (match runOps [] [.newRouter, .group 0 b!"/g", .handle 0 mGET b!"/z" [fn 1], .handle 1 mGET b!"/a" [fn 2],
      .group 1 b!"/h", .handle 3 mGET b!"/b" [fn 3], .handle 4 mPUT b!"/c" [fn 4]] with
    | .ok _ => false
    | .error _ => true) = true ∧
    (match runOps [] [.newRouter, .group 0 b!"/g", .handle 0 mGET b!"/z" [fn 1], .handle 1 mGET b!"/a" [fn 2],
      .group 1 b!"/h", .handle 4 mPUT b!"/c" [fn 4]] with
    | .ok heap => (match dumpFor heap 0 [] with
      | .ok (_, rs) => rs.map (fun v => v.uri) == [b!"/g/a", b!"/g/h/c", b!"/z"]
      | .error _ => false)
    | .error _ => false) = true := by
  decide +kernel

/-! ## C21 -/

/-- C21: `ANY` makes one endpoint, with the given pattern and handlers, for each of the seven supported methods
that is not excluded, and nothing else, for every exclusion list. -/
theorem C21_any (exclude : List Str) (a b : List (Op α)) (g : Nat) (p : Str) (hs : List (HVal α)) :
    ∃ ms : List Str, ms.Nodup ∧
      (∀ m, m ∈ ms ↔ m ∈ [b!"GET", b!"POST", b!"DELETE", b!"PUT", b!"PATCH", b!"HEAD", b!"OPTIONS"] ∧ m ∉ exclude) ∧
      made (a ++ anyCall exclude g p hs ++ b) = made a ++ ms.map (fun m => ⟨some g, m, p, hs⟩) ++ made b ∧
      (∀ x, usesOf (a ++ anyCall exclude g p hs ++ b) x = usesOf (a ++ b) x) ∧
      (∀ x, beforesOf (a ++ anyCall exclude g p hs ++ b) x = beforesOf (a ++ b) x) := by
  refine ⟨anyMethods exclude, ?_, ?_, ?_, ?_, ?_⟩
  · exact List.Pairwise.filter _ (by decide)
  · intro m
    unfold anyMethods
    rw [List.mem_filter]
    refine and_congr (by rfl) ?_
    simp
    constructor
    · intro h hm; exact h m hm rfl
    · rintro h x hx rfl; exact h hx
  · simp only [made, List.filterMap_append, anyCall, List.filterMap_map]
    congr 2
    generalize anyMethods exclude = l
    induction l with
    | nil => rfl
    | cons x xs ih => simp [madeBy, ih]
  · intro x
    simp only [usesOf, List.flatMap_append, anyCall]
    generalize anyMethods exclude = l
    have : (l.map (fun m => Op.handle g m p hs)).flatMap (usesBy x) = [] := by
      induction l with
      | nil => rfl
      | cons y ys ih => simp [usesBy, ih]
    rw [this]; simp
  · intro x
    simp only [beforesOf, List.flatMap_append, anyCall]
    generalize anyMethods exclude = l
    have : (l.map (fun m => Op.handle g m p hs)).flatMap (beforesBy x) = [] := by
      induction l with
      | nil => rfl
      | cons y ys ih => simp [beforesBy, ih]
    rw [this]; simp

/-- C21, for requests: after `ANY` on a router below the root, a request with any method that is not excluded
and a path the full pattern accepts is dispatched. -/
theorem C21_dispatched {rx : Regex} {exclude : List Str} {a b : List (Op α)} {g : Nat} {p : Str} {hs : List (HVal α)}
    {heap : Heap α} (h : runOps [] (a ++ anyCall exclude g p hs ++ b) = .ok heap) {r : Nat} {lg : List Nat}
    (hg : Under (a ++ anyCall exclude g p hs ++ b) r g lg)
    {opts : List (Opt α)} {e : Engine α} (he : handler rx heap r opts = .ok e) (hst : staticOf opts = false)
    {m path : Str} (hm : m ∈ methodNames) (hex : m ∉ exclude)
    (ha : Accepts rx (routeSegs (fullPath (a ++ anyCall exclude g p hs ++ b) lg ++ trimSpace p)) (pathSegs path)) :
    ∃ n, routeOf rx e m path = some n := by
  obtain ⟨ms, _, h1, h2, _⟩ := C21_any exclude a b g p hs
  have hmm : m ∈ ms := (h1 m).2 ⟨hm, hex⟩
  have hin : (⟨some g, m, p, hs⟩ : Made α) ∈ made (a ++ anyCall exclude g p hs ++ b) := by
    rw [h2]
    exact List.mem_append_left _ (List.mem_append_right _ (List.mem_map.2 ⟨m, hmm, rfl⟩))
  obtain ⟨i, hi⟩ := List.getElem?_of_mem hin
  have hlin : Lineage (made (a ++ anyCall exclude g p hs ++ b)) i (lg ++ [i]) := .child hi rfl hg.1
  have hend : Endpoint (a ++ anyCall exclude g p hs ++ b) r i (lg ++ [i]) := by
    refine ⟨⟨hlin, ?_⟩, _, hi, ?_⟩
    · have := hg.2
      cases hlg : lg with
      | nil => rw [hlg] at this; cases this
      | cons x xs => rw [hlg] at this; exact this
    · rintro hm0
      have hm0' : m = [] := hm0
      subst hm0'
      exact absurd hm (by decide)
  have hmo : methodOf (a ++ anyCall exclude g p hs ++ b) i = m := (getElem_handlersOf hi).1
  have hpo : patternOf (a ++ anyCall exclude g p hs ++ b) i = p := by
    unfold patternOf; rw [hi]; rfl
  have := C17_dispatched h he hst hend (path := path) (by
    have hf : fullPath (a ++ anyCall exclude g p hs ++ b) (lg ++ [i]) =
        fullPath (a ++ anyCall exclude g p hs ++ b) lg ++ trimSpace p := by
      unfold fullPath; rw [List.flatMap_append, List.flatMap_singleton, hpo]
    rw [hf]; exact ha)
  rw [hmo] at this
  exact this

/-- HEAD and OPTIONS are excluded by default; with another exclusion list they are not -/
example : withRouter (.newRouter :: anyCall [mHEAD, mOPTIONS] 0 b!"/x" [fn 1]) 0 [] (fun e =>
      run e mGET b!"/x" == some [1] && run e mPATCH b!"/x" == some [1] && run e mHEAD b!"/x" == none) = true ∧
    withRouter (.newRouter :: anyCall [mGET] 0 b!"/x" [fn 1]) 0 [] (fun e =>
      run e mGET b!"/x" == none && run e mPATCH b!"/x" == some [1] && run e mHEAD b!"/x" == some [1]) = true := by
  decide +kernel

/-! ## C66 -/

theorem handlerMem_eq {rx : Regex} {ops : List (Op α)} {heap : Heap α} (h : runOps [] ops = .ok heap) {r : Nat}
    {opts : List (Opt α)} {e : Engine α} (he : handler rx heap r opts = .ok e) (mem : Int) :
    handlerMem heap r opts mem = (memOf opts).getD 0 := by
  have hrf := run_reflects h
  obtain ⟨hroot, es, _, _, _, _, _, _, ⟨o, hd⟩, hmk⟩ := handler_ok h he
  obtain ⟨_, _, _, _, h4, _⟩ := handler_spec hrf hroot opts
  have := (h4 o _ hd).2.2.1
  unfold handlerMem
  rw [hd]
  simp only []
  unfold mkEngine at hmk
  cases hc : checkRoutes (routesOf ops r es) with
  | error p => rw [hc] at hmk; cases hmk
  | ok rs' => exact this

/-- C66 (partial): when `WithMaxMultipartMemory` is given, the last value given is the limit used once the
engine is built, whatever engines were built before. Missing: the default, see `C66_default_is_zero`. -/
theorem C66_given_partial {rx : Regex} {ops : List (Op α)} {heap : Heap α} (h : runOps [] ops = .ok heap) {r : Nat}
    {opts : List (Opt α)} {e : Engine α} (he : handler rx heap r opts = .ok e) {m : Int} (hm : memOf opts = some m)
    (mem : Int) : handlerMem heap r opts mem = m := by
  rw [handlerMem_eq h he, hm]; rfl

/-- C66 is false: whenever an engine is built without `WithMaxMultipartMemory`, the limit becomes 0, not 32 MB,
also for the engines built before with a limit of their own. -/
theorem C66_default_is_zero {rx : Regex} {ops : List (Op α)} {heap : Heap α} (h : runOps [] ops = .ok heap) {r : Nat}
    {opts : List (Opt α)} {e : Engine α} (he : handler rx heap r opts = .ok e) (hm : memOf opts = none)
    (mem : Int) : handlerMem heap r opts mem = 0 := by
  rw [handlerMem_eq h he, hm]; rfl

example : withRouter demoOps 0 [.maxMultipart 5, .staticRouter true, .maxMultipart 9] (fun _ => true) = true ∧
    memOf ([.maxMultipart 5, .staticRouter true, .maxMultipart 9] : List (Opt Nat)) = some 9 := by
  decide +kernel

end Water
