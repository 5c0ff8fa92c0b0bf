import Verif.Lemmas.Accept
import Verif.Lemmas.Dump
/- Helper lemmas: what `Handler` does with a history of registration calls and a list of options. -/
namespace Water
open Spec
variable {α : Type}

/-- an option is acceptable: not-found handlers are given and supported -/
def OptOk : Opt α → Prop
  | .noFound hs => hs ≠ [] ∧ ∀ h ∈ hs, (payload h).isSome
  | _ => True

theorem getLast?_getD_cons {β : Type} (x d : β) (l : List β) : (x :: l).getLast?.getD d = l.getLast?.getD x := by
  cases l with
  | nil => rfl
  | cons y ys => rw [List.getLast?_cons_cons]; cases h : (y :: ys).getLast? <;> simp_all

theorem applyOpts_spec (o : Options α) (opts : List (Opt α)) :
    ((∃ o', applyOpts o opts = .ok o') ↔ ∀ x ∈ opts, OptOk x) ∧
    ∀ o', applyOpts o opts = .ok o' →
      o'.enableStatic = (opts.filterMap (fun o => match o with | .staticRouter b => some b | _ => none)).getLast?.getD o.enableStatic ∧
      o'.maxMultipart = (memOf opts).getD o.maxMultipart ∧
      o'.noFound = ((noFoundGiven opts).map (List.filterMap payload)).getD o.noFound := by
  induction opts generalizing o with
  | nil => simp [applyOpts, memOf, noFoundGiven]
  | cons x xs ih =>
    rw [List.forall_mem_cons]
    cases x with
    | staticRouter b =>
      have := ih { o with enableStatic := b }
      simp only [applyOpts, OptOk, true_and]
      refine ⟨this.1, ?_⟩
      intro o' h
      have h2 := this.2 o' h
      refine ⟨?_, h2.2.1, h2.2.2⟩
      simp only [List.filterMap_cons]
      rw [getLast?_getD_cons]; exact h2.1
    | maxMultipart m =>
      have := ih { o with maxMultipart := m }
      simp only [applyOpts, OptOk, true_and]
      refine ⟨this.1, ?_⟩
      intro o' h
      have h2 := this.2 o' h
      refine ⟨h2.1, ?_, h2.2.2⟩
      unfold memOf
      simp only [List.filterMap_cons]
      rw [getLast?_getD_cons]; exact h2.2.1
    | noFound hs =>
      simp only [applyOpts, OptOk]
      by_cases hn : hs = []
      · subst hn; simp
      · have hlen : hs.length ≠ 0 := by simpa using hn
        rw [if_neg hlen, newHandlers_eq]
        by_cases hall : ∀ h ∈ hs, (payload h).isSome
        · rw [if_pos hall]
          have := ih { o with noFound := hs.filterMap payload }
          simp only [bind, Except.bind]
          refine ⟨⟨fun hx => ⟨⟨hn, hall⟩, this.1.1 hx⟩, fun hx => this.1.2 hx.2⟩, ?_⟩
          intro o' h
          have h2 := this.2 o' h
          refine ⟨h2.1, h2.2.1, ?_⟩
          rw [h2.2.2]
          unfold noFoundGiven
          simp only [List.filterMap_cons]
          generalize (List.filterMap (fun o => match o with | Opt.noFound hs => some hs | _ => none) xs) = ys
          cases ys with
          | nil => rfl
          | cons y ys =>
            rw [List.getLast?_cons_cons]
            cases h : (y :: ys).getLast? with
            | none => simp at h
            | some z => rfl
        · rw [if_neg hall]
          simp only [bind, Except.bind]
          exact ⟨iff_of_false (by rintro ⟨_, h⟩; cases h) (fun h => hall h.1.2), by intro o' h; cases h⟩

theorem noFoundGiven_none {opts : List (Opt α)} : noFoundGiven opts = none ↔ ∀ hs, Opt.noFound hs ∉ opts := by
  unfold noFoundGiven
  rw [List.getLast?_eq_none_iff, List.filterMap_eq_nil_iff]
  constructor
  · intro h hs hm; have := h _ hm; simp at this
  · intro h x hx
    cases x with
    | noFound hs => exact absurd hx (h hs)
    | staticRouter b => rfl
    | maxMultipart b => rfl

theorem noFoundGiven_mem {opts : List (Opt α)} {hs : List (HVal α)} (h : noFoundGiven opts = some hs) :
    Opt.noFound hs ∈ opts := by
  unfold noFoundGiven at h
  have := List.mem_of_getLast? h
  obtain ⟨x, hx, h2⟩ := List.mem_filterMap.1 this
  cases x with
  | noFound hs' => simp at h2; subst h2; exact hx
  | staticRouter b => simp at h2
  | maxMultipart b => simp at h2

theorem payload_all {hs : List (HVal α)} (h : ∀ x ∈ hs, (payload x).isSome) :
    hs.map payload = (hs.filterMap payload).map some := by
  induction hs with
  | nil => rfl
  | cons x xs ih =>
    have h1 := h x (by simp)
    obtain ⟨a, ha⟩ := Option.isSome_iff_exists.1 h1
    simp only [List.map_cons, List.filterMap_cons, ha]
    rw [ih (fun y hy => h y (by simp [hy]))]

/-- a root router -/
def IsRoot (ops : List (Op α)) (r : Nat) : Prop := ∃ c, (made ops)[r]? = some c ∧ c.parent = none

/-- `Handler` on a history: what it needs and what it builds -/
theorem handler_spec {ops : List (Op α)} {heap : Heap α} (h : Reflects ops heap) {r : Nat}
    (hr : IsRoot ops r) (opts : List (Opt α)) :
    ∃ es : List (Nat × List Nat),
      (∀ e, e ∈ es ↔ Under ops r e.1 e.2 ∧ Childless ops e.1) ∧
      es.Pairwise (fun a b => Precedes a.2 b.2) ∧
      ((∃ x, dumpFor heap r opts = .ok x) ↔ ((∀ x ∈ opts, OptOk x) ∧ (∀ x ∈ noFoundOf ops r opts, (payload x).isSome) ∧
        (∀ e ∈ es, GoodChain ops r e) ∧ NoDouble (routesOf ops r es))) ∧
      (∀ o rs, dumpFor heap r opts = .ok (o, rs) → o.enableStatic = staticOf opts ∧
        o.noFound = (noFoundOf ops r opts).filterMap payload ∧ o.maxMultipart = (memOf opts).getD 0 ∧
        rs = routesOf ops r es) ∧
      (dumpFor heap r opts = .error .doubleUri → ¬ NoDouble (routesOf ops r es)) := by
  obtain ⟨es, h1, h2, h3, h4, h5⟩ := dump_spec h hr
  obtain ⟨c, hc, hp⟩ := hr
  obtain ⟨n, hn, ho⟩ := nodeAt h hc
  have hm : n.method = [] := by
    rw [ho.method]
    by_cases hx : c.method = []
    · exact hx
    · exact absurd hp (ho.leaf hx).2.1
  have hpn : n.parent = none := by rw [ho.parent]; exact hp
  obtain ⟨ha, hb⟩ := applyOpts_spec (noOptions : Options α) opts
  have hdup : ∀ hs : List (HVal α), newHandlers hs ≠ .error .doubleUri := by
    intro hs; rw [newHandlers_eq]; split <;> simp
  have hadup : ∀ (os : List (Opt α)) o, applyOpts o os ≠ .error .doubleUri := by
    intro os
    induction os with
    | nil => intro o h; cases h
    | cons x xs ih =>
      intro o
      cases x with
      | staticRouter b => exact ih _
      | maxMultipart b => exact ih _
      | noFound hs =>
        simp only [applyOpts]
        split
        · simp
        · cases hnh : newHandlers hs with
          | error er =>
            simp only [bind, Except.bind]
            intro hh; injection hh with hh; subst hh; exact hdup _ hnh
          | ok as => exact ih _
  refine ⟨es, h1, h2, ?_⟩
  unfold dumpFor
  rw [hn]
  simp only [hm, hpn, ne_eq, not_true, if_false]
  cases hao : applyOpts noOptions opts with
  | error er =>
    have hnot : ¬ ∀ x ∈ opts, OptOk x := by
      intro hx
      obtain ⟨o', ho'⟩ := ha.2 hx
      rw [hao] at ho'; cases ho'
    simp only [bind, Except.bind]
    refine ⟨iff_of_false (by rintro ⟨_, hx⟩; cases hx) (fun hx => hnot hx.1), ?_, ?_⟩
    · intro o rs hx; cases hx
    · intro hx; injection hx with hx; subst hx; exact absurd hao (hadup _ _)
  | ok o =>
    have hall : ∀ x ∈ opts, OptOk x := ha.1 ⟨o, hao⟩
    obtain ⟨ho1, ho2, ho3⟩ := hb o hao
    -- the not-found chain
    have hchain : ∃ r2, withBefores o n.gbefores = r2 ∧
        ((∃ o', r2 = .ok o') ↔ ∀ x ∈ noFoundOf ops r opts, (payload x).isSome) ∧
        r2 ≠ .error .doubleUri ∧
        ∀ o', r2 = .ok o' → o'.enableStatic = o.enableStatic ∧ o'.maxMultipart = o.maxMultipart ∧
          o'.noFound = (noFoundOf ops r opts).filterMap payload := by
      refine ⟨_, rfl, ?_⟩
      unfold withBefores
      rw [ho.gbefores, ho3]
      unfold noFoundOf
      cases hg : noFoundGiven opts with
      | none =>
        simp only [Option.map_none, Option.getD_none]
        simp only [noOptions, List.length_nil, gt_iff_lt, Nat.lt_irrefl, false_and, if_false]
        refine ⟨by simp, by simp, ?_⟩
        intro o' hx
        injection hx with hx; subst hx
        refine ⟨rfl, rfl, ?_⟩
        rw [ho3, hg]; rfl
      | some hs =>
        have hok := hall _ (noFoundGiven_mem hg)
        simp only [OptOk] at hok
        have hpos : 0 < (hs.filterMap payload).length := by
          have := congrArg List.length (payload_all hok.2)
          simp only [List.length_map] at this
          rw [← this]
          exact List.length_pos_iff.2 hok.1
        simp only [Option.map_some, Option.getD_some]
        by_cases hgb : beforesOf ops r = []
        · simp only [hgb, List.length_nil, gt_iff_lt, Nat.lt_irrefl, and_false, if_false,
            List.nil_append]
          refine ⟨⟨fun _ => hok.2, fun _ => ⟨_, rfl⟩⟩, by simp, ?_⟩
          intro o' hx
          injection hx with hx; subst hx
          refine ⟨rfl, rfl, ?_⟩
          rw [ho3, hg]; rfl
        · have hgl : 0 < (beforesOf ops r).length := List.length_pos_iff.2 hgb
          simp only [gt_iff_lt, hpos, hgl, and_self, if_true]
          rw [newHandlers_eq]
          by_cases hgall : ∀ x ∈ beforesOf ops r, (payload x).isSome
          · rw [if_pos hgall]
            simp only [List.filterMap_append]
            refine ⟨⟨fun _ => ?_, fun _ => ⟨_, rfl⟩⟩, by simp, ?_⟩
            · intro x hx
              rcases List.mem_append.1 hx with hx | hx
              · exact hgall x hx
              · exact hok.2 x hx
            · intro o' hx
              injection hx with hx; subst hx
              exact ⟨rfl, rfl, rfl⟩
          · rw [if_neg hgall]
            simp only []
            refine ⟨iff_of_false (by rintro ⟨_, hx⟩; cases hx) (fun hx => hgall (fun y hy => hx y (List.mem_append_left _ hy))),
              by simp, ?_⟩
            intro o' hx; cases hx
    obtain ⟨r2, hr2, hc1, hc2, hc3⟩ := hchain
    simp only [bind, Except.bind] at hr2 ⊢
    rw [hr2]
    cases r2 with
    | error er =>
      have hnot : ¬ ∀ x ∈ noFoundOf ops r opts, (payload x).isSome := fun hx => by
        obtain ⟨_, hx⟩ := hc1.2 hx; cases hx
      refine ⟨iff_of_false (by rintro ⟨_, hx⟩; cases hx) (fun hx => hnot hx.2.1), ?_, ?_⟩
      · intro o rs hx; cases hx
      · intro hx; simp only [Except.error.injEq] at hx; subst hx; exact absurd rfl hc2
    | ok o' =>
      have hnf := hc1.1 ⟨o', rfl⟩
      obtain ⟨hd1, hd2, hd3⟩ := hc3 o' rfl
      simp only []
      cases hdr : dumpRoute heap heap.length r newRouteStore with
      | error er =>
        refine ⟨iff_of_false (by rintro ⟨_, hx⟩; cases hx) ?_, ?_, ?_⟩
        · rintro ⟨_, _, hx, hy⟩
          obtain ⟨rs, hrs⟩ := h3 hx hy
          rw [hdr] at hrs; cases hrs
        · intro o rs hx; cases hx
        · intro hx; simp only [Except.error.injEq] at hx; subst hx; exact h5 hdr
      | ok rs =>
        obtain ⟨hx, hy, hz⟩ := h4 rs hdr
        refine ⟨iff_of_true ⟨_, rfl⟩ ⟨hall, hnf, hx, hy⟩, ?_, ?_⟩
        · intro o1 rs1 he
          simp only [pure, Except.pure, Except.ok.injEq, Prod.mk.injEq] at he
          obtain ⟨rfl, rfl⟩ := he
          refine ⟨?_, hd3, ?_, hz⟩
          · rw [hd1, ho1]; rfl
          · rw [hd2, ho2]; rfl
        · intro hx; cases hx

/-- the routes of `es` in the spec's own terms -/
theorem mem_routesOf {ops : List (Op α)} {r : Nat} {es : List (Nat × List Nat)} {v : Route α}
    (hes : ∀ e, e ∈ es ↔ Under ops r e.1 e.2 ∧ Childless ops e.1) {heap : Heap α} (h : Reflects ops heap) :
    v ∈ routesOf ops r es ↔ ∃ i l, Endpoint ops r i l ∧ v = routeFor ops r (i, l) := by
  unfold routesOf
  rw [List.mem_map]
  constructor
  · rintro ⟨e, he, rfl⟩
    rw [List.mem_filter] at he
    have hu := ((hes e).1 he.1).1
    have hlt := hu.1.lt
    have hc : (made ops)[e.1]? = some (made ops)[e.1] := by simp [hlt]
    refine ⟨e.1, e.2, ⟨hu, _, hc, ?_⟩, rfl⟩
    have := he.2
    rw [(getElem_handlersOf hc).1] at this
    simpa using this
  · rintro ⟨i, l, he, rfl⟩
    refine ⟨(i, l), ?_, rfl⟩
    rw [List.mem_filter]
    refine ⟨(hes (i, l)).2 ⟨he.1, endpoint_childless h he⟩, ?_⟩
    obtain ⟨_, c, hc, hm⟩ := he
    rw [(getElem_handlersOf hc).1]
    simpa using hm

/-- a dispatched request runs the handlers of a registration, with or without the static option -/
theorem endAt_entry {rx : Regex} {tbl : List (Entry α)} {t : Node α} (hb : Built rx tbl t) {segs : List Str}
    {n : EndNode α} (h : endAt segs t = some n) : ∃ x ∈ tbl, x.segs = segs ∧ x.handlers = n.handlers := by
  match segs, t with
  | [], t => simp [endAt] at h
  | [p], .mk seg subs ends =>
    simp only [endAt] at h
    have hp := List.find?_some h
    simp at hp
    cases hb with
    | mk _ endsOk _ _ _ _ _ =>
      obtain ⟨l1, x, l2, h0, h1, h2, _⟩ := (endsOk n (List.mem_of_find?_eq_some h)).2.1
      exact ⟨x, by rw [h0]; simp, by rw [h1, hp], h2⟩
  | p :: q :: rest, .mk seg subs ends =>
    simp only [endAt] at h
    cases hf : subs.find? (fun e => e.seg.pattern == p) with
    | none => rw [hf] at h; simp at h
    | some s =>
      rw [hf] at h
      simp only [] at h
      have hp := List.find?_some hf
      simp at hp
      cases hb with
      | mk _ _ _ _ _ _ subsBuilt =>
        obtain ⟨y, hy, h2, h3⟩ := endAt_entry (subsBuilt s (List.mem_of_find?_eq_some hf)) h
        obtain ⟨_, x, hx, h4, h5, _⟩ := mem_below.1 hy
        exact ⟨x, hx, by rw [h4, h2, hp], by rw [← h5, h3]⟩

theorem dispatch_sound {rx : Regex} {nf : List α} {rs : List (Route α)} {e : Engine α}
    (h : mkEngine rx false nf rs = .ok e) {m path : Str} {n : EndNode α} (hr : routeOf rx e m path = some n) :
    ∃ v ∈ rs, v.method = m ∧ v.handlers = n.handlers ∧ RouteAccepts rx v path := by
  obtain ⟨r, ps, _, h2, h3, _, _, _⟩ := dispatch_spec h hr
  obtain ⟨v, hv, hm, hs, hh⟩ := firstHandlers_mem h3
  exact ⟨v, hv, hm, hh, by unfold RouteAccepts; rw [hs]; exact h2⟩

theorem dispatch_registered {rx : Regex} {st : Bool} {nf : List α} {rs : List (Route α)} {e : Engine α}
    (h : mkEngine rx st nf rs = .ok e) {m path : Str} {n : EndNode α} (hr : routeOf rx e m path = some n) :
    ∃ v ∈ rs, v.method = m ∧ v.handlers = n.handlers ∧
      (RouteAccepts rx v path ∨ st = true ∧ ∃ w ∈ rs, w.method = m ∧ routeSegs w.uri = routeSegs v.uri ∧ path = variantUri w.uri) := by
  cases st with
  | false =>
    obtain ⟨r, ps, _, h2, h3, _, _, _⟩ := dispatch_spec h hr
    obtain ⟨v, hv, hm, hs, hh⟩ := firstHandlers_mem h3
    exact ⟨v, hv, hm, hh, .inl (by unfold RouteAccepts; rw [hs]; exact h2)⟩
  | true =>
    have h0 : ∃ e0, mkEngine rx false nf rs = .ok e0 ∧ e0.trees = e.trees := by
      unfold mkEngine at h ⊢
      cases hc : checkRoutes rs with
      | error er => rw [hc] at h; simp [bind, Except.bind] at h
      | ok rs' =>
        rw [hc] at h
        simp only [bind, Except.bind] at h ⊢
        obtain ⟨e1', h1, h2⟩ := buildTree_trees (e := newEngine true nf) (e' := newEngine false nf) rfl h
        exact ⟨e1', h1, h2⟩
    obtain ⟨e0, h0, htr⟩ := h0
    have hst := (mkEngine_inv h).2.1
    have hst0 := (mkEngine_inv h0).2.1
    cases hi : methodIndex m with
    | none => unfold routeOf at hr; rw [hi] at hr; cases hr
    | some i =>
      cases hu : e.statics i path with
      | some segs =>
        cases ht : e.trees i with
        | none =>
          unfold routeOf lookup at hr; rw [hi, hst] at hr
          simp [hu, ht] at hr
        | some t =>
          cases hend : endAt segs t with
          | some n' =>
            have : n' = n := by
              unfold routeOf lookup at hr; rw [hi, hst] at hr
              simpa [hu, ht, hend] using hr
            subst this
            obtain ⟨v, hv, hvm, hvu, hvs, hl⟩ := mkEngine_static h m i hi path segs hu
            have hb := (mkEngine_inv h).1 m i hi
            rw [ht] at hb
            obtain ⟨x, hx, hx1, hx2⟩ := endAt_entry hb.1 hend
            obtain ⟨w, hw, hwm, rfl⟩ := mem_tableFor.1 hx
            exact ⟨w, hw, hwm, hx2, .inr ⟨rfl, v, hv, hvm, by rw [hvs]; exact hx1.symm, hvu.symm⟩⟩
          | none =>
            have : routeOf rx e0 m path = some n := by
              unfold routeOf lookup at hr ⊢; rw [hi, hst] at hr; rw [hi, hst0, htr]
              simp only [hu, ht, hend, if_true] at hr ⊢
              exact hr
            obtain ⟨v, hv, h1, h2, h3⟩ := dispatch_sound h0 this
            exact ⟨v, hv, h1, h2, .inl h3⟩
      | none =>
        have : routeOf rx e0 m path = some n := by
          unfold routeOf lookup at hr ⊢; rw [hi, hst] at hr; rw [hi, hst0, htr]
          simp only [hu, if_true] at hr ⊢
          exact hr
        obtain ⟨v, hv, h1, h2, h3⟩ := dispatch_sound h0 this
        exact ⟨v, hv, h1, h2, .inl h3⟩

/-- the build of the tree never reports a double registration -/
theorem mkEngine_not_double {rx : Regex} {st : Bool} {nf : List α} {rs : List (Route α)} :
    mkEngine rx st nf rs ≠ .error .doubleUri := by
  have h1 : ∀ rs : List (Route α), checkRoutes rs ≠ .error .doubleUri := by
    intro rs
    induction rs with
    | nil => intro h; cases h
    | cons v vs ih =>
      unfold checkRoutes
      split
      · simp
      · cases hc : checkRoutes vs with
        | error p => simp only [bind, Except.bind]; intro hx; injection hx with hx; exact ih (by rw [hc, hx])
        | ok x => simp [bind, Except.bind, pure, Except.pure]
  have hpr : ∀ p n, partternRegexp p n ≠ .error .doubleUri := by
    intro p n h; unfold partternRegexp at h
    dsimp only at h
    repeat' split at h
    all_goals cases h
  have hgp : ∀ p, getparsedPattern p ≠ .error .doubleUri := by
    intro p h; unfold getparsedPattern at h
    dsimp only at h
    repeat' split at h
    all_goals cases h
  have h2 : ∀ p, analyzePattern rx p ≠ .error .doubleUri := by
    intro p
    unfold analyzePattern
    split
    · simp
    · cases hg : getparsedPattern p with
      | error er => simp only [bind, Except.bind]; intro hx; injection hx with hx; exact hgp p (by rw [hg, hx])
      | ok q =>
        simp only [bind, Except.bind]
        split
        · simp [pure, Except.pure]
        · split
          · split
            · cases hq : partternRegexp p (getWildcards q).length with
              | error er => simp only []; intro hx; injection hx with hx; exact hpr _ _ (by rw [hq, hx])
              | ok re => simp only []; split <;> simp [pure, Except.pure]
            · simp [pure, Except.pure]
          · simp [pure, Except.pure]
  have h3 : ∀ (segs : List Str) (hs : List α) u (n : Node α), addSegs rx hs u segs n ≠ .error .doubleUri := by
    intro segs
    induction segs with
    | nil => intro hs u n; cases n; simp [addSegs]
    | cons p rest ih =>
      intro hs u n
      obtain ⟨seg, subs, ends⟩ := n
      cases rest with
      | nil =>
        simp only [addSegs, addEnd, bind, Except.bind]
        cases ends.findIdx? (fun e => e.seg.pattern == p) with
        | some i => simp [pure, Except.pure]
        | none =>
          simp only []
          cases ha : analyzePattern rx p with
          | error er => simp only []; intro hx; injection hx with hx; exact h2 p (by rw [ha, hx])
          | ok s => simp [pure, Except.pure]
      | cons q rest =>
        simp only [addSegs, bind, Except.bind]
        split
        · rename_i i hi
          cases hs' : subs[i]? with
          | none =>
            have := (List.findIdx?_eq_some_iff_getElem.1 hi).1
            simp [this] at hs'
          | some s =>
            simp only []
            cases ha : addSegs rx hs u (q :: rest) s with
            | error er => simp only []; intro hx; injection hx with hx; exact ih hs u s (by rw [ha, hx])
            | ok s' => simp [pure, Except.pure]
        · cases ha : analyzePattern rx p with
          | error er => simp only []; intro hx; injection hx with hx; exact h2 p (by rw [ha, hx])
          | ok s =>
            simp only []
            cases hb : addSegs rx hs u (q :: rest) (Node.mk s [] []) with
            | error er => simp only []; intro hx; injection hx with hx; exact ih hs u _ (by rw [hb, hx])
            | ok s' => simp [pure, Except.pure]
  have h4 : ∀ (vs : List (Route α)) (e : Engine α), buildTree rx e vs ≠ .error .doubleUri := by
    intro vs
    induction vs with
    | nil => intro e h; cases h
    | cons v vs ih =>
      intro e
      unfold buildTree
      cases hb : buildStep rx e v with
      | ok e' => exact ih e'
      | error er =>
        simp only [bind, Except.bind]
        intro hx; injection hx with hx; subst hx
        unfold buildStep at hb
        split at hb
        · cases hb
        · simp only [bind, Except.bind, Node.add] at hb
          split at hb
          · rename_i heq; injection hb with hb; subst hb; exact h3 _ _ _ _ heq
          · split at hb <;> cases hb
  unfold mkEngine
  cases hc : checkRoutes rs with
  | error p => simp only [bind, Except.bind]; intro hx; injection hx with hx; exact h1 rs (by rw [hc, hx])
  | ok x => exact h4 _ _

end Water
