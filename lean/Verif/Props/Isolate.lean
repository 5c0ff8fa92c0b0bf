import Verif.Props.Flatten
/-
C77: routes of one method do not influence requests of another.
-/
namespace Water
open Spec
variable {α : Type}

/-- two engines agree on what they know about the method with index `i` -/
def Agree (i : Nat) (e e' : Engine α) : Prop :=
  e.enableStatic = e'.enableStatic ∧ e.trees i = e'.trees i ∧ e.statics i = e'.statics i

theorem buildStep_agree {rx : Regex} {i : Nat} {e e1 e' : Engine α} {v : Route α} (h : Agree i e e1)
    (hb : buildStep rx e v = .ok e') :
    (methodIndex v.method = some i → ∃ e1', buildStep rx e1 v = .ok e1' ∧ Agree i e' e1') ∧
      (methodIndex v.method ≠ some i → Agree i e' e1) := by
  obtain ⟨h1, h2, h3⟩ := h
  unfold buildStep at hb
  cases hm : methodIndex v.method with
  | none => rw [hm] at hb; cases hb
  | some j =>
    rw [hm] at hb
    simp only [] at hb
    cases ha : ((e.trees j).getD newTree).add rx v.variant v.handlers v.uri with
    | error p => rw [ha] at hb; cases hb
    | ok t =>
      rw [ha] at hb
      simp only [bind, Except.bind, pure, Except.pure] at hb
      constructor
      · intro hj
        injection hj with hj
        subst hj
        unfold buildStep
        rw [hm]
        simp only []
        rw [← h2, ha]
        simp only [bind, Except.bind, pure, Except.pure]
        rw [← h1, ← h3]
        split at hb
        · rename_i hs
          rw [if_pos hs]
          injection hb with hb
          subst hb
          exact ⟨_, rfl, rfl, by simp [setAt], by simp [setAt]⟩
        · rename_i hs
          rw [if_neg hs]
          injection hb with hb
          subst hb
          exact ⟨_, rfl, rfl, by simp [setAt], h3⟩
      · intro hj
        have hij : i ≠ j := fun hh => hj (by rw [hh])
        split at hb
        · injection hb with hb
          subst hb
          exact ⟨h1, by simpa [setAt, hij] using h2, by simpa [setAt, hij] using h3⟩
        · injection hb with hb
          subst hb
          exact ⟨h1, by simpa [setAt, hij] using h2, h3⟩

theorem buildTree_agree {rx : Regex} {i : Nat} {vs : List (Route α)} : ∀ {e e1 e' : Engine α}, Agree i e e1 →
    buildTree rx e vs = .ok e' →
    ∃ e1', buildTree rx e1 (vs.filter (fun v => methodIndex v.method = some i)) = .ok e1' ∧ Agree i e' e1' := by
  induction vs with
  | nil =>
    intro e e1 e' h hb
    injection hb with hb
    subst hb
    exact ⟨e1, rfl, h⟩
  | cons v vs ih =>
    intro e e1 e' h hb
    unfold buildTree at hb
    cases hs : buildStep rx e v with
    | error p => rw [hs] at hb; cases hb
    | ok e2 =>
      rw [hs] at hb
      simp only [bind, Except.bind] at hb
      obtain ⟨ha, hc⟩ := buildStep_agree h hs
      by_cases hm : methodIndex v.method = some i
      · obtain ⟨e3, h3, h4⟩ := ha hm
        obtain ⟨e4, h5, h6⟩ := ih h4 hb
        refine ⟨e4, ?_, h6⟩
        rw [List.filter_cons_of_pos (by simpa using hm), buildTree, h3]
        exact h5
      · obtain ⟨e4, h5, h6⟩ := ih (hc hm) hb
        refine ⟨e4, ?_, h6⟩
        rw [List.filter_cons_of_neg (by simpa using hm)]
        exact h5

theorem mkEngine_agree {rx : Regex} {st : Bool} {nf nf' : List α} {rs rs' : List (Route α)} {e e' : Engine α} {m : Str} {i : Nat}
    (hm : methodIndex m = some i) (h : mkEngine rx st nf rs = .ok e) (h' : mkEngine rx st nf' rs' = .ok e')
    (hf : rs.filter (fun v => v.method = m) = rs'.filter (fun v => v.method = m)) : Agree i e e' := by
  have hfil : ∀ l : List (Route α), (l.map (fun v => { v with variant := variantUri v.uri })).filter
      (fun v => methodIndex v.method = some i) =
        (l.filter (fun v => v.method = m)).map (fun v => { v with variant := variantUri v.uri }) := by
    intro l
    rw [List.filter_map]
    congr 1
    refine List.filter_congr ?_
    intro v _
    simp only [Function.comp]
    by_cases hv : v.method = m
    · simp [hv, hm]
    · have : methodIndex v.method ≠ some i := fun hh => hv (methodIndex_inj hh hm)
      simp [hv, this]
  have key : ∀ {nf : List α} {rs : List (Route α)} {e : Engine α}, mkEngine rx st nf rs = .ok e →
      ∃ e1, buildTree rx (newEngine st []) ((rs.filter (fun v => v.method = m)).map
        (fun v => { v with variant := variantUri v.uri })) = .ok e1 ∧ Agree i e e1 := by
    intro nf rs e h
    unfold mkEngine at h
    cases hc : checkRoutes rs with
    | error p => rw [hc] at h; cases h
    | ok rs1 =>
      rw [hc] at h
      simp only [bind, Except.bind] at h
      obtain ⟨e1, h1, h2⟩ := buildTree_agree (i := i) (e := newEngine st nf) (e1 := newEngine st []) ⟨rfl, rfl, rfl⟩ h
      rw [(checkRoutes_ok hc).1, hfil] at h1
      exact ⟨e1, h1, h2⟩
  obtain ⟨e1, h1, h2⟩ := key h
  obtain ⟨e2, h3, h4⟩ := key h'
  rw [← hf, h1] at h3
  injection h3 with h3
  subst h3
  exact ⟨h2.1.trans h4.1.symm, h2.2.1.trans h4.2.1.symm, h2.2.2.trans h4.2.2.symm⟩

/-! ### C77 -/

/-- C77: two routers whose routes for a method are the same, in the same order, treat the requests of this method in the same
way, whatever routes they have for other methods and whatever they do with requests that are not found. -/
theorem C77_isolated {rx : Regex} {heap heap' : Heap α} {r r' : Nat} {opts opts' : List (Opt α)} {e e' : Engine α}
    {o o' : Options α} {rs rs' : List (Route α)} (he : handler rx heap r opts = .ok e) (he' : handler rx heap' r' opts' = .ok e')
    (hd : dumpFor heap r opts = .ok (o, rs)) (hd' : dumpFor heap' r' opts' = .ok (o', rs'))
    (hst : o.enableStatic = o'.enableStatic) (m : Str)
    (hf : rs.filter (fun v => v.method = m) = rs'.filter (fun v => v.method = m)) (path : Str) :
    routeOf rx e m path = routeOf rx e' m path ∧ paramsOf rx e m path = paramsOf rx e' m path := by
  unfold routeOf paramsOf
  cases hm : methodIndex m with
  | none => exact ⟨rfl, rfl⟩
  | some i =>
    simp only []
    unfold handler at he he'
    rw [hd] at he
    rw [hd'] at he'
    simp only [bind, Except.bind] at he he'
    rw [hst] at he
    obtain ⟨h1, h2, h3⟩ := mkEngine_agree hm he he' hf
    have : lookup rx e i path = lookup rx e' i path := by
      unfold lookup
      rw [h1, h2, h3]
    rw [this]
    exact ⟨rfl, rfl⟩

/-! ### registering one more route -/

theorem precedes_lt {a b : List Nat} (h : Precedes a b) : a < b := by
  obtain ⟨c, x, s, y, t, rfl, rfl, hlt⟩ := h
  induction c with
  | nil => exact List.cons_lt_cons_iff.2 (.inl hlt)
  | cons z c ih => exact List.cons_lt_cons_iff.2 (.inr ⟨rfl, ih⟩)

theorem lineage_mono {ms : List (Made α)} {i : Nat} {l : List Nat} (h : Lineage ms i l) (x : List (Made α)) :
    Lineage (ms ++ x) i l := by
  induction h with
  | root h1 h2 => exact .root (by rw [List.getElem?_append_left (List.getElem?_eq_some_iff.1 h1).1]; exact h1) h2
  | child h1 h2 _ ih => exact .child (by rw [List.getElem?_append_left (List.getElem?_eq_some_iff.1 h1).1]; exact h1) h2 ih

/-- C77, one registration more: registering a route for another method, on any router and at the end of any history, changes
nothing for the requests of a method. -/
theorem C77_add {rx : Regex} {ops : List (Op α)} {g : Nat} {m m' p : Str} {hs : List (HVal α)} {heap heap' : Heap α}
    (h : runOps [] ops = .ok heap) (h' : runOps [] (ops ++ [.handle g m' p hs]) = .ok heap') (hmm : m' ≠ m) {r : Nat}
    {opts : List (Opt α)} {e e' : Engine α} (he : handler rx heap r opts = .ok e) (he' : handler rx heap' r opts = .ok e')
    (path : Str) :
    routeOf rx e m path = routeOf rx e' m path ∧ paramsOf rx e m path = paramsOf rx e' m path := by
  have hrf := run_reflects h
  obtain ⟨es, hmem, _, hord, ⟨o, hd⟩, _⟩ := C20_endpoints h he
  obtain ⟨es', hmem', _, hord', ⟨o', hd'⟩, _⟩ := C20_endpoints h' he'
  have hmade : made (ops ++ [.handle g m' p hs]) = made ops ++ [⟨some g, m', p, hs⟩] := by
    rw [made_append]; rfl
  have hold : ∀ {i : Nat}, i < (made ops).length → (made (ops ++ [.handle g m' p hs]))[i]? = (made ops)[i]? := by
    intro i hi
    rw [hmade, List.getElem?_append_left hi]
  have hlin : ∀ {i : Nat} {l : List Nat}, i < (made ops).length →
      (Lineage (made (ops ++ [.handle g m' p hs])) i l ↔ Lineage (made ops) i l) := by
    intro i l hi
    constructor
    · intro hl
      obtain ⟨l', h1, _⟩ := lineage_exists hrf i hi
      have h2 := lineage_mono h1 [⟨some g, m', p, hs⟩]
      rw [← hmade] at h2
      rw [hl.unique h2]
      exact h1
    · intro hl
      rw [hmade]
      exact lineage_mono hl _
  have hmeth : ∀ {i : Nat}, i < (made ops).length → methodOf (ops ++ [.handle g m' p hs]) i = methodOf ops i := by
    intro i hi
    unfold methodOf
    rw [hold hi]
  have hnew : methodOf (ops ++ [.handle g m' p hs]) (made ops).length = m' := by
    unfold methodOf
    rw [hmade, List.getElem?_append_right (Nat.le_refl _)]
    simp
  -- the endpoints of the method are the same
  have hsame : ∀ x : Nat × List Nat, x ∈ es.filter (fun x => methodOf ops x.1 = m) ↔
      x ∈ es'.filter (fun x => methodOf (ops ++ [.handle g m' p hs]) x.1 = m) := by
    intro x
    rw [List.mem_filter, List.mem_filter, hmem x.1 x.2, hmem' x.1 x.2]
    constructor
    · rintro ⟨⟨⟨hl, hh⟩, c, hc, hcm⟩, hx⟩
      have hi := hl.lt
      rw [hmeth hi]
      exact ⟨⟨⟨(hlin hi).2 hl, hh⟩, c, by rw [hold hi]; exact hc, hcm⟩, hx⟩
    · rintro ⟨⟨⟨hl, hh⟩, c, hc, hcm⟩, hx⟩
      have hlt := hl.lt
      have hi : x.1 < (made ops).length := by
        rw [hmade] at hlt
        simp only [List.length_append, List.length_cons, List.length_nil] at hlt
        have : x.1 ≠ (made ops).length := by
          intro hh
          rw [hh, hnew] at hx
          exact hmm (by simpa using hx)
        omega
      rw [hmeth hi] at hx
      exact ⟨⟨⟨(hlin hi).1 hl, hh⟩, c, by rw [← hold hi]; exact hc, hcm⟩, hx⟩
  have hlist : es.filter (fun x => methodOf ops x.1 = m) =
      es'.filter (fun x => methodOf (ops ++ [.handle g m' p hs]) x.1 = m) := by
    refine sorted_ext (R := fun a b => a.2 < b.2) (fun a b h1 h2 => List.lt_asymm h1 h2) ?_ ?_ hsame
    · exact (hord.filter _).imp (fun h1 => precedes_lt h1)
    · exact (hord'.filter _).imp (fun h1 => precedes_lt h1)
  have huse : ∀ i, usesOf (ops ++ [.handle g m' p hs]) i = usesOf ops i := by
    intro i
    rw [usesOf_snoc]
    simp [usesBy]
  have hbef : ∀ i, beforesOf (ops ++ [.handle g m' p hs]) i = beforesOf ops i := by
    intro i
    simp [beforesOf, beforesBy]
  have hroute : ∀ x ∈ es.filter (fun x => methodOf ops x.1 = m),
      routeFor (ops ++ [.handle g m' p hs]) r x = routeFor ops r x := by
    intro x hx
    obtain ⟨hu, _⟩ := (hmem x.1 x.2).1 (List.mem_filter.1 hx).1
    have hi := hu.1.lt
    have hj : ∀ j ∈ x.2, j < (made ops).length := fun j hj => Nat.lt_of_le_of_lt (lineage_lt hrf hu.1 j hj) hi
    have hpath : ∀ l : List Nat, (∀ j ∈ l, j < (made ops).length) →
        fullPath (ops ++ [.handle g m' p hs]) l = fullPath ops l := by
      intro l hl
      unfold fullPath
      induction l with
      | nil => rfl
      | cons j l ih =>
        rw [List.flatMap_cons, List.flatMap_cons, ih (fun k hk => hl k (by simp [hk]))]
        congr 2
        unfold patternOf
        rw [hold (hl j (by simp))]
    have hchain : chainOf (ops ++ [.handle g m' p hs]) r x.1 x.2 = chainOf ops r x.1 x.2 := by
      unfold chainOf handlersOf
      rw [hbef, hold hi]
      congr 2
      exact congrArg (fun f => x.2.flatMap f) (funext huse)
    unfold routeFor
    rw [hmeth hi, hpath x.2 hj, hchain]
  have hfil : ∀ (ops : List (Op α)) (l : List (Nat × List Nat)), (l.map (routeFor ops r)).filter (fun v => v.method = m) =
      (l.filter (fun x => methodOf ops x.1 = m)).map (routeFor ops r) := by
    intro ops l
    rw [List.filter_map]
    rfl
  refine C77_isolated he he' hd hd' ?_ m ?_ path
  · obtain ⟨_, _, _, _, k4, _⟩ := handler_spec hrf (r := r) (handler_ok h he).1 opts
    obtain ⟨_, _, _, _, k4', _⟩ := handler_spec (run_reflects h') (r := r) (handler_ok h' he').1 opts
    rw [(k4 _ _ hd).1, (k4' _ _ hd').1]
  · rw [hfil, hfil, ← hlist]
    exact List.map_congr_left (fun x hx => (hroute x hx).symm)

namespace Demo

/-- the hypotheses of C77 are met: a PUT route is added on the root, for a path that other methods serve -/
example : withRouter demoOps 0 [] (fun _ => true) = true ∧
    withRouter (demoOps ++ [.handle 0 mPUT b!"/api/users" [fn 14]]) 0 [] (fun _ => true) = true ∧
    withRouter demoOps 0 [] (fun e => (routeOf rx e mPUT b!"/api/users").isNone) = true ∧
    withRouter (demoOps ++ [.handle 0 mPUT b!"/api/users" [fn 14]]) 0 []
      (fun e => (routeOf rx e mPUT b!"/api/users").isSome) = true := by decide +kernel

end Demo

end Water
