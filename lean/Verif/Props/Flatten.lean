import Verif.Props.Router
import Verif.Lemmas.Util
import Verif.Lemmas.Values
/-
C76: groups are a notation. Whatever was registered with groups and middleware can be registered on one router without groups,
and the engine is the same.
-/
namespace Water
open Spec
variable {α : Type}

/-! ### a history without groups -/

/-- an endpoint to be registered on the root: method, path, handlers -/
abbrev Flat (α : Type) := Str × Str × List (HVal α)

/-- one router, its Before handlers, and endpoints -/
def flatOps (bs : List (HVal α)) (L : List (Flat α)) : List (Op α) :=
  .newRouter :: .before 0 bs :: L.map (fun x => .handle 0 x.1 x.2.1 x.2.2)

theorem made_flat (bs : List (HVal α)) (L : List (Flat α)) :
    made (flatOps bs L) = ⟨none, [], [], []⟩ :: L.map (fun x => ⟨some 0, x.1, x.2.1, x.2.2⟩) := by
  unfold made flatOps
  simp only [List.filterMap_cons, madeBy, List.filterMap_map]
  congr 1
  induction L with
  | nil => rfl
  | cons x L ih => simp only [List.filterMap_cons, Function.comp, madeBy, List.map_cons] at ih ⊢; rw [ih]

theorem usesOf_flat (bs : List (HVal α)) (L : List (Flat α)) (i : Nat) : usesOf (flatOps bs L) i = [] := by
  unfold usesOf flatOps
  simp only [List.flatMap_cons, usesBy, List.nil_append]
  induction L with
  | nil => rfl
  | cons x L ih => simpa only [List.map_cons, List.flatMap_cons, usesBy, List.nil_append] using ih

theorem beforesOf_flat (bs : List (HVal α)) (L : List (Flat α)) : beforesOf (flatOps bs L) 0 = bs := by
  unfold beforesOf flatOps
  simp only [List.flatMap_cons, beforesBy, List.nil_append, if_true]
  have : (L.map (fun x => (Op.handle 0 x.1 x.2.1 x.2.2 : Op α))).flatMap (beforesBy 0) = [] := by
    induction L with
    | nil => rfl
    | cons x L ih => simpa only [List.map_cons, List.flatMap_cons, beforesBy, List.nil_append] using ih
  rw [this, List.append_nil]

/-- the record of an endpoint on the root -/
def flatNode (x : Flat α) : RNode α :=
  { method := x.1, pattern := x.2.1, gbefores := [], befores := [], handlers := x.2.2, parent := some 0, sub := [] }

theorem run_handles {heap : Heap α} {L : List (Flat α)} (h0 : ∃ n, heap[0]? = some n ∧ n.method = [])
    (hL : ∀ x ∈ L, x.1 ∈ methodNames ∧ .nil ∉ x.2.2) :
    ∃ heap', runOps heap (L.map (fun x => .handle 0 x.1 x.2.1 x.2.2)) = .ok heap' := by
  induction L generalizing heap with
  | nil => exact ⟨heap, rfl⟩
  | cons x L ih =>
    obtain ⟨n, hn, hm⟩ := h0
    obtain ⟨h1, h2⟩ := hL x (by simp)
    have hstep : step heap (.handle 0 x.1 x.2.1 x.2.2) = .ok (addChild heap 0 (flatNode x)) := by
      simp only [step, hn]
      rw [if_neg (by simp [hm, h1])]
      rw [if_neg]
      · rfl
      · rw [List.any_eq_true]
        rintro ⟨y, hy, hyn⟩
        cases y <;> first | exact h2 hy | cases hyn
    simp only [List.map_cons, runOps, hstep, bind, Except.bind]
    refine ih ?_ (fun y hy => hL y (by simp [hy]))
    cases heap with
    | nil => cases hn
    | cons a t =>
      simp only [List.getElem?_cons_zero, Option.some.injEq] at hn
      subst hn
      refine ⟨{ a with sub := a.sub ++ [(a :: t).length] }, ?_, hm⟩
      unfold addChild
      rw [List.getElem?_append_left (by simp)]
      simp

theorem run_flat {bs : List (HVal α)} {L : List (Flat α)} (hL : ∀ x ∈ L, x.1 ∈ methodNames ∧ .nil ∉ x.2.2) :
    ∃ heap', runOps [] (flatOps bs L) = .ok heap' := by
  unfold flatOps
  simp only [runOps, step, bind, Except.bind, List.nil_append, List.getElem?_cons_zero, ne_eq, not_true, if_false]
  exact run_handles ⟨_, by rfl, rfl⟩ hL

theorem flat_zero {bs : List (HVal α)} {L : List (Flat α)} {i : Nat} {c : Made α}
    (h : (made (flatOps bs L))[i]? = some c) : (i = 0 ∧ c.parent = none) ∨
      ∃ k x, i = k + 1 ∧ L[k]? = some x ∧ c = ⟨some 0, x.1, x.2.1, x.2.2⟩ := by
  rw [made_flat] at h
  cases i with
  | zero =>
    simp only [List.getElem?_cons_zero, Option.some.injEq] at h
    subst h
    exact .inl ⟨rfl, rfl⟩
  | succ k =>
    simp only [List.getElem?_cons_succ, List.getElem?_map, Option.map_eq_some_iff] at h
    obtain ⟨x, hx, hc⟩ := h
    exact .inr ⟨k, x, rfl, hx, hc.symm⟩

theorem flat_made {bs : List (HVal α)} {L : List (Flat α)} {k : Nat} {x : Flat α} (h : L[k]? = some x) :
    (made (flatOps bs L))[k + 1]? = some ⟨some 0, x.1, x.2.1, x.2.2⟩ := by
  rw [made_flat, List.getElem?_cons_succ, List.getElem?_map, h]
  rfl

theorem flat_root {bs : List (HVal α)} {L : List (Flat α)} :
    (made (flatOps bs L))[0]? = some ⟨none, [], [], []⟩ := by
  rw [made_flat]; rfl

theorem flat_under {bs : List (HVal α)} {L : List (Flat α)} (hL : L ≠ []) {e : Nat × List Nat} :
    (Under (flatOps bs L) 0 e.1 e.2 ∧ Childless (flatOps bs L) e.1) ↔ ∃ k, k < L.length ∧ e = (k + 1, [0, k + 1]) := by
  have hroot : Lineage (made (flatOps bs L)) 0 [0] := .root flat_root rfl
  constructor
  · rintro ⟨⟨hl, _⟩, hc⟩
    obtain ⟨i, l⟩ := e
    simp only [] at hl hc
    cases hl with
    | @root _ c h1 h2 =>
      exfalso
      rcases flat_zero h1 with ⟨h0, _⟩ | ⟨k, x, _, _, h5⟩
      · subst h0
        obtain ⟨x, L', rfl⟩ := List.exists_cons_of_ne_nil hL
        have := flat_made (bs := bs) (L := x :: L') (k := 0) (x := x) rfl
        exact hc _ (List.mem_of_getElem? this) rfl
      · subst h5; cases h2
    | @child _ p c l' h1 h2 h3 =>
      rcases flat_zero h1 with ⟨_, h5⟩ | ⟨k, x, h4, h5, h6⟩
      · rw [h5] at h2; cases h2
      · subst h6
        simp only [Option.some.injEq] at h2
        subst h2
        subst h4
        rw [h3.unique hroot]
        exact ⟨k, (List.getElem?_eq_some_iff.1 h5).1, rfl⟩
  · rintro ⟨k, hk, rfl⟩
    have hx : L[k]? = some L[k] := by simp [hk]
    refine ⟨⟨.child (flat_made hx) rfl hroot, rfl⟩, ?_⟩
    intro c hc hp
    obtain ⟨j, hj⟩ := List.mem_iff_getElem?.1 hc
    rcases flat_zero hj with ⟨_, h5⟩ | ⟨_, _, _, _, h6⟩
    · rw [h5] at hp; cases hp
    · subst h6
      simp at hp

/-- lists in strictly increasing order with the same elements are equal -/
theorem sorted_ext {β : Type} {R : β → β → Prop} (hR : ∀ a b, R a b → R b a → False) :
    ∀ {l l' : List β}, l.Pairwise R → l'.Pairwise R → (∀ x, x ∈ l ↔ x ∈ l') → l = l'
  | [], [], _, _, _ => rfl
  | [], b :: l', _, _, h => absurd ((h b).2 (by simp)) (by simp)
  | a :: l, [], _, _, h => absurd ((h a).1 (by simp)) (by simp)
  | a :: l, b :: l', h1, h2, h => by
    rw [List.pairwise_cons] at h1 h2
    have hab : a = b := by
      have ha := (h a).1 (by simp)
      have hb := (h b).2 (by simp)
      rw [List.mem_cons] at ha hb
      rcases ha with ha | ha
      · exact ha
      · rcases hb with hb | hb
        · exact hb.symm
        · exact (hR a b (h1.1 b hb) (h2.1 a ha)).elim
    subst hab
    rw [sorted_ext hR h1.2 h2.2]
    intro x
    constructor
    · intro hx
      have := (h x).1 (by simp [hx])
      rw [List.mem_cons] at this
      rcases this with rfl | this
      · exact (hR x x (h1.1 x hx) (h1.1 x hx)).elim
      · exact this
    · intro hx
      have := (h x).2 (by simp [hx])
      rw [List.mem_cons] at this
      rcases this with rfl | this
      · exact (hR x x (h2.1 x hx) (h2.1 x hx)).elim
      · exact this

theorem precedes_pair {a b : Nat} (h : Precedes [0, a] [0, b]) : a < b := by
  obtain ⟨c, x, s, y, t, h1, h2, h3⟩ := h
  match c with
  | [] =>
    simp only [List.nil_append, List.cons.injEq] at h1 h2
    omega
  | [z] =>
    simp only [List.cons_append, List.nil_append, List.cons.injEq] at h1 h2
    omega
  | z :: z' :: c =>
    simp only [List.cons_append, List.cons.injEq] at h1
    have := congrArg List.length h1.2.2
    simp at this

theorem flat_leaves {bs : List (HVal α)} {L : List (Flat α)} (hL : L ≠ []) {es : List (Nat × List Nat)}
    (h1 : ∀ e, e ∈ es ↔ Under (flatOps bs L) 0 e.1 e.2 ∧ Childless (flatOps bs L) e.1)
    (h2 : es.Pairwise (fun a b => Precedes a.2 b.2)) : es = (List.range L.length).map (fun k => (k + 1, [0, k + 1])) := by
  have hmem : ∀ e, e ∈ es ↔ ∃ k, k < L.length ∧ e = (k + 1, [0, k + 1]) := fun e => (h1 e).trans (flat_under hL)
  refine sorted_ext (R := fun a b => a.1 < b.1) (fun a b (h3 : a.1 < b.1) (h4 : b.1 < a.1) => by omega) ?_ ?_ ?_
  · refine h2.imp_of_mem ?_
    intro a b ha hb hab
    obtain ⟨k, _, rfl⟩ := (hmem a).1 ha
    obtain ⟨j, _, rfl⟩ := (hmem b).1 hb
    exact precedes_pair hab
  · rw [List.pairwise_map]
    refine List.pairwise_lt_range.imp ?_
    intro a b h; show a + 1 < b + 1; omega
  · intro e
    rw [hmem, List.mem_map]
    constructor
    · rintro ⟨k, hk, rfl⟩; exact ⟨k, by simpa using hk, rfl⟩
    · rintro ⟨k, hk, rfl⟩; exact ⟨k, by simpa using hk, rfl⟩

theorem routes_flat {bs : List (HVal α)} {L : List (Flat α)} (hL : ∀ x ∈ L, x.1 ≠ []) :
    routesOf (flatOps bs L) 0 ((List.range L.length).map (fun k => (k + 1, [0, k + 1]))) =
      L.map (fun x => { method := x.1, uri := trimSpace x.2.1, variant := [], handlers := (bs ++ x.2.2).filterMap payload }) := by
  have hp0 : patternOf (flatOps bs L) 0 = [] := by unfold patternOf; rw [flat_root]; rfl
  have hk : ∀ k (hk : k < L.length), methodOf (flatOps bs L) (k + 1) = L[k].1 ∧ patternOf (flatOps bs L) (k + 1) = L[k].2.1 ∧
      handlersOf (flatOps bs L) (k + 1) = L[k].2.2 := by
    intro k hk
    have hx : L[k]? = some L[k] := by simp [hk]
    unfold methodOf patternOf handlersOf
    rw [flat_made hx]
    exact ⟨rfl, rfl, rfl⟩
  unfold routesOf
  rw [List.filter_eq_self.2]
  · refine List.ext_getElem? ?_
    intro k
    rw [List.getElem?_map, List.getElem?_map, List.getElem?_map]
    by_cases hlt : k < L.length
    · have hx : L[k]? = some L[k] := by simp [hlt]
      rw [hx, List.getElem?_range hlt]
      simp only [Option.map_some]
      obtain ⟨hm, hpat, hh⟩ := hk k hlt
      unfold routeFor fullPath chainOf
      simp only [List.flatMap_cons, List.flatMap_nil, usesOf_flat, hp0, hm, hpat, hh, beforesOf_flat, List.append_nil]

      rw [show trimSpace [] = [] by decide, List.nil_append]
    · have hx : L[k]? = none := by simp; omega
      rw [hx, List.getElem?_eq_none (by simp; omega)]
      rfl
  · intro e he
    rw [List.mem_map] at he
    obtain ⟨k, hkr, rfl⟩ := he
    have hlt : k < L.length := by simpa using hkr
    simp only [(hk k hlt).1]
    simpa using hL _ (List.getElem_mem hlt)

/-! ### full paths of ASCII patterns are trimmed -/

theorem ascii_space (c : UInt8) (h : c < 128) (hn : ¬ NonSpace c) : [c] ∈ spaceEnc := by
  revert h hn
  revert c
  exact all_bytes (by decide +kernel)

/-- begins and ends with no part of a space -/
def CleanEnds (s : Str) : Prop := (∀ c, s.head? = some c → NonSpace c) ∧ ∀ c, s.getLast? = some c → NonSpace c

theorem cleanEnds_append {a b : Str} (ha : CleanEnds a) (hb : CleanEnds b) : CleanEnds (a ++ b) := by
  refine ⟨?_, ?_⟩
  · intro c hc
    cases a with
    | nil => exact hb.1 c hc
    | cons x t => exact ha.1 c (by simpa using hc)
  · intro c hc
    rw [List.getLast?_append] at hc
    cases hl : b.getLast? with
    | none => rw [hl] at hc; exact ha.2 c (by simpa using hc)
    | some x => rw [hl] at hc; simp at hc; subst hc; exact hb.2 x hl

theorem cleanEnds_trim {s : Str} (h : ∀ c ∈ s, c < 128) : CleanEnds (trimSpace s) := by
  have hascii : ∀ c ∈ trimSpace s, c < 128 := fun c hc => h c (mem_of_mem_trimSpace hc)
  refine ⟨?_, ?_⟩
  · intro c hc
    refine Decidable.byContradiction fun hn => ?_
    have he := ascii_space c (hascii c (List.mem_of_head? hc)) hn
    refine trimLeft_noEnc s [c] he (List.IsPrefix.trans ?_ (trimRight_prefix _))
    show [c] <+: trimSpace s
    cases ht : trimSpace s with
    | nil => rw [ht] at hc; cases hc
    | cons x t =>
      rw [ht] at hc
      simp only [List.head?_cons, Option.some.injEq] at hc
      subst hc
      exact ⟨t, rfl⟩
  · intro c hc
    refine Decidable.byContradiction fun hn => ?_
    have he := ascii_space c (hascii c (List.mem_of_getLast? hc)) hn
    have hno := stripF_noEnc spaceEncRev_ne (trimLeft s).length (trimLeft s).reverse (by simp)
    have hrev : stripF (spaceEnc.map List.reverse) (trimLeft s).length (trimLeft s).reverse = (trimSpace s).reverse := by
      unfold trimSpace trimRight
      rw [List.reverse_reverse]
    rw [hrev] at hno
    refine hno [c] (List.mem_map.2 ⟨[c], he, rfl⟩) ?_
    obtain ⟨ys, hy⟩ := List.getLast?_eq_some_iff.1 hc
    rw [hy]
    simp

theorem trim_fullPath {ops : List (Op α)} (h : ∀ c ∈ made ops, ∀ b ∈ c.pattern, b < 128) (l : List Nat) :
    trimSpace (fullPath ops l) = fullPath ops l := by
  have hc : CleanEnds (fullPath ops l) := by
    unfold fullPath
    induction l with
    | nil => exact ⟨by simp, by simp⟩
    | cons i l ih =>
      rw [List.flatMap_cons]
      refine cleanEnds_append (cleanEnds_trim ?_) ih
      unfold patternOf
      cases hi : (made ops)[i]? with
      | none => simp
      | some c => exact h c (List.mem_of_getElem? hi)
  exact trimSpace_ends hc.1 hc.2

/-! ### C76 -/

/-- what is registered in place of an endpoint: its full path, the middleware of all enclosing routers, and its handlers -/
def flatFor (ops : List (Op α)) (e : Nat × List Nat) : Flat α :=
  (methodOf ops e.1, fullPath ops e.2, e.2.flatMap (usesOf ops) ++ handlersOf ops e.1)

/-- C76: the same engine is built by a history without any group or `Use`: one router with the Before handlers of the root, and
every endpoint registered with its full path and the middleware of all enclosing routers, in depth-first order. (`htrim` excludes
full paths that end in white space; as every pattern is trimmed this takes two patterns that are not valid UTF-8, whose last and
first bytes together encode a space.) -/
theorem C76_flat {rx : Regex} {ops : List (Op α)} {heap : Heap α} (h : runOps [] ops = .ok heap) {r : Nat}
    {opts : List (Opt α)} {e : Engine α} (he : handler rx heap r opts = .ok e) (hne : ∃ i l, Endpoint ops r i l)
    (htrim : ∀ i l, Endpoint ops r i l → trimSpace (fullPath ops l) = fullPath ops l) :
    ∃ es : List (Nat × List Nat),
      (∀ i l, (i, l) ∈ es ↔ Endpoint ops r i l) ∧ es.Pairwise (fun a b => Precedes a.2 b.2) ∧
      ∃ heap', runOps [] (.newRouter :: .before 0 (beforesOf ops r) ::
          es.map (fun x => .handle 0 (methodOf ops x.1) (fullPath ops x.2) (x.2.flatMap (usesOf ops) ++ handlersOf ops x.1))) =
            .ok heap' ∧
        handler rx heap' 0 opts = .ok e := by
  have hrf := run_reflects h
  obtain ⟨es, hmem, _, hord, hdump, hmk⟩ := C20_endpoints h he
  obtain ⟨_, es0, h1, _, hopt, hnf, hgood, _, _, _⟩ := handler_ok h he
  have hgc : ∀ x ∈ es, GoodChain ops r x := by
    intro x hx
    have hend := (hmem x.1 x.2).1 hx
    exact hgood x ((h1 x).2 ⟨hend.1, endpoint_childless hrf hend⟩)
  have hmeth : ∀ x ∈ es, methodOf ops x.1 ∈ methodNames ∧ methodOf ops x.1 ≠ [] := by
    intro x hx
    obtain ⟨_, c, hc, hm⟩ := (hmem x.1 x.2).1 hx
    obtain ⟨n, _, ho⟩ := nodeAt hrf hc
    rw [(getElem_handlersOf hc).1]
    exact ⟨(ho.leaf hm).1, hm⟩
  have hrun : ∃ heap', runOps [] (flatOps (beforesOf ops r) (es.map (flatFor ops))) = .ok heap' := by
    refine run_flat ?_
    intro x hx
    obtain ⟨y, hy, rfl⟩ := List.mem_map.1 hx
    refine ⟨(hmeth y hy).1, ?_⟩
    intro hn
    have := (hgc y hy).2 .nil (by
      unfold chainOf
      rw [List.append_assoc]
      exact List.mem_append.2 (.inr hn))
    cases this
  obtain ⟨heap', hrun⟩ := hrun
  have hops : flatOps (beforesOf ops r) (es.map (flatFor ops)) = .newRouter :: .before 0 (beforesOf ops r) ::
      es.map (fun x => .handle 0 (methodOf ops x.1) (fullPath ops x.2) (x.2.flatMap (usesOf ops) ++ handlersOf ops x.1)) := by
    unfold flatOps
    rw [List.map_map]
    rfl
  refine ⟨es, hmem, hord, heap', by rw [← hops]; exact hrun, ?_⟩
  have hLne : es.map (flatFor ops) ≠ [] := by
    obtain ⟨i, l, hend⟩ := hne
    intro hh
    rw [List.map_eq_nil_iff] at hh
    have := (hmem i l).2 hend
    rw [hh] at this
    cases this
  have hrf' := run_reflects hrun
  obtain ⟨es', g1, g2, g3, g4, _⟩ := handler_spec hrf' (r := 0) ⟨_, flat_root, rfl⟩ opts
  have hes' := flat_leaves hLne g1 g2
  have hroutes : routesOf (flatOps (beforesOf ops r) (es.map (flatFor ops))) 0 es' = es.map (routeFor ops r) := by
    rw [hes', routes_flat]
    · rw [List.map_map]
      refine List.map_congr_left ?_
      intro x hx
      have ht := htrim x.1 x.2 ((hmem x.1 x.2).1 hx)
      simp only [Function.comp, flatFor, ht]
      unfold routeFor chainOf
      rw [List.append_assoc]
    · intro x hx
      obtain ⟨y, hy, rfl⟩ := List.mem_map.1 hx
      exact (hmeth y hy).2
  have hnf' : noFoundOf (flatOps (beforesOf ops r) (es.map (flatFor ops))) 0 opts = noFoundOf ops r opts := by
    unfold noFoundOf
    rw [beforesOf_flat]
  obtain ⟨o, hd⟩ := hdump
  have hdf : ∃ x, dumpFor heap' 0 opts = .ok x := by
    refine g3.2 ⟨hopt, ?_, ?_, ?_⟩
    · rw [hnf']; exact hnf
    · intro x hx
      rw [hes', List.mem_map] at hx
      obtain ⟨k, hk, rfl⟩ := hx
      have hlt : k < es.length := by simpa using hk
      have hx : (es.map (flatFor ops))[k]? = some (flatFor ops es[k]) := by simp [hlt]
      have hg := hgc es[k] (List.getElem_mem hlt)
      have hch : chainOf (flatOps (beforesOf ops r) (es.map (flatFor ops))) 0 (k + 1) [0, k + 1] =
          chainOf ops r es[k].1 es[k].2 := by
        unfold chainOf
        simp only [List.flatMap_cons, List.flatMap_nil, usesOf_flat, beforesOf_flat, List.append_nil]
        rw [show handlersOf (flatOps (beforesOf ops r) (es.map (flatFor ops))) (k + 1) = (flatFor ops es[k]).2.2 by
          unfold handlersOf; rw [flat_made hx]; rfl]
        unfold flatFor
        rw [List.append_assoc]
      unfold GoodChain
      rw [hch]
      exact hg
    · rw [hroutes]
      obtain ⟨es1, k1, _, k3, k4, _⟩ := handler_spec hrf (r := r) (handler_ok h he).1 opts
      have := (k4 o _ hd).2.2.2
      rw [this]
      exact (k3.1 ⟨_, hd⟩).2.2.2
  obtain ⟨⟨o', rs⟩, hdf⟩ := hdf
  obtain ⟨q1, q2, _, q4⟩ := g4 o' rs hdf
  unfold handler
  rw [hdf]
  simp only [bind, Except.bind]
  rw [q1, q2, q4, hroutes, hnf']
  exact hmk

/-- C76 for histories whose patterns are ASCII. -/
theorem C76_ascii {rx : Regex} {ops : List (Op α)} {heap : Heap α} (h : runOps [] ops = .ok heap) {r : Nat}
    {opts : List (Opt α)} {e : Engine α} (he : handler rx heap r opts = .ok e) (hne : ∃ i l, Endpoint ops r i l)
    (hascii : ∀ c ∈ made ops, ∀ b ∈ c.pattern, b < 128) :
    ∃ es : List (Nat × List Nat),
      (∀ i l, (i, l) ∈ es ↔ Endpoint ops r i l) ∧ es.Pairwise (fun a b => Precedes a.2 b.2) ∧
      ∃ heap', runOps [] (.newRouter :: .before 0 (beforesOf ops r) ::
          es.map (fun x => .handle 0 (methodOf ops x.1) (fullPath ops x.2) (x.2.flatMap (usesOf ops) ++ handlersOf ops x.1))) =
            .ok heap' ∧
        handler rx heap' 0 opts = .ok e :=
  C76_flat h he hne (fun _ l _ => trim_fullPath hascii l)

namespace Demo

/-- routers with groups inside groups, middleware and Before handlers -/
def nestedOps : List (Op Nat) :=
  [.newRouter, .group 0 b!"/api", .use 1 [fn 1], .group 1 b!" /v1", .handle 2 mGET b!"/:id" [fn 2], .use 2 [fn 3], .before 0 [fn 4],
   .handle 0 mPOST b!"/top" [fn 5]]

/-- the same without groups -/
def nestedFlat : List (Op Nat) :=
  [.newRouter, .before 0 [fn 4], .handle 0 mGET b!"/api/v1/:id" [fn 1, fn 3, fn 2], .handle 0 mPOST b!"/top" [fn 5]]

/-- the hypotheses of C76 are met, and the flat history is the one given there -/
example : (made nestedOps).all (fun c => c.pattern.all (· < 128)) = true ∧
    withRouter nestedOps 0 [] (fun _ => true) = true ∧ withRouter nestedFlat 0 [] (fun _ => true) = true ∧
    flatOps (beforesOf nestedOps 0) [flatFor nestedOps (3, [0, 1, 2, 3]), flatFor nestedOps (4, [0, 4])] = nestedFlat :=
  ⟨by decide +kernel, by decide +kernel, by decide +kernel, by rfl⟩

end Demo

end Water
