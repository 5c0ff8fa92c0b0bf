import Verif.Lemmas.Print
import Verif.Lemmas.Text
import Verif.Props.Router
import Verif.Lemmas.Serve
/-
C67: the numbers of handlers in the printed lists of routes.
-/
namespace Water
open Spec
variable {α : Type}

/-- the store of an engine -/
theorem handler_store {rx : Regex} {ops : List (Op α)} {heap : Heap α} (h : runOps [] ops = .ok heap) {r : Nat}
    {opts : List (Opt α)} {e : Engine α} (he : handler rx heap r opts = .ok e) :
    ∃ rs, storeOf heap r = .ok rs ∧ StoreMap rs ∧ ∃ es : List (Nat × List Nat),
      (∀ i l, (i, l) ∈ es ↔ Endpoint ops r i l) ∧ (es.map Prod.fst).Nodup ∧ es.Pairwise (fun a b => Precedes a.2 b.2) ∧
      rs.routeSlice = es.map (routeFor ops r) ∧
      ∀ x ∈ es, ((chainOf ops r x.1 x.2).filterMap payload).length = (chainOf ops r x.1 x.2).length := by
  obtain ⟨es, h1, h2, h3, ⟨o, h4⟩, _⟩ := C20_endpoints h he
  obtain ⟨_, es', g1, _, _, _, g5, _, _, _⟩ := handler_ok h he
  have hst : ∃ rs, storeOf heap r = .ok rs ∧ rs.routeSlice = es.map (routeFor ops r) := by
    unfold dumpFor at h4
    cases hn : heap[r]? with
    | none => rw [hn] at h4; cases h4
    | some n =>
      rw [hn] at h4
      simp only at h4
      split at h4
      · cases h4
      · split at h4
        · cases h4
        · cases ha : applyOpts noOptions opts with
          | error p => rw [ha] at h4; cases h4
          | ok o1 =>
            rw [ha] at h4
            simp only [bind, Except.bind] at h4
            cases hb : withBefores o1 n.gbefores with
            | error p => rw [hb] at h4; cases h4
            | ok o2 =>
              rw [hb] at h4
              simp only at h4
              cases hc : dumpRoute heap heap.length r newRouteStore with
              | error p => rw [hc] at h4; cases h4
              | ok rs =>
                rw [hc] at h4
                simp only [pure, Except.pure, Except.ok.injEq, Prod.mk.injEq] at h4
                exact ⟨rs, hc, h4.2⟩
  obtain ⟨rs, hs1, hs2⟩ := hst
  refine ⟨rs, hs1, storeMap_dump heap _ storeMap_new hs1, es, h1, h2, h3, hs2, ?_⟩
  intro x hx
  have hend := (h1 x.1 x.2).1 hx
  have hg := (g5 x ((g1 x).2 ⟨hend.1, endpoint_childless (run_reflects h) hend⟩)).2
  generalize chainOf ops r x.1 x.2 = c at hg ⊢
  induction c with
  | nil => rfl
  | cons a c ih =>
    obtain ⟨p, hp⟩ := Option.isSome_iff_exists.1 (hg a (by simp))
    rw [List.filterMap_cons, hp]
    simp [ih (fun y hy => hg y (by simp [hy]))]

/-- C67: `PrintRawAllRoutes` writes one line for each endpoint, in registration order, depth first, with its method, the length
of its chain and its path. -/
theorem C67_all {rx : Regex} {ops : List (Op α)} {heap : Heap α} (h : runOps [] ops = .ok heap) {r : Nat}
    {opts : List (Opt α)} {e : Engine α} (he : handler rx heap r opts = .ok e) :
    ∃ rs, storeOf heap r = .ok rs ∧ ∃ es : List (Nat × List Nat),
      (∀ i l, (i, l) ∈ es ↔ Endpoint ops r i l) ∧ (es.map Prod.fst).Nodup ∧ es.Pairwise (fun a b => Precedes a.2 b.2) ∧
      printRawAllRoutes rs.routeSlice = if es = [] then [b!"no route"] else es.map (allLine ops r) := by
  obtain ⟨rs, h1, _, es, h2, h3, h4, h5, h6⟩ := handler_store h he
  refine ⟨rs, h1, es, h2, h3, h4, ?_⟩
  unfold printRawAllRoutes
  rw [h5]
  by_cases hn : es = []
  · simp [hn]
  · rw [if_neg hn, if_neg (by simpa using hn), List.map_map]
    apply List.map_congr_left
    intro x hx
    simp only [Function.comp_apply, routeFor, allLine, h6 x hx, method7, padRight]

/-- The lines of `PrintRawRoutes`, for the method in upper case. -/
theorem routes_upper {rx : Regex} {ops : List (Op α)} {heap : Heap α} (h : runOps [] ops = .ok heap) {r : Nat}
    {opts : List (Opt α)} {e : Engine α} (he : handler rx heap r opts = .ok e) :
    ∃ rs, storeOf heap r = .ok rs ∧
      (∀ m keys, toUpper m ∉ methodNames → printRawRoutes rs keys m = none) ∧
      ∀ m, toUpper m ∈ methodNames → ∃ byUri, rs.routeMap (toUpper m) = some byUri ∧
        ∀ keys : List Str, keys.Nodup → (∀ u, u ∈ keys ↔ (byUri u).isSome) →
          ∃ es : List (Nat × List Nat), (∀ i l, (i, l) ∈ es ↔ Endpoint ops r i l ∧ methodOf ops i = toUpper m) ∧
            (es.map (fun x => fullPath ops x.2)).Nodup ∧ es.Pairwise (fun a b => fullPath ops a.2 ≤ fullPath ops b.2) ∧
            printRawRoutes rs keys m = some (if es = [] then [b!"no route"] else es.map (methodLine ops r)) := by
  obtain ⟨rs, h1, hmap, es, h2, h3, h4, h5, h6⟩ := handler_store h he
  refine ⟨rs, h1, ?_, ?_⟩
  · intro m keys hm
    unfold printRawRoutes checkMethod
    rw [methodIndex_none.2 hm]
    rfl
  · intro m hm
    obtain ⟨byUri, hb1, hb2⟩ := hmap _ hm
    refine ⟨byUri, hb1, ?_⟩
    intro keys hnd hkeys
    obtain ⟨idx, hidx⟩ : ∃ idx, methodIndex (toUpper m) = some idx :=
      Option.ne_none_iff_exists'.1 (fun hx => methodIndex_none.1 hx hm)
    have hfind : ∀ u ∈ sortStrings keys, ∃ x, x ∈ es ∧ methodOf ops x.1 = toUpper m ∧ fullPath ops x.2 = u ∧
        byUri u = some (routeFor ops r x) := by
      intro u hu
      have hu' := (sortStrings_perm keys).mem_iff.1 hu
      obtain ⟨v, hv⟩ := Option.isSome_iff_exists.1 ((hkeys u).1 hu')
      obtain ⟨hv1, hv2, hv3⟩ := (hb2 u v).1 hv
      rw [h5] at hv1
      obtain ⟨x, hx, rfl⟩ := List.mem_map.1 hv1
      exact ⟨x, hx, hv2, hv3, hv⟩
    have hlist : ∀ ks : List Str, (∀ u ∈ ks, ∃ x, x ∈ es ∧ methodOf ops x.1 = toUpper m ∧ fullPath ops x.2 = u ∧
          byUri u = some (routeFor ops r x)) →
        ∃ xs : List (Nat × List Nat), xs.map (fun x => fullPath ops x.2) = ks ∧
          (∀ x ∈ xs, x ∈ es ∧ methodOf ops x.1 = toUpper m) ∧
          ks.mapM (fun v => (byUri v).map (fun route => b!"[" ++ padLeft 3 (itoaNat route.handlers.length) ++ b!"] " ++ v)) =
            some (xs.map (methodLine ops r)) := by
      intro ks
      induction ks with
      | nil => intro _; exact ⟨[], rfl, by simp, rfl⟩
      | cons u ks ih =>
        intro hks
        obtain ⟨x, hx, hxm, hxp, hxu⟩ := hks u (by simp)
        obtain ⟨xs, hxs, hxs2, hxs3⟩ := ih (fun v hv => hks v (by simp [hv]))
        refine ⟨x :: xs, by simp [hxp, hxs], ?_, ?_⟩
        · intro y hy
          rcases List.mem_cons.1 hy with rfl | hy
          · exact ⟨hx, hxm⟩
          · exact hxs2 y hy
        · rw [List.mapM_cons, hxu, hxs3]
          simp only [Option.map_some, bind, Option.bind, pure, List.map_cons, methodLine, routeFor, h6 x hx, hxp, number3, padLeft]
    obtain ⟨xs, hx1, hx2, hx3⟩ := hlist _ hfind
    refine ⟨xs, ?_, ?_, ?_, ?_⟩
    · intro i l
      constructor
      · intro hi
        obtain ⟨ha, hb⟩ := hx2 _ hi
        exact ⟨(h2 i l).1 ha, hb⟩
      · rintro ⟨hend, hmeth⟩
        have hmem : routeFor ops r (i, l) ∈ rs.routeSlice := by
          rw [h5]; exact List.mem_map_of_mem ((h2 i l).2 hend)
        have hby : byUri (fullPath ops l) = some (routeFor ops r (i, l)) := (hb2 _ _).2 ⟨hmem, hmeth, rfl⟩
        have hk : fullPath ops l ∈ sortStrings keys :=
          (sortStrings_perm keys).mem_iff.2 ((hkeys _).2 (by rw [hby]; rfl))
        rw [← hx1] at hk
        obtain ⟨⟨j, k⟩, hy, hyp⟩ := List.mem_map.1 hk
        obtain ⟨hy1, hy2⟩ := hx2 _ hy
        have hend' := (h2 j k).1 hy1
        by_cases hij : j = i
        · subst hij
          rw [hend.1.1.unique hend'.1.1]
          exact hy
        · obtain ⟨p, hp⟩ := C15_double_rejected (rx := rx) (opts := opts) h hend' hend hij (by rw [hmeth]; exact hy2) hyp
          rw [he] at hp; cases hp
    · rw [hx1]; exact (sortStrings_perm keys).nodup_iff.2 hnd
    · have := sortStrings_sorted keys
      rw [← hx1, List.pairwise_map] at this
      exact this
    · unfold printRawRoutes checkMethod
      rw [hidx]
      simp only [Option.map_some, hb1, Option.getD_some]
      have hlen : xs.length = keys.length := by
        rw [← (sortStrings_perm keys).length_eq, ← hx1]; simp
      cases hxe : xs with
      | nil =>
        subst hxe
        rw [if_pos (by simpa using hlen.symm)]
        simp
      | cons y ys =>
        rw [if_neg (by rw [← hlen, hxe]; simp), hx3, hxe]
        simp

/-- C67: `PrintRawRoutes` panics for an unsupported method, and otherwise writes one line for each endpoint of the method,
whose letters may be of either case, in the order of their paths, with the length of its chain; the order in which Go runs
through its map does not matter. -/
theorem C67_routes {rx : Regex} {ops : List (Op α)} {heap : Heap α} (h : runOps [] ops = .ok heap) {r : Nat}
    {opts : List (Opt α)} {e : Engine α} (he : handler rx heap r opts = .ok e) :
    ∃ rs, storeOf heap r = .ok rs ∧
      (∀ m keys, (∀ M ∈ methodNames, ¬ ReadsCapital M m) → printRawRoutes rs keys m = none) ∧
      ∀ M ∈ methodNames, ∀ m, ReadsCapital M m → ∃ byUri, rs.routeMap M = some byUri ∧
        ∀ keys : List Str, keys.Nodup → (∀ u, u ∈ keys ↔ (byUri u).isSome) →
          ∃ es : List (Nat × List Nat), (∀ i l, (i, l) ∈ es ↔ Endpoint ops r i l ∧ methodOf ops i = M) ∧
            (es.map (fun x => fullPath ops x.2)).Nodup ∧ es.Pairwise (fun a b => fullPath ops a.2 ≤ fullPath ops b.2) ∧
            printRawRoutes rs keys m = some (if es = [] then [b!"no route"] else es.map (methodLine ops r)) := by
  obtain ⟨rs, h1, h2, h3⟩ := routes_upper h he
  have cap : ∀ M ∈ methodNames, ∀ c ∈ M, capitalByte c := by decide +kernel
  refine ⟨rs, h1, ?_, ?_⟩
  · intro m keys hm
    exact h2 m keys (fun hx => hm _ hx ((toUpper_iff (cap _ hx)).1 rfl))
  · intro M hM m hm
    obtain rfl := (toUpper_iff (cap M hM)).2 hm
    exact h3 m hM

/-- C67: the chain run for a request has the length printed for an endpoint that accepts the request. -/
theorem C67_run {rx : Regex} {ops : List (Op α)} {heap : Heap α} (h : runOps [] ops = .ok heap) {r : Nat}
    {opts : List (Opt α)} {e : Engine α} (he : handler rx heap r opts = .ok e) (hst : staticOf opts = false) {m path : Str}
    {n : EndNode α} (hd : routeOf rx e m path = some n) :
    ∃ rs i l, storeOf heap r = .ok rs ∧ Endpoint ops r i l ∧ methodOf ops i = m ∧
      Accepts rx (routeSegs (fullPath ops l)) (pathSegs path) ∧
      b!"[" ++ method7 m ++ b!" : " ++ itoaNat n.handlers.length ++ b!"] " ++ fullPath ops l ∈ printRawAllRoutes rs.routeSlice := by
  obtain ⟨rs, h1, es, h2, _, _, h3⟩ := C67_all h he
  obtain ⟨i, l, hend, hm, hch, hacc⟩ := C17_chain h he hd
  refine ⟨rs, i, l, h1, hend, hm, ?_, ?_⟩
  · rcases hacc with hacc | ⟨hx, _⟩
    · exact hacc
    · rw [hst] at hx; cases hx
  · have hmem := (h2 i l).2 hend
    rw [h3, if_neg (List.ne_nil_of_mem hmem)]
    have hlen := congrArg List.length hch
    simp only [List.length_map] at hlen
    rw [hlen, ← hm]
    exact List.mem_map_of_mem hmem

/-- C67, partial: `PrintRawRouter` draws everything below the root, in reading order, and for each endpoint gives the number of
its handlers and those of the enclosing routers. Missing: the root's `Before` handlers, which run first, are not counted
(`C67_refuted`). -/
theorem C67_tree_partial {ops : List (Op α)} {heap : Heap α} (h : runOps [] ops = .ok heap) {r : Nat} (hr : IsRoot ops r) :
    ∃ es : List (Nat × List Nat), (∀ i l, (i, l) ∈ es ↔ Under ops r i l ∧ i ≠ r) ∧
      es.Pairwise (fun a b => ReadBefore a.2 b.2) ∧ printRawRouter heap r = es.map (treeLine ops) ∧
      ∀ x ∈ es, (beforesOf ops r).length + innerCount ops x = (chainOf ops r x.1 x.2).length := by
  have hrf := run_reflects h
  obtain ⟨c, hc, hp⟩ := hr
  have hl : Lineage (made ops) r [r] := .root hc hp
  have hlt := hl.lt
  refine ⟨preorder (made ops) heap.length r [r], ?_, preorder_sorted _ _ _ _, ?_, ?_⟩
  · intro i l
    rw [mem_preorder hrf _ hl (by omega)]
    unfold Under
    constructor
    · rintro ⟨h1, s, hs, rfl⟩
      refine ⟨⟨h1, rfl⟩, ?_⟩
      rintro rfl
      have := congrArg List.length (h1.unique hl)
      cases s with
      | nil => exact hs rfl
      | cons a s => simp at this
    · rintro ⟨⟨h1, h2⟩, hne⟩
      refine ⟨h1, ?_⟩
      cases l with
      | nil => cases h2
      | cons y ys =>
        simp at h2; subst h2
        refine ⟨ys, ?_, rfl⟩
        rintro rfl
        have := h1.last
        simp at this
        exact hne this.symm
  · unfold printRawRouter
    rw [subOf_spec hrf hlt, rawRouter_spec hrf heap.length hl (by omega) (pre := []) (D := []) rfl .nil]
    apply List.map_congr_left
    intro x hx
    obtain ⟨k, s, _, hk⟩ := preorder_below _ hx
    unfold treeLine label
    rw [hk]
    simp
  · intro x _
    unfold innerCount chainOf
    simp only [List.length_append]
    omega

/-- C67 does not hold of `PrintRawRouter`: with one `Before` handler it prints 1 for an endpoint that runs a chain of two. -/
theorem C67_refuted : ∃ (ops : List (Op Nat)) (heap : Heap Nat) (e : Engine Nat) (n : EndNode Nat),
    runOps [] ops = .ok heap ∧ handler Demo.rx heap 0 [] = .ok e ∧ routeOf Demo.rx e mGET b!"/a" = some n ∧
    n.handlers.length = 2 ∧ printRawRouter heap 0 = [b!"└── /a [GET     : 1]"] := by
  refine ⟨[.newRouter, .before 0 [.ctxFunc 1], .handle 0 mGET b!"/a" [.ctxFunc 2]], _, _, _, rfl, rfl, rfl, ?_⟩
  decide +kernel

namespace Demo

/-- the lists of `demoOps`: two endpoints in nested groups, one at the root, one `Before` handler -/
example : (match runOps [] demoOps with
    | .ok heap => printRawRouter heap 0 == [b!"├── / [GET     : 2]", b!"└──  /api ", b!"    ├── /v1",
          b!"    │   └── /users/<id> [GET     : 5]", b!"    └── /users [POST    : 3]"] &&
        (match storeOf heap 0 with
          | .ok rs => printRawAllRoutes rs.routeSlice == [b!"[GET     : 3] /", b!"[GET     : 6] /api/v1/users/<id>",
                b!"[POST    : 4] /api/users"] &&
              printRawRoutes rs [b!"/api/v1/users/<id>", b!"/"] b!"get" == some [b!"[  3] /", b!"[  6] /api/v1/users/<id>"] &&
              printRawRoutes rs [] b!"PUT" == some [b!"no route"] && printRawRoutes rs [] b!"FOO" == none
          | .error _ => false)
    | .error _ => false) = true := by
  decide +kernel

end Demo

end Water
