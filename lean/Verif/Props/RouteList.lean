import Verif.Spec.RouteList
import Verif.Lemmas.Strconv
import Verif.Lemmas.Static
import Verif.Props.Print
import Verif.Props.Opaque
import Verif.Props.QueryMap
/-
C151: the list of routes that an application prints says how it routes requests.
-/
namespace Water
open Spec
variable {α β : Type}

theorem pad_method {m : Str} (h : m ∈ methodNames) : (padRight 7 m).length = 7 := by
  have : ∀ m ∈ methodNames, (padRight 7 m).length = 7 := by decide +kernel
  exact this m h

theorem pad_inj {m m' : Str} (h : m ∈ methodNames) (h' : m' ∈ methodNames) (he : padRight 7 m = padRight 7 m') : m = m' := by
  have : ∀ m ∈ methodNames, ∀ m' ∈ methodNames, padRight 7 m = padRight 7 m' → m = m' := by decide +kernel
  exact this m h m' h' he

theorem itoaNat_inj {a b : Nat} (h : itoaNat a = itoaNat b) : a = b := by
  rw [← (itoaNat_spec a).2, ← (itoaNat_spec b).2, h]

theorem itoaNat_bracket (n : Nat) : (93 : UInt8) ∉ itoaNat n := fun h =>
  absurd ((itoaNat_spec n).1.2 93 h) (by decide)

/-- The line of a route can be read back. -/
theorem line_read {m m' : Str} {n n' : Nat} {u u' : Str} (hm : m ∈ methodNames) (hm' : m' ∈ methodNames)
    (h : b!"[" ++ padRight 7 m ++ b!" : " ++ itoaNat n ++ b!"] " ++ u = b!"[" ++ padRight 7 m' ++ b!" : " ++ itoaNat n' ++ b!"] " ++ u') :
    m = m' ∧ n = n' ∧ u = u' := by
  simp only [List.append_assoc] at h
  have h1 := List.append_cancel_left h
  obtain ⟨h2, h3⟩ := List.append_inj h1 (by rw [pad_method hm, pad_method hm'])
  have h4 := List.append_cancel_left h3
  obtain ⟨h5, h6⟩ := cut_at (c := 93) (b := 32 :: u) (b' := 32 :: u') h4 (itoaNat_bracket n) (itoaNat_bracket n')
  exact ⟨pad_inj hm hm' h2, itoaNat_inj h5, by simpa using h6⟩

/-- What is printed of a route. -/
def lineOf (v : Route α) : Str := b!"[" ++ padRight 7 v.method ++ b!" : " ++ itoaNat v.handlers.length ++ b!"] " ++ v.uri

theorem routes_read {rs : List (Route α)} {rs' : List (Route β)} (hm : ∀ v ∈ rs, v.method ∈ methodNames ∧ v.variant = [])
    (hm' : ∀ v ∈ rs', v.method ∈ methodNames ∧ v.variant = []) (h : rs.map lineOf = rs'.map lineOf) :
    rs.map (Route.map (fun _ => ())) = rs'.map (Route.map (fun _ => ())) := by
  induction rs generalizing rs' with
  | nil =>
    cases rs' with
    | nil => rfl
    | cons v vs => simp at h
  | cons v vs ih =>
    cases rs' with
    | nil => simp at h
    | cons w ws =>
      simp only [List.map_cons, List.cons.injEq] at h ⊢
      obtain ⟨a, ha⟩ := hm v (by simp)
      obtain ⟨b, hb⟩ := hm' w (by simp)
      obtain ⟨h1, h2, h3⟩ := line_read a b h.1
      refine ⟨?_, ih (fun x hx => hm x (by simp [hx])) (fun x hx => hm' x (by simp [hx])) h.2⟩
      simp only [Route.map, h1, h3, ha, hb, Route.mk.injEq, true_and]
      simp [List.map_const', h2]

theorem print_read {rs : List (Route α)} {rs' : List (Route β)} (hm : ∀ v ∈ rs, v.method ∈ methodNames ∧ v.variant = [])
    (hm' : ∀ v ∈ rs', v.method ∈ methodNames ∧ v.variant = []) (h : printRawAllRoutes rs = printRawAllRoutes rs') :
    rs.map (Route.map (fun _ => ())) = rs'.map (Route.map (fun _ => ())) := by
  have hne : ∀ (γ : Type) (v : Route γ) (vs : List (Route γ)), [b!"no route"] ≠ (v :: vs).map lineOf := by
    intro γ v vs hc
    simp only [List.map_cons, List.cons.injEq] at hc
    have := congrArg List.head? hc.1
    simp [lineOf] at this
  cases rs with
  | nil =>
    cases rs' with
    | nil => rfl
    | cons w ws => exact absurd h (hne _ w ws)
  | cons v vs =>
    cases rs' with
    | nil => exact absurd h.symm (hne _ v vs)
    | cons w ws => exact routes_read hm hm' h

/-! ### The handlers for paths that are not found play no part in routing -/

/-- other handlers for paths that are not found -/
def Engine.withNoFound (e : Engine α) (nf : List α) : Engine α := { e with noFound := nf }

theorem buildStep_noFound (rx : Regex) (e : Engine α) (nf : List α) (v : Route α) :
    buildStep rx (e.withNoFound nf) v = (buildStep rx e v).map (·.withNoFound nf) := by
  obtain ⟨st, nf0, tr, sx⟩ := e
  show buildStep rx ⟨st, nf, tr, sx⟩ v = _
  simp only [buildStep]
  cases methodIndex v.method with
  | none => rfl
  | some i =>
    cases ht : ((tr i).getD newTree).add rx v.variant v.handlers v.uri with
    | error p => simp only [ht]; rfl
    | ok t =>
      simp only [ht, bind, Except.bind, pure, Except.pure]
      cases st && staticPath (addSegments v.variant) t <;> rfl

theorem buildTree_noFound (rx : Regex) (nf : List α) (rs : List (Route α)) (e : Engine α) :
    buildTree rx (e.withNoFound nf) rs = (buildTree rx e rs).map (·.withNoFound nf) := by
  induction rs generalizing e with
  | nil => rfl
  | cons v vs ih =>
    simp only [buildTree, buildStep_noFound]
    cases buildStep rx e v with
    | error p => rfl
    | ok e' => exact ih e'

theorem mkEngine_noFound (rx : Regex) (st : Bool) (nf nf' : List α) (rs : List (Route α)) :
    mkEngine rx st nf' rs = (mkEngine rx st nf rs).map (·.withNoFound nf') := by
  unfold mkEngine
  cases checkRoutes rs with
  | error p => rfl
  | ok rs' => exact buildTree_noFound rx nf' rs' (newEngine st nf)

theorem routeAlike_of {rx : Regex} {st : Bool} {nf : List α} {nf' : List β} {rs : List (Route α)} {rs' : List (Route β)} {e : Engine α}
    {e' : Engine β} (h : mkEngine rx st nf rs = .ok e) (h' : mkEngine rx st nf' rs' = .ok e')
    (hr : rs.map (Route.map (fun _ => ())) = rs'.map (Route.map (fun _ => ()))) : RouteAlike rx e e' := by
  have h1 := mkEngine_map (fun _ => ()) rx st nf rs
  have h2 := mkEngine_map (fun _ => ()) rx st nf' rs'
  rw [h] at h1
  rw [h'] at h2
  rw [hr, mkEngine_noFound rx st (nf'.map (fun _ => ())) (nf.map (fun _ => ())), h2] at h1
  have h3 : (e'.map (fun _ => ())).withNoFound (nf.map (fun _ => ())) = e.map (fun _ => ()) := by
    simpa [Except.map] using h1
  have key : ∀ i path, (lookup rx (e.map (fun _ => ())) i path) = (lookup rx (e'.map (fun _ => ())) i path) := by
    intro i path
    rw [← h3]
    rfl
  intro m path
  refine ⟨?_, fun i => ?_⟩
  · simp only [routeOf]
    cases methodIndex m with
    | none => rfl
    | some i =>
      have k := congrArg (fun x => x.1.map (fun n => (n.uri, n.handlers.length))) (key i path)
      simp only [lookup_map, Option.map_map] at k
      have g : ∀ (γ : Type), ((fun n : EndNode Unit => (n.uri, n.handlers.length)) ∘ EndNode.map (fun _ : γ => ())) =
          fun n => (n.uri, n.handlers.length) := by
        intro γ
        funext n
        simp [EndNode.map]
      rw [g, g] at k
      exact k
  · have k := congrArg (·.2) (key i path)
    simpa only [lookup_map] using k

/-- The routes of an application, with the list of them that it prints. -/
theorem routes_listed {rx : Regex} {ops : List (Op α)} {heap : Heap α} (h : runOps [] ops = .ok heap) {r : Nat} {opts : List (Opt α)}
    {e : Engine α} (he : handler rx heap r opts = .ok e) {rs : RouteStore α} (hs : storeOf heap r = .ok rs) :
    (∃ nf, mkEngine rx (staticOf opts) nf rs.routeSlice = .ok e) ∧ ∀ v ∈ rs.routeSlice, v.method ∈ methodNames ∧ v.variant = [] := by
  obtain ⟨es, h1, h2, h3, ⟨o, h4⟩, h5⟩ := C20_endpoints h he
  obtain ⟨rs', g1, _, es', k1, k2, k3, g2, _⟩ := handler_store h he
  rw [hs] at g1
  cases g1
  have hq : rs.routeSlice = es.map (routeFor ops r) := by
    unfold dumpFor at h4
    cases hn : heap[r]? with
    | none => rw [hn] at h4; cases h4
    | some n =>
      rw [hn] at h4
      simp only at h4
      split at h4
      · cases h4
      · split at h4
        · cases h4
        · cases ha : applyOpts noOptions opts with
          | error p => rw [ha] at h4; cases h4
          | ok o1 =>
            rw [ha] at h4
            simp only [bind, Except.bind] at h4
            cases hb : withBefores o1 n.gbefores with
            | error p => rw [hb] at h4; cases h4
            | ok o2 =>
              rw [hb] at h4
              simp only at h4
              unfold storeOf at hs
              rw [hs] at h4
              simp only [pure, Except.pure, Except.ok.injEq, Prod.mk.injEq] at h4
              exact h4.2
  rw [hq]
  refine ⟨⟨_, h5⟩, fun v hv => ⟨?_, ?_⟩⟩
  · have := mkEngine_methods h5 v hv
    refine Classical.byContradiction (fun hc => ?_)
    rw [methodIndex_none.2 hc] at this
    cases this
  · obtain ⟨x, _, rfl⟩ := List.mem_map.1 hv
    rfl

/-- **C151.** Two applications that print the same list of routes route alike, whatever their handlers and however their routes were
registered. -/
theorem C151 {rx : Regex} {ops : List (Op α)} {heap : Heap α} (h : runOps [] ops = .ok heap) {r : Nat} {opts : List (Opt α)}
    {e : Engine α} (he : handler rx heap r opts = .ok e) {rs : RouteStore α} (hs : storeOf heap r = .ok rs)
    {ops' : List (Op β)} {heap' : Heap β} (h' : runOps [] ops' = .ok heap') {r' : Nat} {opts' : List (Opt β)}
    {e' : Engine β} (he' : handler rx heap' r' opts' = .ok e') {rs' : RouteStore β} (hs' : storeOf heap' r' = .ok rs')
    (hst : staticOf opts = staticOf opts') (hp : printRawAllRoutes rs.routeSlice = printRawAllRoutes rs'.routeSlice) :
    RouteAlike rx e e' := by
  obtain ⟨⟨nf, a⟩, b⟩ := routes_listed h he hs
  obtain ⟨⟨nf', a'⟩, b'⟩ := routes_listed h' he' hs'
  rw [hst] at a
  exact routeAlike_of a a' (print_read b b' hp)

theorem written_inj {ls ls' : List Str} (h1 : ∀ l ∈ ls, (10 : UInt8) ∉ l) (h2 : ∀ l ∈ ls', (10 : UInt8) ∉ l)
    (h : written ls = written ls') : ls = ls' := by
  induction ls generalizing ls' with
  | nil =>
    cases ls' with
    | nil => rfl
    | cons a b => simp [written] at h
  | cons a b ih =>
    cases ls' with
    | nil => simp [written] at h
    | cons c d =>
      simp only [written] at h
      obtain ⟨x, y⟩ := cut_at h (h1 a (by simp)) (h2 c (by simp))
      rw [x, ih (fun l hl => h1 l (by simp [hl])) (fun l hl => h2 l (by simp [hl])) y]

theorem print_lines {rs : List (Route α)} (hm : ∀ v ∈ rs, v.method ∈ methodNames) (hu : ∀ v ∈ rs, (10 : UInt8) ∉ v.uri) :
    ∀ l ∈ printRawAllRoutes rs, (10 : UInt8) ∉ l := by
  intro l hl
  unfold printRawAllRoutes at hl
  split at hl
  · simp only [List.mem_singleton] at hl
    subst hl
    decide
  · obtain ⟨v, hv, rfl⟩ := List.mem_map.1 hl
    have g : ∀ m ∈ methodNames, (10 : UInt8) ∉ padRight 7 m := by decide +kernel
    have d : (10 : UInt8) ∉ itoaNat v.handlers.length := fun hx => absurd ((itoaNat_spec _).1.2 10 hx) (by decide)
    simp only [List.mem_append, not_or]
    exact ⟨⟨⟨⟨⟨by decide, g _ (hm v hv)⟩, by decide⟩, d⟩, by decide⟩, hu v hv⟩

/-- **C151 (text).** The same of the text that is printed, if no pattern holds a line feed. -/
theorem C151_text_partial {rx : Regex} {ops : List (Op α)} {heap : Heap α} (h : runOps [] ops = .ok heap) {r : Nat} {opts : List (Opt α)}
    {e : Engine α} (he : handler rx heap r opts = .ok e) {rs : RouteStore α} (hs : storeOf heap r = .ok rs)
    {ops' : List (Op β)} {heap' : Heap β} (h' : runOps [] ops' = .ok heap') {r' : Nat} {opts' : List (Opt β)}
    {e' : Engine β} (he' : handler rx heap' r' opts' = .ok e') {rs' : RouteStore β} (hs' : storeOf heap' r' = .ok rs')
    (hst : staticOf opts = staticOf opts') (hu : ∀ v ∈ rs.routeSlice, (10 : UInt8) ∉ v.uri) (hu' : ∀ v ∈ rs'.routeSlice, (10 : UInt8) ∉ v.uri)
    (hp : written (printRawAllRoutes rs.routeSlice) = written (printRawAllRoutes rs'.routeSlice)) : RouteAlike rx e e' :=
  C151 h he hs h' he' hs' hst
    (written_inj (print_lines (fun v hv => ((routes_listed h he hs).2 v hv).1) hu) (print_lines (fun v hv => ((routes_listed h' he' hs').2 v hv).1) hu') hp)

namespace Demo

/-- two routes, in a group with middleware -/
def grouped : List (Op Nat) :=
  [.newRouter, .group 0 b!"/g", .use 1 [.ctxFunc 1], .handle 1 b!"GET" b!"/a" [.ctxFunc 2], .handle 1 b!"POST" b!"/<x>" [.httpFunc 3]]

/-- the same routes without group and middleware -/
def ungrouped : List (Op Str) :=
  [.newRouter, .handle 0 b!"GET" b!"/g/a" [.ctxFunc b!"p", .ctxFunc b!"q"], .handle 0 b!"POST" b!"/g/<x>" [.handler b!"r", .ctxFunc b!"s"]]

/-- two routes -/
def twoLines : List (Op Nat) := [.newRouter, .handle 0 b!"GET" b!"/:a" [.ctxFunc 1], .handle 0 b!"GET" b!"/b" [.ctxFunc 2]]

/-- One route, the pattern of which holds the line of another one. A segment must not end with a space, but the space at the end of one
that begins with a colon is taken off (router.go:339-341) before it is looked at (tree.go:106). -/
def oneRoute : List (Op Nat) := [.newRouter, .handle 0 b!"GET" (b!"/:a" ++ 10 :: b!"[GET     : 1] /b") [.ctxFunc 1]]

/-- The list of routes that is printed by an application. -/
def printed {γ : Type} (ops : List (Op γ)) : Option (List Str) :=
  match runOps [] ops with
  | .error _ => none
  | .ok heap =>
    match handler rx heap 0 [], storeOf heap 0 with
    | .ok _, .ok rs => some (printRawAllRoutes rs.routeSlice)
    | _, _ => none

theorem printed_ok {γ : Type} {ops : List (Op γ)} {ls : List Str} (h : printed ops = some ls) :
    ∃ heap e rs, runOps [] ops = .ok heap ∧ handler rx heap 0 [] = .ok e ∧ storeOf heap 0 = .ok rs ∧ printRawAllRoutes rs.routeSlice = ls := by
  unfold printed at h
  cases h1 : runOps [] ops with
  | error p => rw [h1] at h; cases h
  | ok heap =>
    rw [h1] at h
    simp only at h
    cases h2 : handler rx heap 0 [] with
    | error p => rw [h2] at h; cases h
    | ok e =>
      cases h3 : storeOf heap 0 with
      | error p => rw [h2, h3] at h; cases h
      | ok rs =>
        rw [h2, h3] at h
        exact ⟨heap, e, rs, rfl, h2, h3, by simpa using h⟩

/-- what a GET request is dispatched to -/
def target {γ : Type} (ops : List (Op γ)) (path : Str) : Option (Option Str) :=
  match runOps [] ops with
  | .error _ => none
  | .ok heap =>
    match handler rx heap 0 [] with
    | .ok e => some ((routeOf rx e mGET path).map (·.uri))
    | .error _ => none

/-- Two applications with handlers of other types and registered otherwise that print the same list. -/
theorem C151_demo : ∃ (heap : Heap Nat) (e : Engine Nat) (rs : RouteStore Nat) (heap' : Heap Str) (e' : Engine Str) (rs' : RouteStore Str),
    runOps [] grouped = .ok heap ∧ handler rx heap 0 [] = .ok e ∧ storeOf heap 0 = .ok rs ∧
    runOps [] ungrouped = .ok heap' ∧ handler rx heap' 0 [] = .ok e' ∧ storeOf heap' 0 = .ok rs' ∧
    printRawAllRoutes rs.routeSlice = printRawAllRoutes rs'.routeSlice ∧
    printRawAllRoutes rs.routeSlice = [b!"[GET     : 2] /g/a", b!"[POST    : 2] /g/<x>"] ∧ RouteAlike rx e e' := by
  obtain ⟨heap, e, rs, a1, a2, a3, a4⟩ := printed_ok (ops := grouped) (ls := [b!"[GET     : 2] /g/a", b!"[POST    : 2] /g/<x>"]) (by decide +kernel)
  obtain ⟨heap', e', rs', b1, b2, b3, b4⟩ := printed_ok (ops := ungrouped) (ls := [b!"[GET     : 2] /g/a", b!"[POST    : 2] /g/<x>"]) (by decide +kernel)
  exact ⟨heap, e, rs, heap', e', rs', a1, a2, a3, b1, b2, b3, a4.trans b4.symm, a4, C151 a1 a2 a3 b1 b2 b3 rfl (a4.trans b4.symm)⟩

end Demo
open Demo

/-- **C151 (refutation for the text).** A pattern that holds a line feed can hold the line of a route that does not exist: the two
applications print the same text, and only one of them answers `/b`. -/
theorem C151_refuted : ∃ (heap : Heap Nat) (e : Engine Nat) (rs : RouteStore Nat) (heap' : Heap Nat) (e' : Engine Nat) (rs' : RouteStore Nat),
    runOps [] oneRoute = .ok heap ∧ handler rx heap 0 [] = .ok e ∧ storeOf heap 0 = .ok rs ∧
    runOps [] twoLines = .ok heap' ∧ handler rx heap' 0 [] = .ok e' ∧ storeOf heap' 0 = .ok rs' ∧
    written (printRawAllRoutes rs.routeSlice) = written (printRawAllRoutes rs'.routeSlice) ∧
    (routeOf rx e mGET b!"/b").map (·.uri) = none ∧ (routeOf rx e' mGET b!"/b").map (·.uri) = some b!"/b" ∧ ¬ RouteAlike rx e e' := by
  obtain ⟨heap, e, rs, a1, a2, a3, a4⟩ := printed_ok (ops := oneRoute) (ls := [b!"[GET     : 1] /:a" ++ 10 :: b!"[GET     : 1] /b"]) (by decide +kernel)
  obtain ⟨heap', e', rs', b1, b2, b3, b4⟩ := printed_ok (ops := twoLines) (ls := [b!"[GET     : 1] /:a", b!"[GET     : 1] /b"]) (by decide +kernel)
  have t1 : target oneRoute b!"/b" = some none := by decide +kernel
  have t2 : target twoLines b!"/b" = some (some b!"/b") := by decide +kernel
  have u1 : (routeOf rx e mGET b!"/b").map (·.uri) = none := by
    simp only [target, a1, a2, Option.some.injEq] at t1
    exact t1
  have u2 : (routeOf rx e' mGET b!"/b").map (·.uri) = some b!"/b" := by
    simp only [target, b1, b2, Option.some.injEq] at t2
    exact t2
  refine ⟨heap, e, rs, heap', e', rs', a1, a2, a3, b1, b2, b3, ?_, u1, u2, fun hc => ?_⟩
  · rw [a4, b4]
    decide +kernel
  · have := congrArg (Option.map Prod.fst) (hc mGET b!"/b").1
    simp only [Option.map_map] at this
    have g : ∀ o : Option (EndNode Nat), o.map (Prod.fst ∘ fun n => (n.uri, n.handlers.length)) = o.map (·.uri) := by
      intro o
      cases o <;> rfl
    rw [g, g, u1, u2] at this
    cases this

end Water
