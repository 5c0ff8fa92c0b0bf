import Verif.Spec.Name
import Verif.Props.Router
/-
C118: `HandlerName`. As documented it returns the name of the last handler; it does for functions of water, and for the other kinds of
handlers this says what it returns.
-/
namespace Water
open Spec Demo

theorem getLast_payload {ks : List Dyn} {vs : List (HVal Dyn)} (h : ks.map some = vs.map payload) :
    vs.getLast?.map payload = ks.getLast?.map some := by
  rw [← List.getLast?_map, ← List.getLast?_map, h]

/-- `handlerName` by the registered values of a chain -/
theorem handlerName_called {c : Code} {ks : List Dyn} {vs : List (HVal Dyn)} (h : ks.map some = vs.map payload) (hne : vs ≠ [])
    (hm : ∀ v ∈ vs, MadeBy c v) (ht : ∀ v ∈ vs, Typed v) :
    ∃ v, vs.getLast? = some v ∧ (v ≠ .handler .plain → ∀ s, handlerName c ks = .ok s ↔ Called c v s) ∧
      (v = .handler .plain → ∃ p, handlerName c ks = .error p) := by
  have hl := getLast_payload h
  cases hv : vs.getLast? with
  | none => exact absurd (List.getLast?_eq_none_iff.1 hv) hne
  | some v =>
    have hmem : v ∈ vs := List.mem_of_getLast? hv
    have h1 := hm v hmem
    have h2 := ht v hmem
    rw [hv] at hl
    cases hk : ks.getLast? with
    | none => rw [hk] at hl; cases hl
    | some d =>
      rw [hk] at hl
      have hp : payload v = some d := by simpa using hl
      have hn := h1 d hp
      refine ⟨v, rfl, ?_, ?_⟩
      · intro hpl s
        unfold handlerName
        rw [hk]
        cases v with
        | handler x =>
          simp only [payload, Option.some.injEq] at hp
          subst hp
          cases x with
          | func pc =>
            simp only [nameOfFunction, Except.ok.injEq]
            constructor
            · rintro rfl
              cases hc : c.name pc with
              | none => exact .none hc
              | some s => exact .own hc
            · intro hc
              cases hc with
              | own h => simp only [ownName] at h; rw [h]; rfl
              | none h => rw [h]; rfl
          | addr p =>
            simp only [nameOfFunction, Except.ok.injEq]
            constructor
            · rintro rfl; exact .addr
            · intro hc
              cases hc with
              | own h => simp [ownName] at h
              | addr => rfl
          | plain => exact absurd rfl hpl
        | ctxFunc x =>
          simp only [payload, Option.some.injEq] at hp
          subst hp
          obtain ⟨pc, rfl⟩ := h2
          simp only [nameOfFunction, Except.ok.injEq]
          constructor
          · rintro rfl
            cases hc : c.name pc with
            | none => exact .ctxNone hc
            | some s => exact .own hc
          · intro hc
            cases hc with
            | own h => simp only [ownName] at h; rw [h]; rfl
            | ctxNone h => rw [h]; rfl
        | httpHandler x =>
          simp only [newHandlerDyn, Except.ok.injEq] at hn
          subst hn
          simp only [nameOfFunction, Except.ok.injEq]
          constructor
          · rintro rfl; exact .httpHandler
          · intro hc
            cases hc with
            | own h => simp [ownName] at h
            | httpHandler => rfl
        | httpFunc x =>
          simp only [newHandlerDyn, Except.ok.injEq] at hn
          subst hn
          simp only [nameOfFunction, Except.ok.injEq]
          constructor
          · rintro rfl; exact .httpFunc
          · intro hc
            cases hc with
            | own h => simp [ownName] at h
            | httpFunc => rfl
        | nil => cases hp
        | other => cases hp
      · rintro rfl
        simp only [payload, Option.some.injEq] at hp
        subst hp
        exact ⟨_, by unfold handlerName; rw [hk]; rfl⟩

theorem chain_given {ops : List (Op Dyn)} {r i : Nat} {l : List Nat} {v : HVal Dyn} (hv : v ∈ chainOf ops r i l) :
    ∃ op ∈ ops, v ∈ handed op := by
  unfold chainOf at hv
  rcases List.mem_append.1 hv with hv | hv
  · rcases List.mem_append.1 hv with hv | hv
    · obtain ⟨op, h1, h2⟩ := List.mem_flatMap.1 hv
      refine ⟨op, h1, ?_⟩
      cases op <;> simp only [beforesBy] at h2 <;> try cases h2
      split at h2
      · exact h2
      · cases h2
    · obtain ⟨j, _, hv⟩ := List.mem_flatMap.1 hv
      obtain ⟨op, h1, h2⟩ := List.mem_flatMap.1 hv
      refine ⟨op, h1, ?_⟩
      cases op <;> simp only [usesBy] at h2 <;> try cases h2
      all_goals
        split at h2
        · exact h2
        · cases h2
  · unfold handlersOf at hv
    cases hm : (made ops)[i]? with
    | none => rw [hm] at hv; cases hv
    | some x =>
      rw [hm] at hv
      obtain ⟨op, h1, h2⟩ := List.mem_filterMap.1 (List.mem_of_getElem? hm)
      refine ⟨op, h1, ?_⟩
      cases op <;> simp only [madeBy, Option.some.injEq, reduceCtorEq] at h2
      · subst h2; cases hv
      · subst h2; cases hv
      · subst h2; exact hv

/-- **C118 (exact).** During a request that is dispatched, `HandlerName` returns the name by which the last value registered for the route
is called, and it panics exactly if that value has no address; there always is a last value. -/
theorem C118_exact {c : Code} {rx : Regex} {ops : List (Op Dyn)} {heap : Heap Dyn} (h : runOps [] ops = .ok heap) {r : Nat}
    {opts : List (Opt Dyn)} {e : Engine Dyn} (he : handler rx heap r opts = .ok e) {m path : Str} {n : EndNode Dyn}
    (hd : routeOf rx e m path = some n)
    (hm : ∀ op ∈ ops, ∀ v ∈ handed op, MadeBy c v ∧ Typed v) :
    ∃ i l v, Endpoint ops r i l ∧ methodOf ops i = m ∧ (chainOf ops r i l).getLast? = some v ∧
      (∀ s, handlerName c n.handlers = .ok s ↔ Called c v s) ∧
      ((∃ p, handlerName c n.handlers = .error p) ↔ v = .handler .plain) := by
  have hrf := run_reflects h
  obtain ⟨_, es, h1, _, _, _, h7, _, _, he⟩ := handler_ok h he
  obtain ⟨v, hv, hmm, hh, _⟩ := dispatch_registered he hd
  obtain ⟨i, l, hend, rfl⟩ := (mem_routesOf h1 hrf).1 hv
  have hg := h7 (i, l) ((h1 (i, l)).2 ⟨hend.1, endpoint_childless hrf hend⟩)
  have hp : n.handlers.map some = (chainOf ops r i l).map payload := by
    rw [← hh]; exact (payload_all hg.2).symm
  have hall : ∀ v ∈ chainOf ops r i l, MadeBy c v ∧ Typed v := fun v hv => by
    obtain ⟨op, h5, h6⟩ := chain_given hv
    exact hm op h5 v h6
  obtain ⟨v, h2, h3, h4⟩ := handlerName_called hp hg.1 (fun v hv => (hall v hv).1) (fun v hv => (hall v hv).2)
  refine ⟨i, l, v, hend, hmm, h2, ?_, ?_⟩
  · by_cases hpl : v = .handler .plain
    · obtain ⟨p, h5⟩ := h4 hpl
      intro s
      rw [h5]
      subst hpl
      constructor
      · intro h; cases h
      · intro h
        cases h with
        | own h => simp [ownName] at h
    · exact h3 hpl
  · constructor
    · rintro ⟨p, h5⟩
      by_cases hpl : v = .handler .plain
      · exact hpl
      · exfalso
        have hmem : v ∈ chainOf ops r i l := List.mem_of_getLast? h2
        have : ∃ s, Called c v s := by
          have h9 := (hall v hmem).2
          have hsome := hg.2 v hmem
          cases v with
          | handler d =>
            cases d with
            | func pc =>
              cases hc : c.name pc with
              | none => exact ⟨_, .none hc⟩
              | some s => exact ⟨s, .own hc⟩
            | addr p => exact ⟨_, .addr⟩
            | plain => exact absurd rfl hpl
          | ctxFunc d =>
            obtain ⟨pc, rfl⟩ := h9
            cases hc : c.name pc with
            | none => exact ⟨_, .ctxNone hc⟩
            | some s => exact ⟨s, .own hc⟩
          | httpHandler d => exact ⟨_, .httpHandler⟩
          | httpFunc d => exact ⟨_, .httpFunc⟩
          | nil => cases hsome
          | other => cases hsome
        obtain ⟨s, hs⟩ := this
        rw [(h3 hpl s).2 hs] at h5
        cases h5
    · exact h4

/-- C118 (partial): if the last value registered for the route is a function of water, its name is returned. Missing: handlers of net/http
and handlers that are not functions (`C118_refuted`); what these return is said by `C118_exact`. -/
theorem C118_partial {c : Code} {rx : Regex} {ops : List (Op Dyn)} {heap : Heap Dyn} (h : runOps [] ops = .ok heap) {r : Nat}
    {opts : List (Opt Dyn)} {e : Engine Dyn} (he : handler rx heap r opts = .ok e) {m path : Str} {n : EndNode Dyn}
    (hd : routeOf rx e m path = some n)
    (hm : ∀ op ∈ ops, ∀ v ∈ handed op, MadeBy c v ∧ Typed v)
    (hw : ∀ i l v, Endpoint ops r i l → methodOf ops i = m → (chainOf ops r i l).getLast? = some v → (ownName c v).isSome) :
    ∃ i l v s, Endpoint ops r i l ∧ methodOf ops i = m ∧ (chainOf ops r i l).getLast? = some v ∧ ownName c v = some s ∧
      handlerName c n.handlers = .ok s := by
  obtain ⟨i, l, v, h1, h2, h3, h4, _⟩ := C118_exact h he hd hm
  obtain ⟨s, hs⟩ := Option.isSome_iff_exists.1 (hw i l v h1 h2 h3)
  exact ⟨i, l, v, s, h1, h2, h3, hs, (h4 s).2 (.own hs)⟩

/-- **C118 (not found).** In the not-found handlers it is the name of the last of these. -/
theorem C118_notfound {c : Code} {rx : Regex} {ops : List (Op Dyn)} {heap : Heap Dyn} (h : runOps [] ops = .ok heap) {r : Nat}
    {opts : List (Opt Dyn)} {e : Engine Dyn} (he : handler rx heap r opts = .ok e) (hn : noFoundOf ops r opts ≠ [])
    (hm : ∀ v ∈ noFoundOf ops r opts, MadeBy c v ∧ Typed v) :
    ∃ v, (noFoundOf ops r opts).getLast? = some v ∧ (v ≠ .handler .plain → ∀ s, handlerName c e.noFound = .ok s ↔ Called c v s) ∧
      (v = .handler .plain → ∃ p, handlerName c e.noFound = .error p) := by
  obtain ⟨_, es, _, _, _, h6, _, _, _, hmk⟩ := handler_ok h he
  have hnf := (mkEngine_inv hmk).2.2.1
  rw [hnf]
  exact handlerName_called (payload_all h6).symm hn (fun v hv => (hm v hv).1) (fun v hv => (hm v hv).2)

namespace Demo

/-- a program with three functions, the second and third being those of `newHandler` -/
def someCode : Code where
  name := fun pc => if pc = 1 then some b!"main._Users" else if pc = 2 then some b!"water.newHandler.func1" else
    if pc = 3 then some b!"water.newHandler.func2" else none
  wrapHandler := 2
  wrapFunc := 3

/-- routes whose last handlers are of each kind -/
def namedOps : List (Op Dyn) := [.newRouter, .use 0 [.ctxFunc (.func 1)],
  .handle 0 mGET b!"/users" [.httpHandler (.func 2), .ctxFunc (.func 1)],
  .handle 0 mGET b!"/handler" [.httpHandler (.func 2)],
  .handle 0 mGET b!"/func" [.httpFunc (.func 3)],
  .handle 0 mGET b!"/pointer" [.handler (.addr 99)],
  .handle 0 mGET b!"/struct" [.handler .plain],
  .handle 0 mGET b!"/middleware" []]

/-- what `HandlerName` returns at a path; `none`: there is no route, or it panics -/
def nameAt (path : Str) : Option Str :=
  match runOps [] namedOps with
  | .error _ => none
  | .ok heap =>
    match handler rx heap 0 [] with
    | .error _ => none
    | .ok e =>
      match routeOf rx e mGET path with
      | none => none
      | some n => (handlerName someCode n.handlers).toOption

end Demo

example : nameAt b!"/users" = some b!"main._Users" ∧ nameAt b!"/handler" = some b!"water.newHandler.func1" ∧
    nameAt b!"/func" = some b!"water.newHandler.func2" ∧ nameAt b!"/pointer" = some [] ∧ nameAt b!"/struct" = none ∧
    nameAt b!"/middleware" = some b!"main._Users" := by decide +kernel

theorem namedOps_made : ∀ op ∈ namedOps, ∀ v ∈ handed op, MadeBy someCode v ∧ Typed v := by
  have hall : ∀ v ∈ [HVal.ctxFunc (Dyn.func 1), .httpHandler (.func 2), .httpFunc (.func 3), .handler (.addr 99), .handler .plain],
      MadeBy someCode v ∧ Typed v := by
    intro v hv
    simp only [List.mem_cons, List.not_mem_nil, or_false] at hv
    rcases hv with rfl | rfl | rfl | rfl | rfl <;>
      exact ⟨fun d hd => by simp only [payload, Option.some.injEq] at hd; subst hd; rfl, by simp [Typed]⟩
  intro op hop v hv
  apply hall v
  have : ∀ op ∈ namedOps, ∀ v ∈ handed op,
      v ∈ [HVal.ctxFunc (Dyn.func 1), .httpHandler (.func 2), .httpFunc (.func 3), .handler (.addr 99), .handler .plain] := by decide
  exact this op hop v hv

/-- C118 as documented fails: for a handler that is a pointer the name is empty, whatever its type. -/
theorem C118_refuted : ¬ ∀ (c : Code) (rx : Regex) (ops : List (Op Dyn)) (heap : Heap Dyn) (e : Engine Dyn) (m path : Str) (n : EndNode Dyn),
    runOps [] ops = .ok heap → handler rx heap 0 [] = .ok e → routeOf rx e m path = some n →
    (∀ op ∈ ops, ∀ v ∈ handed op, MadeBy c v ∧ Typed v) → ∃ s, s ≠ [] ∧ handlerName c n.handlers = .ok s := by
  intro hall
  have hw : nameAt b!"/pointer" = some [] := by decide +kernel
  unfold nameAt at hw
  cases h1 : runOps [] namedOps with
  | error _ => rw [h1] at hw; cases hw
  | ok heap =>
    rw [h1] at hw
    simp only [] at hw
    cases h2 : handler rx heap 0 [] with
    | error _ => rw [h2] at hw; cases hw
    | ok e =>
      rw [h2] at hw
      simp only [] at hw
      cases h3 : routeOf rx e mGET b!"/pointer" with
      | none => rw [h3] at hw; cases hw
      | some n =>
        rw [h3] at hw
        obtain ⟨s, h4, h5⟩ := hall someCode rx namedOps heap e _ _ n h1 h2 h3 namedOps_made
        simp only [h5, Except.toOption, Option.some.injEq] at hw
        exact h4 hw

end Water
