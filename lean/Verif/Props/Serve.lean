import Verif.Lemmas.Serve
import Verif.Spec.Serve
import Verif.Props.Chain
import Verif.Props.Router
/-
C22, C23, C34, C35: `ServeHTTP`, for all engines, requests and contexts.
-/
namespace Water
open Spec
variable {ω : Type}

/-! ### C23 -/

/-- C23. A request below HTTP/1.1, for `*`, or with method CONNECT is answered 406, whatever the engine: no handler
runs, no context is taken, none is put back. -/
theorem C23_not_acceptable {rx : Regex} {o : Oracle} (h406 : o.bad 406 = false) {req : Req}
    (hg : ¬ (req.protoMajor > 1 ∨ req.protoMajor = 1 ∧ req.protoMinor ≥ 1) ∨ req.requestURI = b!"*" ∨
      req.method = b!"CONNECT")
    (e : Engine (Prog ω)) (c : Ctx ω) (rw : Writer) (body : Option Str) (w : ω) :
    let sv := serve rx o e c req rw body w
    Bare sv rw w 406 ∧ sv.took = false ∧ sv.puts = [] := by
  rw [serve_gated hg h406]
  exact ⟨⟨rfl, rfl, rfl, rfl, rfl, rfl⟩, rfl, rfl⟩

/-- C23. Otherwise, a request whose method is not supported is answered 405 in the same way. -/
theorem C23_not_allowed {rx : Regex} {o : Oracle} (h405 : o.bad 405 = false) {req : Req}
    (hv : req.protoMajor > 1 ∨ req.protoMajor = 1 ∧ req.protoMinor ≥ 1) (hu : req.requestURI ≠ b!"*")
    (hm : req.method ∉ [b!"GET", b!"POST", b!"DELETE", b!"PUT", b!"PATCH", b!"HEAD", b!"OPTIONS"])
    (hc : req.method ≠ b!"CONNECT") (e : Engine (Prog ω)) (c : Ctx ω) (rw : Writer) (body : Option Str) (w : ω) :
    let sv := serve rx o e c req rw body w
    Bare sv rw w 405 ∧ sv.took = false ∧ sv.puts = [] := by
  have hg : ¬ Gated req := by
    rintro (h | h | h)
    · exact h hv
    · exact hu h
    · exact hc h
  have hi : methodIndex req.method = none := by
    rw [methodIndex_none]
    intro h
    apply hm
    simp only [methodNames, mGET, mPOST, mDELETE, mPUT, mPATCH, mHEAD, mOPTIONS, List.mem_cons, List.not_mem_nil, or_false] at h ⊢
    rcases h with h | h | h | h | h | h | h <;> simp [h]
  rw [serve_unsupported hg hi h405]
  exact ⟨⟨rfl, rfl, rfl, rfl, rfl, rfl⟩, rfl, rfl⟩

/-- the request is one the engine routes -/
structure Routed (req : Req) : Prop where
  version : req.protoMajor > 1 ∨ req.protoMajor = 1 ∧ req.protoMinor ≥ 1
  uri : req.requestURI ≠ b!"*"
  method : req.method ∈ [b!"GET", b!"POST", b!"DELETE", b!"PUT", b!"PATCH", b!"HEAD", b!"OPTIONS"]

theorem Routed.ungated {req : Req} (h : Routed req) : ¬ Gated req := by
  rintro (h1 | h1 | h1)
  · exact h1 h.version
  · exact h.uri h1
  · have := h.method; rw [h1] at this; revert this; decide

theorem Routed.index {req : Req} (h : Routed req) : ∃ i, methodIndex req.method = some i := by
  cases hi : methodIndex req.method with
  | some i => exact ⟨i, rfl⟩
  | none =>
    rw [methodIndex_none] at hi
    exfalso; apply hi
    have := h.method
    simp only [methodNames, mGET, mPOST, mDELETE, mPUT, mPATCH, mHEAD, mOPTIONS, List.mem_cons, List.not_mem_nil, or_false] at this ⊢
    rcases this with h | h | h | h | h | h | h <;> simp [h]

/-- C23, the converse: every other request takes a context, exactly one. -/
theorem C23_admitted {rx : Regex} {o : Oracle} {req : Req} (hr : Routed req) (e : Engine (Prog ω)) (c : Ctx ω)
    (rw : Writer) (body : Option Str) (w : ω) : (serve rx o e c req rw body w).took = true := by
  obtain ⟨i, hi⟩ := hr.index
  rw [serve_routed hr.ungated hi]
  cases hc : chainFor e (lookup rx e i req.path).1 with
  | some hs => rw [serveRouted_chain hc]
  | none => obtain ⟨cx, h⟩ := serveRouted_none (c := c) (rw := rw) (body := body) (w := w) (req := req) (o := o) hc; rw [h]

/-! ### What a routed request comes down to -/

theorem blank_start (c : Ctx ω) (hs : List (Prog ω)) (full : Option Str) (ps : Option (Option Params)) (rw : Writer)
    (body : Option Str) (w : ω) : Blank (startSt c hs full ps rw body w) :=
  ⟨rfl, rfl, rfl, fun _ => rfl, rfl, rfl, rfl⟩

theorem serve_ran {rx : Regex} {o : Oracle} {e : Engine (Prog ω)} {c : Ctx ω} {req : Req} {rw : Writer}
    {body : Option Str} {w : ω} (hr : Routed req) {n : EndNode (Prog ω)} (hn : routeOf rx e req.method req.path = some n) :
    Ran (serve rx o e c req rw body w) o req rw body w n.handlers n.uri := by
  obtain ⟨i, hi⟩ := hr.index
  simp only [routeOf, hi] at hn
  rw [serve_routed hr.ungated hi, serveRouted_chain (hs := n.handlers) (by rw [hn]; rfl)]
  refine ⟨_, blank_start _ _ _ _ _ _ _, rfl, ?_, rfl, rfl, rfl, rfl, rfl, rfl, rfl, rfl⟩
  simp only [startSt, prepare, hn]
  rfl

theorem serve_nofound {rx : Regex} {o : Oracle} {e : Engine (Prog ω)} {c : Ctx ω} {req : Req} {rw : Writer}
    {body : Option Str} {w : ω} (hr : Routed req) (hn : routeOf rx e req.method req.path = none) (hnf : e.noFound ≠ []) :
    Ran (serve rx o e c req rw body w) o req rw body w e.noFound [] := by
  obtain ⟨i, hi⟩ := hr.index
  simp only [routeOf, hi] at hn
  rw [serve_routed hr.ungated hi, serveRouted_chain (hs := e.noFound) (by rw [hn]; simp [chainFor, hnf])]
  refine ⟨_, blank_start _ _ _ _ _ _ _, rfl, ?_, rfl, rfl, rfl, rfl, rfl, rfl, rfl, rfl⟩
  simp only [startSt, prepare, hn]
  rfl

/-- C17/C19 for whole requests: a routed request for which there is a route runs the chain of an endpoint of its
method, in a blank context, and `ctx.FullPath()` is the path of an endpoint cut into the same segments. -/
theorem C17_served {rx : Regex} {ops : List (Op (Prog ω))} {heap : Heap (Prog ω)} (h : runOps [] ops = .ok heap) {r : Nat}
    {opts : List (Opt (Prog ω))} {e : Engine (Prog ω)} (he : handler rx heap r opts = .ok e) {o : Oracle} {req : Req}
    (hr : Routed req) {c : Ctx ω} {rw : Writer} {body : Option Str} {w : ω} {n : EndNode (Prog ω)}
    (hn : routeOf rx e req.method req.path = some n) :
    ∃ i l hs, Endpoint ops r i l ∧ methodOf ops i = req.method ∧
      hs.map some = (beforesOf ops r ++ l.flatMap (usesOf ops) ++ handlersOf ops i).map payload ∧
      Ran (serve rx o e c req rw body w) o req rw body w hs n.uri := by
  obtain ⟨i, l, h1, h2, h3, _⟩ := C17_chain h he hn
  exact ⟨i, l, n.handlers, h1, h2, h3, serve_ran hr hn⟩

/-! ### C22 -/

/-- no endpoint takes the request -/
def NoRoute (rx : Regex) (ops : List (Op (Prog ω))) (r : Nat) (opts : List (Opt (Prog ω))) (m path : Str) : Prop :=
  ∀ i l, Endpoint ops r i l → methodOf ops i = m →
    ¬ Accepts rx (routeSegs (fullPath ops l)) (pathSegs path) ∧ (staticOf opts = true → path ≠ variantUri (fullPath ops l))

theorem noRoute_routeOf {rx : Regex} {ops : List (Op (Prog ω))} {heap : Heap (Prog ω)} (h : runOps [] ops = .ok heap)
    {r : Nat} {opts : List (Opt (Prog ω))} {e : Engine (Prog ω)} (he : handler rx heap r opts = .ok e) {m path : Str}
    (hn : NoRoute rx ops r opts m path) : routeOf rx e m path = none := by
  cases hr : routeOf rx e m path with
  | none => rfl
  | some n =>
    exfalso
    obtain ⟨i, l, h1, h2, _, h4⟩ := C17_chain h he hr
    rcases h4 with h4 | ⟨hs, j, k, h5, h6, _, h8⟩
    · exact (hn i l h1 h2).1 h4
    · exact (hn j k h5 h6).2 hs h8

theorem handler_noFound {rx : Regex} {ops : List (Op (Prog ω))} {heap : Heap (Prog ω)} (h : runOps [] ops = .ok heap)
    {r : Nat} {opts : List (Opt (Prog ω))} {e : Engine (Prog ω)} (he : handler rx heap r opts = .ok e) :
    e.noFound.map some = (noFoundOf ops r opts).map payload := by
  obtain ⟨_, es, _, _, _, h5, _, _, _, hm⟩ := handler_ok h he
  rw [(mkEngine_inv hm).2.2.1]
  exact (payload_all h5).symm

/-- C22. A routed request that no endpoint takes, with not-found handlers given: they run after the `Before`
handlers of the root, and nothing else does; `ctx.FullPath()` is empty. -/
theorem C22_not_found {rx : Regex} {ops : List (Op (Prog ω))} {heap : Heap (Prog ω)} (h : runOps [] ops = .ok heap)
    {r : Nat} {opts : List (Opt (Prog ω))} {e : Engine (Prog ω)} (he : handler rx heap r opts = .ok e) {o : Oracle}
    {req : Req} (hr : Routed req) (hn : NoRoute rx ops r opts req.method req.path) {given : List (HVal (Prog ω))}
    (hg : noFoundGiven opts = some given) (c : Ctx ω) (rw : Writer) (body : Option Str) (w : ω) :
    ∃ hs, hs.map some = (beforesOf ops r ++ given).map payload ∧
      Ran (serve rx o e c req rw body w) o req rw body w hs [] := by
  have hnf := handler_noFound h he
  simp only [noFoundOf, hg] at hnf
  refine ⟨e.noFound, hnf, serve_nofound hr (noRoute_routeOf h he hn) ?_⟩
  obtain ⟨_, es, _, _, h4, _⟩ := handler_ok h he
  have h5 := (h4 _ (noFoundGiven_mem hg)).1
  intro h0
  rw [h0] at hnf
  have := congrArg List.length hnf
  simp only [List.map_nil, List.length_nil, List.length_map, List.length_append] at this
  exact h5 (List.length_eq_zero_iff.1 (by omega))

/-- C22. Without not-found handlers the answer is a bare 404: no handler runs, not even the `Before` handlers. -/
theorem C22_bare {rx : Regex} {ops : List (Op (Prog ω))} {heap : Heap (Prog ω)} (h : runOps [] ops = .ok heap)
    {r : Nat} {opts : List (Opt (Prog ω))} {e : Engine (Prog ω)} (he : handler rx heap r opts = .ok e) {o : Oracle}
    (h404 : o.bad 404 = false)
    {req : Req} (hr : Routed req) (hn : NoRoute rx ops r opts req.method req.path) (hg : noFoundGiven opts = none)
    (c : Ctx ω) (rw : Writer) (body : Option Str) (w : ω) :
    Bare (serve rx o e c req rw body w) rw w 404 := by
  have hnf := handler_noFound h he
  simp only [noFoundOf, hg, List.map_nil, List.map_eq_nil_iff] at hnf
  obtain ⟨i, hi⟩ := hr.index
  have hro := noRoute_routeOf h he hn
  simp only [routeOf, hi] at hro
  obtain ⟨cx, hc⟩ := serveRouted_none (c := c) (rw := rw) (body := body) (w := w) (req := req) (o := o)
    (params := (lookup rx e i req.path).2) (show chainFor e (lookup rx e i req.path).1 = none by rw [hro]; simp [chainFor, hnf])
  rw [serve_routed hr.ungated hi, hc, Writer.writeHeader_ok h404]
  exact ⟨rfl, rfl, rfl, rfl, rfl, rfl⟩

/-! ### C34 -/

theorem Same.refl (a : Served ω) : Same a a := ⟨rfl, rfl, rfl, rfl, rfl, rfl, rfl⟩

theorem serve_same {rx : Regex} {o : Oracle} {e : Engine (Prog ω)} {req : Req}
    (h : ∀ i, methodIndex req.method = some i → (lookup rx e i req.path).2 ≠ none ∨
      ∀ hs, chainFor e (lookup rx e i req.path).1 = some hs → ∀ p ∈ hs, CallsIn NotParam p)
    (c c' : Ctx ω) (rw : Writer) (body : Option Str) (w : ω) :
    Same (serve rx o e c req rw body w) (serve rx o e c' req rw body w) := by
  by_cases hg : Gated req
  · unfold serve; rw [if_pos ((gate_iff req).2 hg), if_pos ((gate_iff req).2 hg)]; exact Same.refl _
  cases hi : methodIndex req.method with
  | none => unfold serve; rw [if_neg (mt (gate_iff req).1 hg), if_neg (mt (gate_iff req).1 hg), hi]; exact Same.refl _
  | some i =>
    rw [serve_routed hg hi, serve_routed hg hi]
    have h := h i hi
    generalize (lookup rx e i req.path).1 = n at h ⊢
    generalize (lookup rx e i req.path).2 = params at h ⊢
    cases hc : chainFor e n with
    | none =>
      obtain ⟨c1, h1⟩ := serveRouted_none (c := c) (rw := rw) (body := body) (w := w) (req := req) (o := o) (params := params) hc
      obtain ⟨c2, h2⟩ := serveRouted_none (c := c') (rw := rw) (body := body) (w := w) (req := req) (o := o) (params := params) hc
      rw [h1, h2]
      refine ⟨rfl, rfl, rfl, rfl, rfl, rfl, ?_⟩
      simp only
      split <;> rfl
    | some hs =>
      rw [serveRouted_chain hc, serveRouted_chain hc]
      rcases h with h | h
      · have e1 : prepare c hs (n.map (·.uri)) params = prepare c' hs (n.map (·.uri)) params := by
          cases params with
          | none => exact absurd rfl h
          | some ps => cases ps <;> rfl
        simp only [startSt, e1]; exact Same.refl _
      · have e2 : ∀ c : Ctx ω, runAll o req (startSt c hs (n.map (·.uri)) params rw body w) =
            ((runAll o req (startSt Ctx.new hs (n.map (·.uri)) params rw body w)).1,
             (runAll o req (startSt Ctx.new hs (n.map (·.uri)) params rw body w)).2.withParams
              (prepare c hs (n.map (·.uri)) params).params) := by
          intro c
          exact (withParams_run o req (prepare c hs (n.map (·.uri)) params).params hs (h hs hc) _
            (startSt Ctx.new hs (n.map (·.uri)) params rw body w) rfl).1
        rw [e2 c, e2 c']
        refine ⟨rfl, rfl, rfl, rfl, rfl, rfl, ?_⟩
        simp only
        split <;> rfl

/-- C34, without the static-route option: how a request is served does not depend on the recycled context at
all, whatever the handlers. -/
theorem C34_isolated_partial {rx : Regex} {o : Oracle} {e : Engine (Prog ω)} (hs : e.enableStatic = false) (c c' : Ctx ω)
    (req : Req) (rw : Writer) (body : Option Str) (w : ω) :
    Same (serve rx o e c req rw body w) (serve rx o e c' req rw body w) := by
  refine serve_same (fun i _ => .inl ?_) c c' rw body w
  unfold lookup
  rw [hs]
  simp only [Bool.false_eq_true, if_false]
  cases e.trees i <;> simp

/-- the request is served from the static map: its path is the path of an all-literal route of its method -/
def StaticHit (ops : List (Op (Prog ω))) (r : Nat) (m path : Str) : Prop :=
  ∃ i l, Endpoint ops r i l ∧ methodOf ops i = m ∧ (∀ p ∈ routeSegs (fullPath ops l), kind p = .literal) ∧
    path = variantUri (fullPath ops l)

/-- `Params` is left as it is only for a hit in the static map -/
theorem lookup_hit {rx : Regex} {ops : List (Op (Prog ω))} {heap : Heap (Prog ω)} (h : runOps [] ops = .ok heap)
    {r : Nat} {opts : List (Opt (Prog ω))} {e : Engine (Prog ω)} (he : handler rx heap r opts = .ok e) {req : Req} {i : Nat}
    (hi : methodIndex req.method = some i) (hl : (lookup rx e i req.path).2 = none) :
    e.enableStatic = true ∧ StaticHit ops r req.method req.path ∧ ∃ n, (lookup rx e i req.path).1 = some n := by
  have hrf := run_reflects h
  unfold lookup at hl ⊢
  cases hst : e.enableStatic with
  | false =>
    rw [hst] at hl
    simp only [Bool.false_eq_true, if_false] at hl
    cases ht : e.trees i <;> rw [ht] at hl <;> simp at hl
  | true =>
    rw [hst] at hl
    simp only [if_true] at hl ⊢
    cases hu : e.statics i req.path with
    | none =>
      rw [hu] at hl
      simp only at hl
      cases ht : e.trees i <;> rw [ht] at hl <;> simp at hl
    | some segs =>
      cases ht : e.trees i with
      | none => rw [hu, ht] at hl; simp at hl
      | some t =>
        rw [hu, ht] at hl
        simp only at hl ⊢
        cases hend : endAt segs t with
        | none => rw [hend] at hl; simp at hl
        | some n =>
          refine ⟨trivial, ?_, n, rfl⟩
          obtain ⟨_, es, h1, _, _, _, _, _, _, hm⟩ := handler_ok h he
          obtain ⟨v, hv, h2, h3, h4, h5⟩ := mkEngine_static hm _ i hi _ _ hu
          obtain ⟨j, l, hend', rfl⟩ := (mem_routesOf h1 hrf).1 hv
          exact ⟨j, l, hend', h2, by rw [← h4] at h5; exact h5, h3.symm⟩

/-- C34, with any options: the same for a request whose path is not that of an all-literal route, and for every
request if no handler calls `ctx.Param`. Missing: handlers of an all-literal route that call `ctx.Param` under the
static-route option, for which it is false (`C34_refuted`). -/
theorem C34_static_partial {rx : Regex} {ops : List (Op (Prog ω))} {heap : Heap (Prog ω)} (h : runOps [] ops = .ok heap)
    {r : Nat} {opts : List (Opt (Prog ω))} {e : Engine (Prog ω)} (he : handler rx heap r opts = .ok e) {o : Oracle}
    {req : Req}
    (hp : ¬ StaticHit ops r req.method req.path ∨
      ∀ i l, Endpoint ops r i l → ∀ x ∈ beforesOf ops r ++ l.flatMap (usesOf ops) ++ handlersOf ops i, ∀ p, payload x = some p →
        CallsIn NotParam p) (c c' : Ctx ω) (rw : Writer) (body : Option Str) (w : ω) :
    Same (serve rx o e c req rw body w) (serve rx o e c' req rw body w) := by
  refine serve_same (fun i hi => ?_) c c' rw body w
  cases hl : (lookup rx e i req.path).2 with
  | some ps => exact .inl (by simp)
  | none =>
    right
    have hhit := lookup_hit h he hi hl
    obtain ⟨_, hhit, n, hn⟩ := hhit
    rcases hp with hp | hp
    · exact absurd hhit hp
    · intro hs hc p hpm
      rw [hn] at hc
      simp only [chainFor, Option.some.injEq] at hc
      subst hc
      obtain ⟨j, l, h1, _, h3, _⟩ := C17_chain (m := req.method) (path := req.path) (n := n) h he
        (by simp only [routeOf, hi]; exact hn)
      have : some p ∈ n.handlers.map some := List.mem_map_of_mem hpm
      rw [h3, List.mem_map] at this
      obtain ⟨x, hx, hxp⟩ := this
      exact hp j l h1 x hx p hxp

/-- Serve a list of requests one after the other, each in the context chosen for it. -/
def serveEach (rx : Regex) (o : Oracle) (e : Engine (Prog ω)) : List (Ctx ω × Req × Writer × Option Str) → ω →
    List (Out × Writer × List Bool × List Event) × ω
  | [], w => ([], w)
  | (c, req, rw, body) :: rest, w =>
    let sv := serve rx o e c req rw body w
    let (rs, w) := serveEach rx o e rest sv.world
    ((sv.out, sv.rw, sv.forms, sv.trace) :: rs, w)

/-- C34 for whole histories, without the static-route option: any sequence of requests, whatever contexts the pool
hands out, is answered as if every request had a new context. -/
theorem C34_history_partial {rx : Regex} {o : Oracle} {e : Engine (Prog ω)} (hs : e.enableStatic = false)
    (reqs : List (Ctx ω × Req × Writer × Option Str)) (w : ω) :
    serveEach rx o e reqs w = serveEach rx o e (reqs.map (fun x => (Ctx.new, x.2))) w := by
  induction reqs generalizing w with
  | nil => rfl
  | cons x rest ih =>
    obtain ⟨c, req, rw, body⟩ := x
    obtain ⟨h1, h2, h3, h4, h5, _⟩ := C34_isolated_partial (rx := rx) (o := o) hs c Ctx.new req rw body w
    simp only [serveEach, List.map_cons]
    rw [h1, h2, h3, h4, h5, ih]

/-! ### C35 -/

/-- The context is put back at most once: exactly once if one was taken and serving ended normally, not at all
otherwise. -/
theorem C35_put_once (rx : Regex) (o : Oracle) (e : Engine (Prog ω)) (c : Ctx ω) (req : Req) (rw : Writer)
    (body : Option Str) (w : ω) :
    let sv := serve rx o e c req rw body w
    (sv.took = true ∧ sv.out = .ret → sv.puts.length = 1) ∧ (¬ (sv.took = true ∧ sv.out = .ret) → sv.puts = []) := by
  by_cases hg : Gated req
  · unfold serve; rw [if_pos ((gate_iff req).2 hg)]; exact ⟨fun h => by simp at h, fun _ => rfl⟩
  cases hi : methodIndex req.method with
  | none => unfold serve; rw [if_neg (mt (gate_iff req).1 hg), hi]; exact ⟨fun h => by simp at h, fun _ => rfl⟩
  | some i =>
    rw [serve_routed hg hi]
    cases hc : chainFor e (lookup rx e i req.path).1 with
    | none =>
      obtain ⟨cx, h⟩ := serveRouted_none (c := c) (rw := rw) (body := body) (w := w) (req := req) (o := o)
        (params := (lookup rx e i req.path).2) hc
      rw [h]
      cases (rw.writeHeader o.bad 404).1 <;> simp
    | some hs =>
      rw [serveRouted_chain hc]
      generalize runAll o req _ = r
      by_cases ho : r.1 = .ret <;> simp [ho]

/-- the pool invariant: all contexts in the pool or in use are different -/
def Spec.Pool.Ok (p : Pool ω) : Prop := (p.free ++ p.busy.map (·.2)).Nodup ∧ ∀ c ∈ p.free ++ p.busy.map (·.2), c < p.made

theorem pool_ok {rx : Regex} {o : Oracle} {e : Engine (Prog ω)} {p : Pool ω} (h : Reach rx o e p) : p.Ok := by
  induction h with
  | start => exact ⟨List.nodup_nil, by simp [Pool.start]⟩
  | @step p q hr hs ih =>
    obtain ⟨i1, i2⟩ := ih
    cases hs with
    | @getOld a b c k hf =>
      have hperm : (p.free ++ p.busy.map (·.2)).Perm ((a ++ b) ++ ((k, c) :: p.busy).map (·.2)) := by
        rw [hf]
        simp only [List.append_assoc, List.cons_append, List.map_cons]
        refine List.Perm.append_left a ?_
        exact List.perm_middle.symm
      exact ⟨hperm.nodup_iff.1 i1, fun x hx => i2 x (hperm.mem_iff.2 hx)⟩
    | @getNew k =>
      refine ⟨?_, ?_⟩
      · simp only [List.map_cons]
        rw [List.perm_middle.nodup_iff, List.nodup_cons]
        exact ⟨fun hx => Nat.lt_irrefl _ (i2 _ hx), i1⟩
      · intro x hx
        simp only [List.map_cons, List.mem_append, List.mem_cons] at hx
        have : x = p.made ∨ x ∈ p.free ++ p.busy.map (·.2) := by
          rw [List.mem_append]; rcases hx with hx | hx | hx
          · exact .inr (.inl hx)
          · exact .inl hx
          · exact .inr (.inr hx)
        rcases this with rfl | hx
        · exact Nat.lt_succ_self _
        · exact Nat.lt_succ_of_lt (i2 _ hx)
    | @finish a b c k c0 req rw body w st hb =>
      have hperm : (p.free ++ p.busy.map (·.2)).Perm (c :: (p.free ++ (a ++ b).map (·.2))) := by
        rw [hb]
        simp only [List.map_append, List.map_cons, ← List.append_assoc]
        exact List.perm_middle
      have hone : ∀ n, n ≤ 1 → (p.free ++ List.replicate n c ++ (a ++ b).map (·.2)).Nodup ∧
          ∀ x ∈ p.free ++ List.replicate n c ++ (a ++ b).map (·.2), x < p.made := by
        intro n hn
        have h1 := hperm.nodup_iff.1 i1
        have h2 : ∀ x ∈ c :: (p.free ++ (a ++ b).map (·.2)), x < p.made := fun x hx => i2 x (hperm.mem_iff.2 hx)
        rcases Nat.le_one_iff_eq_zero_or_eq_one.1 hn with rfl | rfl
        · simp only [List.replicate_zero, List.append_nil]
          exact ⟨(List.nodup_cons.1 h1).2, fun x hx => h2 x (List.mem_cons_of_mem _ hx)⟩
        · have hp2 : (p.free ++ List.replicate 1 c ++ (a ++ b).map (·.2)).Perm (c :: (p.free ++ (a ++ b).map (·.2))) := by
            simp only [List.replicate_one, List.append_assoc, List.cons_append, List.nil_append]
            exact List.perm_middle
          exact ⟨hp2.nodup_iff.2 h1, fun x hx => h2 x (hp2.mem_iff.1 hx)⟩
      apply hone
      obtain ⟨h1, h2⟩ := C35_put_once rx o e c0 req rw body w
      by_cases hx : (serve rx o e c0 req rw body w).took = true ∧ (serve rx o e c0 req rw body w).out = .ret
      · rw [h1 hx]; exact Nat.le_refl _
      · rw [h2 hx]; exact Nat.zero_le _
    | @drop a b c hf =>
      have hsub : ((a ++ b) ++ p.busy.map (·.2)).Sublist (p.free ++ p.busy.map (·.2)) := by
        rw [hf]
        exact ((List.sublist_cons_self c b).append_left a).append_right _
      exact ⟨i1.sublist hsub, fun x hx => i2 x (hsub.subset hx)⟩

/-- C35. In every state the server can reach, under every interleaving of requests beginning and ending (normally or
not) and every choice of the pool: two requests in progress use different contexts, and no context in use is in the
pool. -/
theorem C35_no_sharing {rx : Regex} {o : Oracle} {e : Engine (Prog ω)} {p : Pool ω} (h : Reach rx o e p) :
    (∀ i j (hi : i < p.busy.length) (hj : j < p.busy.length), p.busy[i].2 = p.busy[j].2 → i = j) ∧
      (∀ x ∈ p.busy, x.2 ∉ p.free) ∧ p.free.Nodup := by
  obtain ⟨h1, _⟩ := pool_ok h
  rw [List.nodup_append] at h1
  obtain ⟨h2, h3, h4⟩ := h1
  refine ⟨?_, ?_, h2⟩
  · intro i j hi hj he
    rw [List.nodup_iff_pairwise_ne, List.pairwise_iff_getElem] at h3
    rcases Nat.lt_trichotomy i j with hij | hij | hij
    · exact absurd (by rw [List.getElem_map, List.getElem_map]; exact he) (h3 i j (by simpa using hi) (by simpa using hj) hij)
    · exact hij
    · exact absurd (by rw [List.getElem_map, List.getElem_map]; exact he.symm) (h3 j i (by simpa using hj) (by simpa using hi) hij)
  · intro x hx hf
    exact h4 _ hf _ (List.mem_map_of_mem hx) rfl

/-- C35: a context that was made and is neither in the pool nor in use (its request panicked, or the pool dropped
it) is never used again. -/
theorem C35_retired {rx : Regex} {o : Oracle} {e : Engine (Prog ω)} {p q : Pool ω} (hs : Step rx o e p q)
    {c : Nat} (h1 : c < p.made) (h2 : c ∉ p.free) (h3 : c ∉ p.busy.map (·.2)) :
    c < q.made ∧ c ∉ q.free ∧ c ∉ q.busy.map (·.2) := by
  cases hs with
  | @getOld a b d k hf =>
    rw [hf] at h2
    simp only [List.mem_append, List.mem_cons, not_or] at h2
    simp only [List.map_cons, List.mem_append, List.mem_cons, not_or]
    exact ⟨h1, ⟨h2.1, h2.2.2⟩, h2.2.1, h3⟩
  | getNew =>
    simp only [List.map_cons, List.mem_cons, not_or]
    exact ⟨Nat.lt_succ_of_lt h1, h2, Nat.ne_of_lt h1, h3⟩
  | @finish a b d k c0 req rw body w st hb =>
    rw [hb] at h3
    simp only [List.map_append, List.map_cons, List.mem_append, List.mem_cons, not_or] at h3
    simp only [List.map_append, List.mem_append, not_or]
    refine ⟨h1, ⟨h2, ?_⟩, h3.1, h3.2.2⟩
    intro hx
    exact h3.2.1 (List.eq_of_mem_replicate hx)
  | @drop a b d hf =>
    rw [hf] at h2
    simp only [List.mem_append, List.mem_cons, not_or] at h2
    simp only [List.mem_append, not_or]
    exact ⟨h1, ⟨h2.1, h2.2.2⟩, h3⟩

/-! ### Examples and the refutation of C34 -/
namespace Demo

/-- handlers that write a fixed text -/
def sayH (s : Str) : Prog Unit := .do (.write s) .ret
/-- a handler that writes the parameter `id` -/
def idH : Prog Unit := .call (.param b!"id") (fun r => match r with | .str s => .do (.write s) .ret | _ => .ret)
/-- a handler that only calls `Next` -/
def passH : Prog Unit := .next .ret

/-- `Before`; `/u/<id>`; `/s`, which also reads `id` -/
def serveOps : List (Op (Prog Unit)) :=
  [.newRouter, .before 0 [.ctxFunc passH], .handle 0 mGET b!"/u/<id>" [.ctxFunc idH], .handle 0 mGET b!"/s" [.ctxFunc idH]]

def withServe (opts : List (Opt (Prog Unit))) (p : Engine (Prog Unit) → Bool) : Bool :=
  match runOps [] serveOps with
  | .error _ => false
  | .ok heap =>
    match handler rx heap 0 opts with
    | .ok e => p e
    | .error _ => false

theorem withServe_spec {opts : List (Opt (Prog Unit))} {p : Engine (Prog Unit) → Bool} (h : withServe opts p = true) :
    ∃ heap e, runOps [] serveOps = .ok heap ∧ handler rx heap 0 opts = .ok e ∧ p e = true := by
  unfold withServe at h
  cases h1 : runOps [] serveOps with
  | error er => rw [h1] at h; cases h
  | ok heap =>
    rw [h1] at h
    simp only [] at h
    cases h2 : handler rx heap 0 opts with
    | error er => rw [h2] at h; cases h
    | ok e => rw [h2] at h; exact ⟨heap, e, rfl, h2, h⟩

/-- the request for a path -/
def at' (path : Str) : Req := { chainReq with path, requestURI := path }

theorem at'_routed (path : Str) (h : path ≠ b!"*") : Routed (at' path) := ⟨.inr ⟨rfl, Int.le_refl 1⟩, h, List.mem_cons_self⟩

/-- serve a request in a context -/
def ask (e : Engine (Prog Unit)) (c : Ctx Unit) (path : Str) : Served Unit := serve rx chainO e c (at' path) Writer.new none ()

/-- the body sent -/
def bodyOf (sv : Served Unit) : Str := sv.rw.log.flatMap (fun x => match x with | .body d => d | _ => [])
/-- the status lines sent -/
def codesOf (sv : Served Unit) : List Int := sv.rw.log.filterMap (fun x => match x with | .status _ c _ => some c | _ => none)

/-- the hypotheses of C22 and C17_served are met: a route, a bare 404, not-found handlers after `Before`; and C23 -/
example : withServe [] (fun e => bodyOf (ask e .new b!"/u/42") == b!"42" && codesOf (ask e .new b!"/u/42") == [200] &&
    codesOf (ask e .new b!"/x") == [404] && (ask e .new b!"/x").trace == [] &&
    codesOf (serve rx chainO e .new { at' b!"/u/42" with protoMinor := 0 } Writer.new none ()) == [406] &&
    codesOf (serve rx chainO e .new { at' b!"/u/42" with method := b!"TRACE" } Writer.new none ()) == [405]) = true := by
  decide +kernel

example : withServe [.noFound [.ctxFunc (sayH b!"nope")]] (fun e => bodyOf (ask e .new b!"/x") == b!"nope" &&
    (ask e .new b!"/x").trace == [.start 0, .next 0, .start 1, .stop 1 true, .back 0, .stop 0 true]) = true := by
  decide +kernel

/-- two requests in progress at once, one of which ends and whose context is used again -/
example : ∃ (e : Engine (Prog Unit)) (p : Pool Unit), Reach rx chainO e p ∧ p.busy = [(3, 0), (2, 1)] ∧ p.free = [] := by
  obtain ⟨heap, e, _, _, he⟩ := withServe_spec (opts := []) (p := fun e => (ask e .new b!"/u/1").puts.length == 1)
    (by decide +kernel)
  have he := eq_of_beq he
  refine ⟨e, ⟨2, [], [(3, 0), (2, 1)], fun _ => .new⟩, ?_, rfl, rfl⟩
  have s1 : Reach rx chainO e ⟨1, [], [(1, 0)], fun _ => .new⟩ := .step .start (.getNew (k := 1))
  have s2 : Reach rx chainO e ⟨2, [], [(2, 1), (1, 0)], fun _ => .new⟩ := .step s1 (.getNew (k := 2))
  have s3 : Reach rx chainO e ⟨2, [0], [(2, 1)], fun _ => .new⟩ := by
    have := Reach.step s2 (Step.finish (a := [(2, 1)]) (b := []) (c := 0) (k := 1) (c0 := .new) (req := at' b!"/u/1")
      (rw := Writer.new) (body := none) (w := ()) (st := fun _ => .new) rfl)
    have h2 : (serve rx chainO e Ctx.new (at' b!"/u/1") Writer.new none ()).puts.length = 1 := he
    rw [h2] at this
    exact this
  exact .step s3 (.getOld (a := []) (b := []) (k := 3) rfl)

end Demo

open Demo in
/-- C34 as stated is false: with the static-route option on, `/s` is served with the parameters that `/u/42` left
in the recycled context; the same request panics in a new context. -/
theorem C34_refuted : ∃ (rx : Regex) (o : Oracle) (heap : Heap (Prog Unit)) (e : Engine (Prog Unit)) (c : Ctx Unit) (req : Req),
    runOps [] serveOps = .ok heap ∧ handler rx heap 0 [.staticRouter true] = .ok e ∧
    -- `c` comes from an earlier request
    (serve rx o e .new (at' b!"/u/42") Writer.new none ()).puts = [c] ∧
    (serve rx o e c req Writer.new none ()).out = .ret ∧
    (serve rx o e c req Writer.new none ()).rw.log ≠ [] ∧
    (∃ v, (serve rx o e .new req Writer.new none ()).out = .panic v) ∧
    ¬ Same (serve rx o e c req Writer.new none ()) (serve rx o e .new req Writer.new none ()) := by
  obtain ⟨heap, e, h1, h2, h3⟩ := withServe_spec (opts := [.staticRouter true]) (p := fun e =>
    match (ask e .new b!"/u/42").puts with
    | [c] => (ask e c b!"/s").out == .ret && bodyOf (ask e c b!"/s") == b!"42" &&
        (ask e .new b!"/s").out == .panic callPanic
    | _ => false) (by decide +kernel)
  split at h3
  · rename_i c hc
    simp only [Bool.and_eq_true, beq_iff_eq] at h3
    obtain ⟨⟨h4, h5⟩, h6⟩ := h3
    refine ⟨rx, chainO, heap, e, c, at' b!"/s", h1, h2, hc, h4, ?_, ⟨_, h6⟩, ?_⟩
    · intro h0
      have h7 : (ask e c b!"/s").rw.log = [] := h0
      rw [bodyOf, h7] at h5
      revert h5; decide
    · intro hs
      have h7 : (ask e c b!"/s").out = (ask e .new b!"/s").out := hs.1
      rw [h4, h6] at h7
      cases h7
  · cases h3

end Water
