import Verif.Lemmas.Compose
import Verif.Props.Choice
import Verif.Props.Classic
/-
C88: a chain is the composition of its handlers. C89: a request is served as the table of registrations and the composition of the
handlers say.
-/
namespace Water
open Spec Demo
variable {ω : Type}

/-! ## C88 -/

/-- **C88 (partial).** If every handler calls `Next` at most once, and answers the request when it recovers from a panic of what comes
after it, then running a chain is composing its handlers: each sees as `Next` exactly the composition of the later ones. Missing (see
`C88_refuted`): after a second call of `Next`, or a recovered panic without a response, the chain goes on in the middle. -/
theorem C88_composition_partial (o : Oracle) (req : Req) (s : St ω) (hi : s.ctx.index = 0) (hs : ∀ h ∈ s.ctx.handlers, Single h) :
    compose o req s.ctx.handlers (unchained s) = ((runAll o req s).1, unchained (runAll o req s).2) :=
  (run_composes o req s.ctx.handlers hs (s.ctx.handlers.length + 1) (by omega) s (by rw [hi]; rfl)).1

/-- two handlers that do the same, whatever comes after them -/
def SameFunction (o : Oracle) (req : Req) (h h' : Prog ω) : Prop :=
  ∀ (next : St ω → Out × St ω) (s : St ω), asFunction o req next h false s = asFunction o req next h' false s

theorem compose_congr (o : Oracle) (req : Req) {hs hs' : List (Prog ω)} (h : hs.length = hs'.length)
    (he : ∀ (k : Nat) (h1 : k < hs.length) (h2 : k < hs'.length), SameFunction o req hs[k] hs'[k]) : compose o req hs = compose o req hs' := by
  induction hs generalizing hs' with
  | nil =>
    cases hs' with
    | nil => rfl
    | cons _ _ => simp at h
  | cons a t ih =>
    cases hs' with
    | nil => simp at h
    | cons b t' =>
      have ht : compose o req t = compose o req t' := by
        refine ih (by simpa using h) (fun k h1 h2 => ?_)
        exact he (k + 1) (by simpa using h1) (by simpa using h2)
      have h0 := he 0 (by simp) (by simp)
      simp only [List.getElem_cons_zero] at h0
      funext s
      simp only [compose]
      rw [h0, ht]

/-- **C88 (replacing).** In a chain, a handler may be replaced by one that does the same. -/
theorem C88_replace (o : Oracle) (req : Req) (s s' : St ω) (hi : s.ctx.index = 0) (hi' : s'.ctx.index = 0) (hb : unchained s = unchained s')
    (hs : ∀ h ∈ s.ctx.handlers, Single h) (hs' : ∀ h ∈ s'.ctx.handlers, Single h) (hl : s.ctx.handlers.length = s'.ctx.handlers.length)
    (he : ∀ (k : Nat) (h1 : k < s.ctx.handlers.length) (h2 : k < s'.ctx.handlers.length),
      SameFunction o req s.ctx.handlers[k] s'.ctx.handlers[k]) :
    (runAll o req s).1 = (runAll o req s').1 ∧ unchained (runAll o req s).2 = unchained (runAll o req s').2 := by
  have h1 := C88_composition_partial o req s hi hs
  have h2 := C88_composition_partial o req s' hi' hs'
  rw [← hb, ← compose_congr o req hl he, h1] at h2
  simpa using h2

theorem compose_pass (o : Oracle) (req : Req) (a t : List (Prog ω)) : compose o req (a ++ .next .ret :: t) = compose o req (a ++ t) := by
  induction a with
  | nil =>
    funext s
    simp only [List.nil_append, compose, asFunction]
    rcases hc : compose o req t s with ⟨out, s1⟩
    cases out <;> simp
  | cons b a ih =>
    funext s
    simp only [List.cons_append, compose, ih]

/-- **C88 (passing on).** A middleware that only calls `Next` may be put anywhere into a chain without any effect. -/
theorem C88_pass (o : Oracle) (req : Req) (s s' : St ω) (hi : s.ctx.index = 0) (hi' : s'.ctx.index = 0) (hb : unchained s = unchained s')
    {a t : List (Prog ω)} (h : s.ctx.handlers = a ++ .next .ret :: t) (h' : s'.ctx.handlers = a ++ t) (hs : ∀ h ∈ a ++ t, Single h) :
    (runAll o req s).1 = (runAll o req s').1 ∧ unchained (runAll o req s).2 = unchained (runAll o req s').2 := by
  have h1 := C88_composition_partial o req s hi (by
    rw [h]
    intro x hx
    simp only [List.mem_append, List.mem_cons] at hx
    rcases hx with hx | rfl | hx
    · exact hs x (by simp [hx])
    · exact trivial
    · exact hs x (by simp [hx]))
  have h2 := C88_composition_partial o req s' hi' (by rw [h']; exact hs)
  rw [h, compose_pass, hb] at h1
  rw [h', h1] at h2
  simpa using h2

/-! The middlewares of the framework call `Next` at most once, and Recovery answers. -/

theorem noNext_data (code : Int) (ct d : Str) {k : Prog ω} (hk : NoNext k) : NoNext (.data code ct d k) := fun _ _ _ => hk

theorem single_recovery (o : Oracle) : Single (recovery o : Prog ω) := by
  refine .inr ⟨trivial, ?_, ?_⟩
  · intro r
    have h1 : ∀ (b : Bool) (msg : Str), NoNext (if b then .ret else .string 500 (o.crashText (.val msg)) .ret : Prog ω) := by
      intro b msg
      cases b
      · exact noNext_data _ _ _ trivial
      · exact trivial
    cases r with
    | none => intro w; dsimp only; split <;> simp [NoNext, Prog.do]
    | some v =>
      cases v with
      | nil => intro w; dsimp only; split <;> simp [NoNext, Prog.do]
      | val msg =>
        intro w
        simp only
        split
        · intro _; exact h1 _ _
        · exact h1 _ _
  · intro v o' req nx i s s' he
    have key : ∀ (code : Int) (p : Prog ω), NoNext p →
        exec o' req nx i (.call .written (fun w => if w = .bool false then .do (.writeHeader code) p else p)) s = (.ret, s') →
        s'.ctx.written = true := by
      intro code p hp he
      simp only [exec, doCall] at he
      by_cases hw : s.ctx.written = true
      · rw [if_neg (by simp [hw])] at he
        have := (quiet_asFunction o' req nx nx i p hp false s).2.2.2 hw
        rw [he] at this
        exact this
      · rw [if_pos (by simpa using hw)] at he
        simp only [Prog.do, exec] at he
        have hf := St.writeHeader_frame o' s code
        simp only [doCall] at he
        rcases hd : s.writeHeader o' code with ⟨b, s1⟩
        rw [hd] at he hf
        cases b with
        | true => simp at he
        | false =>
          have := (quiet_asFunction o' req nx nx i p hp false s1).2.2.2 hf.2.2.2
          simp only at he
          rw [he] at this
          exact this
    cases v with
    | nil => exact key 200 .ret trivial he
    | val msg =>
      refine key 500 (if o.stable then .ret else .string 500 (o.crashText (.val msg)) .ret) ?_ he
      cases o.stable
      · exact noNext_data _ _ _ trivial
      · exact trivial

theorem single_logger (closed withBody : Bool) (emit : List Str → Int → Str → ω → ω) : Single (logger closed withBody emit : Prog ω) := by
  have ht : ∀ b, Single (loggerTail emit b : Prog ω) := by
    intro b st
    cases st <;> simp [NoNext, Prog.do]
    intro a
    cases a <;> simp [NoNext]
  unfold logger
  cases closed
  · cases withBody
    · exact ht _
    · intro b
      simp only
      split
      · intro ct
        cases ct with
        | str ct =>
          simp only
          split
          · intro d
            cases d with
            | str d => intro _; exact ht _
            | _ => exact trivial
          · exact ht _
        | _ => exact trivial
      · exact ht _
  · exact trivial

theorem single_setHeaderIf (b : Bool) (k v : Str) {p : Prog ω} (hp : Single p) : Single (.setHeaderIf b k v p) := by
  unfold Prog.setHeaderIf
  cases b
  · exact hp
  · exact fun _ => hp

theorem single_cors (cfg : CORSConfig) : Single (cors cfg : Prog ω) := by
  intro r
  cases r with
  | str origin =>
    intro r
    simp only
    split
    · intro _ _
      exact single_setHeaderIf _ _ _ (single_setHeaderIf _ _ _ trivial)
    · intro _ _ _ _ _
      refine single_setHeaderIf _ _ _ ?_
      split
      · intro _
        exact single_setHeaderIf _ _ _ (fun _ => trivial)
      · intro r
        cases r with
        | str h => exact single_setHeaderIf _ _ _ (single_setHeaderIf _ _ _ (fun _ => trivial))
        | _ => exact single_setHeaderIf _ _ _ (fun _ => trivial)
  | _ => exact trivial

/-- **C88 (the middlewares).** Recovery, Logger and CORS, in every configuration, satisfy the hypothesis. -/
theorem C88_middlewares (o : Oracle) (closed withBody : Bool) (emit : List Str → Int → Str → ω → ω) (cfg : CORSConfig) :
    ∀ h ∈ [recovery o, logger closed withBody emit, cors cfg], Single h := by
  intro h hh
  simp only [List.mem_cons, List.not_mem_nil, or_false] at hh
  rcases hh with rfl | rfl | rfl
  · exact single_recovery o
  · exact single_logger _ _ _
  · exact single_cors cfg

/-- a chain with Recovery, a middleware that works before and after `Next`, and a handler that panics -/
example : (compose chainO chainReq [recovery chainO, wrapH, panicH, writeH] (chainSt [])).1 = .ret ∧
    received (compose chainO chainReq [recovery chainO, wrapH, panicH, writeH] (chainSt [])).2.rw.log = some 500 ∧
    received (runAll chainO chainReq (chainSt [recovery chainO, wrapH, panicH, writeH])).2.rw.log = some 500 ∧
    (compose chainO chainReq [wrapH, writeH, panicH] (chainSt [])).1 = .ret ∧
    receivedBody (compose chainO chainReq [wrapH, writeH, panicH] (chainSt [])).2.rw.log =
      receivedBody (runAll chainO chainReq (chainSt [wrapH, writeH, panicH])).2.rw.log := by
  decide +kernel

/-- C88 as stated is false: if a handler recovers from the panic of the next one and does not answer, the handlers after the one that
panicked run all the same; in the composition they do not. -/
theorem C88_refuted : ¬ ∀ (o : Oracle) (req : Req) (s : St Unit), s.ctx.index = 0 →
    (compose o req s.ctx.handlers (unchained s)).2.ctx.written = (runAll o req s).2.ctx.written := by
  intro h
  have := h chainO chainReq (chainSt [catchH, panicH, writeH]) rfl
  exact absurd this (by decide +kernel)

/-- so is it for a handler that calls `Next` twice: the second call starts in the middle -/
example : (compose chainO chainReq [twiceH, writeH, idleH, panicH] (chainSt [])).1 ≠
    (runAll chainO chainReq (chainSt [twiceH, writeH, idleH, panicH])).1 := by
  decide +kernel

/-! ## C89 -/

theorem boundBy_of {l : List (Str × Str)} (hn : (l.map Prod.fst).Nodup) {x v : Str} (h : (x, v) ∈ l) : boundBy l x = some v := by
  induction l with
  | nil => simp at h
  | cons b l ih =>
    simp only [List.map_cons, List.nodup_cons] at hn
    rcases List.mem_cons.1 h with rfl | h
    · simp [boundBy]
    · have hne : b.1 ≠ x := fun e => hn.1 (List.mem_map.2 ⟨(x, v), h, e.symm⟩)
      have := ih hn.2 h
      unfold boundBy at this ⊢
      rw [List.find?_cons_of_neg (by simpa using hne)]
      exact this

theorem boundBy_none {l : List (Str × Str)} {x : Str} (h : x ∉ l.map Prod.fst) : boundBy l x = none := by
  unfold boundBy
  rw [Option.map_eq_none_iff, List.find?_eq_none]
  intro b hb
  simp only [decide_eq_true_eq]
  exact fun e => h (List.mem_map.2 ⟨b, hb, e⟩)

/-- **C89 (partial).** A request, from the bytes of its path to the response. If `r` is the best registered pattern, registered first
with the handlers `hs` and last as `u`, the request is served by the composition of `hs` from a fresh state, in which the full path is
`u` and the parameters are the bindings of `r` on the path. The tree, the index, the pool and what earlier requests left in it do not
show. Missing: what the handlers do wrong in C88, what failed branches leave behind in C07, and the static-route option (C13, C34). -/
theorem C89_found_partial {rx : Regex} {o : Oracle} {nf : List (Prog ω)} {rs : List (Route (Prog ω))} {e : Engine (Prog ω)}
    (h : mkEngine rx false nf rs = .ok e) {req : Req} (hr : Routed req) {r : List Str} {hs : List (Prog ω)} {u : Str}
    (hb : Best rx (tableFor req.method rs) (pathSegs req.path) r) (hf : FirstHandlers (tableFor req.method rs) r hs)
    (hu : LastUri (tableFor req.method rs) r u) (hrx : ∀ w ∈ rs, w.method = req.method → ∀ x, ¬ InnerRegexName (routeSegs w.uri) x)
    (hn : ((bindings rx 0 r (pathSegs req.path)).map Prod.fst).Nodup) (hone : ∀ h ∈ hs, Single h)
    (c : Ctx ω) (rw : Writer) (body : Option Str) (w : ω) :
    Composed (serve rx o e c req rw body w) o req hs
      (fresh (some u) (boundBy (bindings rx 0 r (pathSegs req.path))) rw body w) := by
  obtain ⟨i, hi⟩ := hr.index
  have hserved := (C86_served h req.method req.path hs u).2 ⟨r, hb, hf, hu⟩
  cases hno : routeOf rx e req.method req.path with
  | none => rw [hno] at hserved; cases hserved
  | some n =>
    rw [hno] at hserved
    simp only [Option.map_some, Option.some.injEq, Prod.mk.injEq] at hserved
    obtain ⟨rfl, rfl⟩ := hserved
    obtain ⟨r', ps, hps, ha', hf', hu', hb', hw⟩ := dispatch_spec h hno
    obtain rfl := best_unique hb ⟨firstHandlers_entry hf', ha', hb'⟩
    have hnl : ∀ x, ¬ ∃ y ∈ tableFor req.method rs, InnerRegexName y.segs x := by
      rintro x ⟨y, hy, hx⟩
      obtain ⟨v, hv, hvm, rfl⟩ := mem_tableFor.1 hy
      exact hrx v hv hvm x hx
    have hpe : ps = boundBy (bindings rx 0 r (pathSegs req.path)) := by
      funext x
      by_cases hx : x ∈ (bindings rx 0 r (pathSegs req.path)).map Prod.fst
      · obtain ⟨⟨x', v⟩, hm, rfl⟩ := List.mem_map.1 hx
        rw [boundBy_of hn hm]
        refine hw.2 hn x' v hm (fun hin => ?_)
        obtain ⟨y, hy, hyr⟩ := hb.1
        exact absurd ⟨y, hy, hyr ▸ hin⟩ (hnl x')
      · rw [boundBy_none hx, hw.1 x hx (hnl x)]
        rfl
    simp only [routeOf, hi] at hno
    simp only [paramsOf, hi] at hps
    have hl2 : (lookup rx e i req.path).2 = some (some ps) := by
      revert hps
      cases (lookup rx e i req.path).2 with
      | none => simp
      | some q => simp [Option.join]
    rw [serve_routed hr.ungated hi, serveRouted_chain (hs := n.handlers) (by rw [hno]; rfl), hno, hl2]
    have hcomp := C88_composition_partial o req (startSt c n.handlers (some n.uri) (some (some ps)) rw body w) rfl hone
    have hstart : unchained (startSt c n.handlers (some n.uri) (some (some ps)) rw body w) =
        fresh (some n.uri) (boundBy (bindings rx 0 r (pathSegs req.path))) rw body w := by
      rw [← hpe]; rfl
    rw [hstart] at hcomp
    have hh : (startSt c n.handlers (some n.uri) (some (some ps)) rw body w).ctx.handlers = n.handlers := rfl
    rw [hh] at hcomp
    unfold Composed
    rw [hcomp]
    exact ⟨rfl, rfl, rfl, rfl⟩

/-- **C89 (static routes, partial).** With the static-route option, and if no path registered for the method has an empty segment inside,
the request is served in the same way, except that for a path that is the spelling of a literal route the parameters may be those the
context had from an earlier request. -/
theorem C89_static_partial {rx : Regex} {o : Oracle} {nf : List (Prog ω)} {rs : List (Route (Prog ω))} {e : Engine (Prog ω)}
    (h : mkEngine rx true nf rs = .ok e) {req : Req} (hr : Routed req) {r : List Str} {hs : List (Prog ω)} {u : Str}
    (hplain : ∀ v ∈ rs, v.method = req.method → Plain v.uri)
    (hb : Best rx (tableFor req.method rs) (pathSegs req.path) r) (hf : FirstHandlers (tableFor req.method rs) r hs)
    (hu : LastUri (tableFor req.method rs) r u) (hrx : ∀ w ∈ rs, w.method = req.method → ∀ x, ¬ InnerRegexName (routeSegs w.uri) x)
    (hn : ((bindings rx 0 r (pathSegs req.path)).map Prod.fst).Nodup) (hone : ∀ h ∈ hs, Single h)
    (c : Ctx ω) (rw : Writer) (body : Option Str) (w : ω) :
    Composed (serve rx o e c req rw body w) o req hs
        (fresh (some u) (boundBy (bindings rx 0 r (pathSegs req.path))) rw body w) ∨
      (Composed (serve rx o e c req rw body w) o req hs (fresh (some u) c.params rw body w) ∧
        ∃ v ∈ rs, v.method = req.method ∧ req.path = variantUri v.uri ∧ ∀ p ∈ routeSegs v.uri, kind p = .literal) := by
  obtain ⟨e0, h0⟩ := C13_same_construction.1 ⟨e, h⟩
  obtain ⟨i, hi⟩ := hr.index
  have hserved := (C86_served h0 req.method req.path hs u).2 ⟨r, hb, hf, hu⟩
  have hsame := C13_static_transparent_partial h h0 hplain req.path
  cases hno : routeOf rx e0 req.method req.path with
  | none => rw [hno] at hserved; cases hserved
  | some n =>
    rw [hno] at hserved hsame
    simp only [Option.map_some, Option.some.injEq, Prod.mk.injEq] at hserved
    obtain ⟨rfl, rfl⟩ := hserved
    rcases static_lookup (path := req.path) h h0 hi with hl | ⟨hl, hv⟩
    · left
      have := C89_found_partial (o := o) h0 hr hb hf hu hrx hn hone c rw body w
      simp only [routeOf, hi] at hno
      rw [serve_routed hr.ungated hi, serveRouted_chain (hs := n.handlers) (by rw [hno]; rfl)] at this
      rw [serve_routed hr.ungated hi, hl, serveRouted_chain (hs := n.handlers) (by rw [hno]; rfl)]
      exact this
    · right
      refine ⟨?_, hv⟩
      simp only [routeOf, hi] at hsame
      rw [serve_routed hr.ungated hi, serveRouted_chain (hs := n.handlers) (by rw [hsame]; rfl), hsame, hl]
      have hcomp := C88_composition_partial o req (startSt c n.handlers (some n.uri) none rw body w) rfl hone
      have hstart : unchained (startSt c n.handlers (some n.uri) none rw body w) = fresh (some n.uri) c.params rw body w := rfl
      rw [hstart] at hcomp
      have hh : (startSt c n.handlers (some n.uri) none rw body w).ctx.handlers = n.handlers := rfl
      rw [hh] at hcomp
      unfold Composed
      simp only [Option.map_some]
      rw [hcomp]
      exact ⟨rfl, rfl, rfl, rfl⟩

/-- **C89 (not found, partial).** If no registered pattern of the method accepts the path and there are not-found handlers, the request
is served by their composition from a fresh state without full path and parameters. -/
theorem C89_missing_partial {rx : Regex} {o : Oracle} {nf : List (Prog ω)} {rs : List (Route (Prog ω))} {e : Engine (Prog ω)}
    (h : mkEngine rx false nf rs = .ok e) {req : Req} (hr : Routed req) (hnone : ∀ v ∈ rs, v.method = req.method → ¬ RouteAccepts rx v req.path)
    (hrx : ∀ w ∈ rs, w.method = req.method → ∀ x, ¬ InnerRegexName (routeSegs w.uri) x) (hnf : nf ≠ []) (hone : ∀ h ∈ nf, Single h)
    (c : Ctx ω) (rw : Writer) (body : Option Str) (w : ω) :
    Composed (serve rx o e c req rw body w) o req nf (fresh none Map.empty rw body w) := by
  obtain ⟨i, hi⟩ := hr.index
  obtain ⟨hinv, hst, hnfe, _⟩ := mkEngine_inv h
  have hno := (C02_not_found_iff h req.method req.path).2 hnone
  simp only [routeOf, hi] at hno
  have hpar : ∃ q, (lookup rx e i req.path).2 = some q ∧ q.getD Map.empty = Map.empty := by
    have h1 := hinv req.method i hi
    unfold lookup at hno ⊢
    rw [hst] at hno ⊢
    simp only [Bool.false_eq_true, if_false] at hno ⊢
    cases ht : e.trees i with
    | none => exact ⟨none, rfl, rfl⟩
    | some t =>
      rw [ht] at h1 hno
      refine ⟨some (matchUri rx (some t) req.path).1, rfl, ?_⟩
      have hmm : matchNext rx t 0 (trimSuffix (trimPrefix req.path [slash]) [slash]) Map.empty =
          ((matchUri rx (some t) req.path).1, none) := by
        rw [← hno]; rfl
      funext x
      refine matchNext_none rx t 0 _ Map.empty _ hmm x (fun hl => ?_)
      obtain ⟨y, hy, hx⟩ := hl.table h1.1
      obtain ⟨v, hv, hvm, rfl⟩ := mem_tableFor.1 hy
      exact hrx v hv hvm x hx
  obtain ⟨q, hq, hqe⟩ := hpar
  have hch : chainFor e (lookup rx e i req.path).1 = some nf := by
    rw [hno]
    unfold chainFor
    rw [hnfe, if_pos (by simpa using hnf)]
  rw [serve_routed hr.ungated hi, serveRouted_chain hch, hno, hq]
  have hcomp := C88_composition_partial o req (startSt c nf none (some q) rw body w) rfl hone
  have hstart : unchained (startSt c nf none (some q) rw body w) = fresh none Map.empty rw body w := by
    cases q with
    | none => rfl
    | some ps => simp only [Option.getD_some] at hqe; rw [hqe]; rfl
  rw [hstart] at hcomp
  have hh : (startSt c nf none (some q) rw body w).ctx.handlers = nf := rfl
  rw [hh] at hcomp
  unfold Composed
  simp only [Option.map_none]
  rw [hcomp]
  exact ⟨rfl, rfl, rfl, rfl⟩

/-- the one route of the example: a middleware and a handler that writes the parameter -/
def refRoutes : List (Route (Prog Unit)) := [{ method := mGET, uri := b!"/u/<id>", variant := [], handlers := [recovery chainO, passH, idH] }]

/-- the request for `/u/42` is served by composing the handlers in the state where `id` is 42, and the response says so -/
example : ∃ e, mkEngine rx false [] refRoutes = .ok e ∧ ∀ c : Ctx Unit,
    Composed (serve rx chainO e c (at' b!"/u/42") Writer.new none ()) chainO (at' b!"/u/42") [recovery chainO, passH, idH]
      (fresh (some b!"/u/<id>") (boundBy [(b!"id", b!"42")]) Writer.new none ()) ∧
    receivedBody (serve rx chainO e c (at' b!"/u/42") Writer.new none ()).rw.log = b!"42" := by
  have hk : (match mkEngine rx false [] refRoutes with
      | .ok e => (routeOf rx e mGET b!"/u/42").map (fun n => (n.handlers.length, n.uri)) == some (3, b!"/u/<id>")
      | .error _ => false) = true := by decide +kernel
  cases hm : mkEngine rx false [] refRoutes with
  | error er => rw [hm] at hk; cases hk
  | ok e =>
    rw [hm] at hk
    have hk : (routeOf rx e mGET b!"/u/42").map (fun n => (n.handlers.length, n.uri)) = some (3, b!"/u/<id>") := eq_of_beq hk
    refine ⟨e, rfl, fun c => ?_⟩
    cases hno : routeOf rx e mGET b!"/u/42" with
    | none => rw [hno] at hk; cases hk
    | some n =>
      obtain ⟨r, hb, hf, hu⟩ := (C86_served hm mGET b!"/u/42" n.handlers n.uri).1 (by rw [hno]; rfl)
      have hsegs : routeSegs b!"/u/<id>" = [b!"u", b!"<id>"] := by decide +kernel
      have htab : tableFor mGET refRoutes = [⟨routeSegs b!"/u/<id>", [recovery chainO, passH, idH], b!"/u/<id>"⟩] := rfl
      rw [hsegs] at htab
      have hr : r = [b!"u", b!"<id>"] := by
        obtain ⟨y, hy, hyr⟩ := hb.1
        rw [htab, List.mem_singleton] at hy
        rw [← hyr, hy]
      have hbind : bindings rx 0 r (pathSegs b!"/u/42") = [(b!"id", b!"42")] := by rw [hr]; decide +kernel
      have hhs : n.handlers = [recovery chainO, passH, idH] := by
        obtain ⟨l1, x, l2, hx, _, hxh, _⟩ := hf
        have : x ∈ tableFor mGET refRoutes := by rw [hx]; simp
        rw [htab, List.mem_singleton] at this
        rw [← hxh, this]
      have hui : n.uri = b!"/u/<id>" := by
        rw [hno] at hk
        simp only [Option.map_some, Option.some.injEq, Prod.mk.injEq] at hk
        exact hk.2
      have hmain := C89_found_partial (o := chainO) hm (at'_routed b!"/u/42" (by decide)) hb hf hu (by
          intro v hv _ x
          simp only [refRoutes, List.mem_singleton] at hv
          rw [hv, hsegs]
          rintro ⟨c, p, q, rest, he, hk, _⟩
          have hp : p ∈ [b!"u", b!"<id>"] := by rw [he]; simp
          simp only [List.mem_cons, List.not_mem_nil, or_false] at hp
          rcases hp with rfl | rfl
          · exact absurd hk (by decide +kernel)
          · exact absurd hk (by decide +kernel))
        (by rw [show (at' b!"/u/42").path = b!"/u/42" from rfl, hbind]; decide)
        (by
          rw [hhs]
          intro h hh
          simp only [List.mem_cons, List.not_mem_nil, or_false] at hh
          rcases hh with rfl | rfl | rfl
          · exact single_recovery _
          · exact trivial
          · intro r'
            cases r' with
            | str _ => exact fun _ => trivial
            | _ => exact trivial) c Writer.new none ()
      rw [show (at' b!"/u/42").path = b!"/u/42" from rfl, hbind, hhs, hui] at hmain
      refine ⟨hmain, ?_⟩
      rw [hmain.2.1]
      decide +kernel

/-- with the static-route option: the route of the example and the literal route `/s`, which also writes the parameter `id` -/
def staticRoutes : List (Route (Prog Unit)) := refRoutes ++ [{ method := mGET, uri := b!"/s", variant := [], handlers := [passH, idH] }]

/-- the paths have no empty segment; `/u/42` is served with the parameters of its path, and `/s` with those the context had -/
example : (∀ v ∈ staticRoutes, v.method = mGET → Plain v.uri) ∧
    (match mkEngine rx true [] staticRoutes with
      | .ok e =>
        let c : Ctx Unit := { Ctx.new with params := boundBy [(b!"id", b!"7")] }
        receivedBody (serve rx chainO e c (at' b!"/u/42") Writer.new none ()).rw.log == b!"42" &&
        receivedBody (serve rx chainO e c (at' b!"/s") Writer.new none ()).rw.log == b!"7" &&
        receivedBody (compose chainO (at' b!"/s") [passH, idH] (fresh (some b!"/s") c.params Writer.new none ())).2.rw.log == b!"7"
      | .error _ => false) = true := by
  refine ⟨?_, by decide +kernel⟩
  intro v hv _
  simp only [staticRoutes, refRoutes, List.cons_append, List.nil_append, List.mem_cons, List.not_mem_nil, or_false] at hv
  rcases hv with rfl | rfl
  · exact .inr ⟨[b!"u", b!"<id>"], by decide, by decide +kernel, by decide⟩
  · exact .inr ⟨[b!"s"], by decide, by decide +kernel, by decide⟩

/-- one route whose first handler recovers from the panic of the second and does not answer -/
def caughtRoutes : List (Route (Prog Unit)) := [{ method := mGET, uri := b!"/", variant := [], handlers := [catchH, panicH, writeH] }]

/-- C89 as stated is false: what C88 says of such a chain shows in the response. In the composition there is none; the code goes on
with the third handler, which writes one. -/
theorem C89_refuted : ¬ ∀ (rx : Regex) (o : Oracle) (rs : List (Route (Prog Unit))) (e : Engine (Prog Unit)) (req : Req) (r : List Str)
    (hs : List (Prog Unit)) (u : Str), mkEngine rx false [] rs = .ok e → Routed req → Best rx (tableFor req.method rs) (pathSegs req.path) r →
    FirstHandlers (tableFor req.method rs) r hs → LastUri (tableFor req.method rs) r u →
    Composed (serve rx o e .new req Writer.new none ()) o req hs
      (fresh (some u) (boundBy (bindings rx 0 r (pathSegs req.path))) Writer.new none ()) := by
  intro hall
  have hk : (match mkEngine rx false [] caughtRoutes with
      | .ok e => (serve rx chainO e .new (at' b!"/") Writer.new none ()).rw.log.isEmpty
      | .error _ => true) = false := by decide +kernel
  cases hm : mkEngine rx false [] caughtRoutes with
  | error er => rw [hm] at hk; cases hk
  | ok e =>
    rw [hm] at hk
    have hsegs : routeSegs b!"/" = [[]] := by decide +kernel
    have hps : pathSegs b!"/" = [[]] := by decide +kernel
    have htab : tableFor mGET caughtRoutes = [⟨[[]], [catchH, panicH, writeH], b!"/"⟩] := by
      rw [← hsegs]; rfl
    have := hall rx chainO caughtRoutes e (at' b!"/") [[]] [catchH, panicH, writeH] b!"/" hm (at'_routed b!"/" (by decide))
      (by
        show Best rx (tableFor mGET caughtRoutes) (pathSegs b!"/") [[]]
        rw [htab, hps]
        refine ⟨⟨_, List.mem_singleton.2 rfl, rfl⟩, ?_, ?_⟩
        · exact .last (by unfold acceptsSeg; rw [show kind [] = .literal by decide +kernel])
        · intro y hy _
          rw [List.mem_singleton] at hy
          exact .inl (by rw [hy]))
      ⟨[], _, [], htab, rfl, rfl, by simp⟩ ⟨[], _, [], htab, rfl, rfl, by simp⟩
    simp only [] at hk
    rw [this.2.1] at hk
    exact absurd hk (by decide +kernel)

end Water
