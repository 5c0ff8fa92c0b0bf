import Verif.Spec.Reference
import Verif.Props.StaticMap
import Verif.Props.Guard
/-
C108: the engine refines the reference server.
-/
namespace Water
open Spec Demo
variable {ω : Type}

/-- the code's own way of running a chain (context.go:47-61) -/
def driver (o : Oracle) (req : Req) (hs : List (Prog ω)) (s : St ω) : Out × St ω :=
  runAll o req { s with ctx := { s.ctx with handlers := hs } }

theorem runAll_params (o : Oracle) (req : Req) (s : St ω) : (runAll o req s).2.ctx.params = s.ctx.params :=
  runAll_inv o req (fun s' => s'.ctx.params = s.ctx.params) (fun _ => True) (fun _ _ h => h) (fun _ h => h)
    (fun s' c _ h => (doCall_params o req s' c).trans h) s (fun _ _ => callsIn_true _) rfl

theorem gated_iff (req : Req) : Gated req ↔ ¬ Routable req := by
  unfold Gated Routable
  by_cases h : (req.protoMajor > 1 ∨ req.protoMajor = 1 ∧ req.protoMinor ≥ 1) <;> simp only [h, not_true, not_false_iff, true_and, false_and, false_or, true_or] 
  by_cases h1 : req.requestURI = b!"*" <;> by_cases h2 : req.method = b!"CONNECT" <;> simp [h1, h2]

theorem supported_iff (m : Str) : Supported m ↔ (methodIndex m).isSome := by
  unfold Supported
  cases hi : methodIndex m with
  | none =>
    have := methodIndex_none.1 hi
    simp only [Option.isSome_none, Bool.false_eq_true, iff_false]
    exact this
  | some i =>
    simp only [Option.isSome_some, iff_true]
    by_cases h : m ∈ methodNames
    · exact h
    · rw [methodIndex_none.2 h] at hi; cases hi

/-- a chain, begun in the context of a request -/
theorem chain_answer {o : Oracle} {e : Engine (Prog ω)} {c : Ctx ω} {req : Req} {rw : Writer} {body : Option Str} {w : ω}
    {n : Option (EndNode (Prog ω))} {params : Option (Option Params)} {hs : List (Prog ω)} {ps : Params} (hc : chainFor e n = some hs)
    (hp : (prepare c hs (n.map (·.uri)) params).params = ps) :
    answerOf (serveRouted o e c req rw body w n params) = chainAnswer (driver o req hs (fresh (n.map (·.uri)) ps rw body w)) ∧
      ∀ c' ∈ (serveRouted o e c req rw body w n params).puts, c'.params = ps := by
  rw [serveRouted_chain hc]
  have hst : startSt c hs (n.map (·.uri)) params rw body w =
      { fresh (n.map (·.uri)) ps rw body w with ctx := { (fresh (n.map (·.uri)) ps rw body w).ctx with handlers := hs } } := by
    subst hp
    rfl
  refine ⟨by rw [hst]; rfl, ?_⟩
  intro c' hc'
  simp only [] at hc'
  split at hc'
  · simp only [List.mem_singleton] at hc'
    rw [hc', runAll_params]
    exact hp
  · cases hc'

/-- **C108 (one request).** Whatever the registrations, the handlers, the request and the context from the pool: the engine answers as
the reference server does, and leaves the same parameters behind. -/
theorem C108_refines {rx : Regex} {o : Oracle} (hgood : o.bad 404 = false ∧ o.bad 405 = false ∧ o.bad 406 = false) {site : Site ω}
    {e : Engine (Prog ω)} (h : mkEngine rx site.static site.noFound site.routes = .ok e) (c : Ctx ω) (req : Req) (rw : Writer)
    (body : Option Str) (w : ω) :
    ∃ left, Reference rx (driver o) site req c.params rw body w (answerOf (serve rx o e c req rw body w)) left ∧
      ∀ c' ∈ (serve rx o e c req rw body w).puts, c'.params = left := by
  by_cases hg : Gated req
  · rw [serve_gated hg hgood.2.2]
    exact ⟨_, .notAcceptable ((gated_iff req).1 hg), by simp⟩
  have hrt : Routable req := by simpa using mt (gated_iff req).2 hg
  cases hi : methodIndex req.method with
  | none =>
    rw [serve_unsupported hg hi hgood.2.1]
    exact ⟨_, .notAllowed hrt (by rw [supported_iff, hi]; simp), by simp⟩
  | some i =>
    have hsup : Supported req.method := by rw [supported_iff, hi]; rfl
    rw [serve_routed hg hi]
    -- without the static map
    have hmiss : ¬ Direct site req → ∀ e0, mkEngine rx false site.noFound site.routes = .ok e0 →
        lookup rx e i req.path = lookup rx e0 i req.path →
        ∃ left, Reference rx (driver o) site req c.params rw body w
          (answerOf (serveRouted o e c req rw body w (lookup rx e i req.path).1 (lookup rx e i req.path).2)) left ∧
        ∀ c' ∈ (serveRouted o e c req rw body w (lookup rx e i req.path).1 (lookup rx e i req.path).2).puts, c'.params = left := by
      intro hd e0 h0 hl
      rw [hl]
      obtain ⟨ro, hro, _⟩ := C106_picked rx (tableFor req.method site.routes) (pathSegs req.path)
      obtain ⟨q, hq, hh⟩ := lookup_holds h0 hi hro
      have hps : ∀ hs u, (prepare c hs u (some q)).params = q.getD Map.empty := by
        intro hs u; cases q <;> rfl
      cases ro with
      | some r =>
        have hro' := hro
        obtain ⟨⟨x, hx, hxr⟩, hacc, _⟩ := hro'
        obtain ⟨v, hv, hvm, rfl⟩ := mem_tableFor.1 hx
        obtain ⟨n, hn⟩ := C02_dispatch_complete h0 hv (path := req.path)
          (by unfold RouteAccepts; rw [show routeSegs v.uri = r from hxr]; exact hacc)
        rw [hvm] at hn
        obtain ⟨r', hb, hf, hu⟩ := (C86_served h0 req.method req.path n.handlers n.uri).1 (by rw [hn]; rfl)
        have hrr : some r = some r' := picked_unique (rx := rx) (tbl := tableFor req.method site.routes) (ss := pathSegs req.path) hro hb
        injection hrr with hrr
        subst hrr
        simp only [routeOf, hi] at hn
        rw [hn, hq]
        obtain ⟨h1, h2⟩ := chain_answer (o := o) (e := e) (c := c) (req := req) (rw := rw) (body := body) (w := w) (n := some n)
          (hs := n.handlers) rfl (hps n.handlers _)
        rw [h1]
        exact ⟨_, .found hrt hsup hd hb hf hu hh, h2⟩
      | none =>
        have hno := (C02_not_found_iff h0 req.method req.path).2 (fun v hv hvm ha =>
          hro ⟨routeSegs v.uri, v.handlers, v.uri⟩ (mem_tableFor.2 ⟨v, hv, hvm, rfl⟩) ha)
        simp only [routeOf, hi] at hno
        have hnf : e.noFound = site.noFound := (mkEngine_inv h).2.2.1
        have hh' : ∀ x v, q.getD Map.empty x = some v ↔ Newest rx (tableFor req.method site.routes) (pathSegs req.path) none x v :=
          fun x v => (hh x v).trans (by simp [ParamIs])
        rw [hno, hq]
        by_cases h0 : site.noFound = []
        · have hc : chainFor e none = none := by unfold chainFor; rw [hnf, h0]; rfl
          refine ⟨q.getD Map.empty, ?_, ?_⟩
          · have := Reference.missing (chain := driver o) (prev := c.params) (rw := rw) (body := body) (w := w) hrt hsup hd hro hh'
            rw [if_pos h0] at this
            obtain ⟨cx, hcx⟩ := serveRouted_none (o := o) (e := e) (c := c) (req := req) (rw := rw) (body := body) (w := w)
              (params := some q) hc
            rw [hcx, Writer.writeHeader_ok hgood.1]
            exact this
          · intro c' hc'
            simp only [serveRouted, hc] at hc'
            rw [St.writeHeader_fresh (by rfl)] at hc'
            simp only [] at hc'
            split at hc'
            · cases hc'
            · simp only [List.mem_singleton] at hc'
              rw [hc']
              exact hps [] none
        · have hc : chainFor e none = some site.noFound := by unfold chainFor; rw [hnf, if_pos (by simpa using h0)]
          obtain ⟨h1, h2⟩ := chain_answer (o := o) (e := e) (c := c) (req := req) (rw := rw) (body := body) (w := w) (n := none)
            (hs := site.noFound) hc (hps site.noFound _)
          have := Reference.missing (chain := driver o) (prev := c.params) (rw := rw) (body := body) (w := w) hrt hsup hd hro hh'
          rw [if_neg h0] at this
          rw [h1]
          exact ⟨_, this, h2⟩
    cases hst : site.static with
    | false =>
      rw [hst] at h
      exact hmiss (by simp [Direct, hst]) e h rfl
    | true =>
      rw [hst] at h
      obtain ⟨e0, h0⟩ := C13_same_construction.1 ⟨e, h⟩
      rcases lookup_static (path := req.path) h h0 hi with ⟨hat, n, hn, h2, h3⟩ | ⟨hat, hl⟩
      · rw [hn]
        obtain ⟨h4, h5⟩ := chain_answer (o := o) (e := e) (c := c) (req := req) (rw := rw) (body := body) (w := w) (n := some n)
          (params := none) (hs := n.handlers) (ps := c.params) rfl rfl
        rw [h4]
        exact ⟨_, .direct hrt hsup ⟨hst, hat⟩ h2 h3, h5⟩
      · exact hmiss (fun hd => hat hd.2) e0 h0 hl

/-- **C108 (the reference is a function).** The answer and the parameters left behind are determined. -/
theorem C108_function {rx : Regex} {chain : Req → List (Prog ω) → St ω → Out × St ω} {site : Site ω} {req : Req} {prev : Params}
    {rw : Writer} {body : Option Str} {w : ω} {a a' : Answer ω} {ps ps' : Params}
    (h : Reference rx chain site req prev rw body w a ps) (h' : Reference rx chain site req prev rw body w a' ps') : a = a' ∧ ps = ps' := by
  have hext : ∀ {P : Str → Str → Prop} {q q' : Params}, (∀ x v, q x = some v ↔ P x v) → (∀ x v, q' x = some v ↔ P x v) → q = q' := by
    intro P q q' h1 h2
    funext x
    exact Option.ext (fun v => (h1 x v).trans (h2 x v).symm)
  have hno : ∀ {r : List Str}, Best rx (tableFor req.method site.routes) (pathSegs req.path) r →
      ¬ ∀ x ∈ tableFor req.method site.routes, ¬ Accepts rx x.segs (pathSegs req.path) := by
    rintro r ⟨⟨x, hx, rfl⟩, ha, _⟩ h
    exact h x hx ha
  cases h with
  | notAcceptable h1 =>
    cases h' with
    | notAcceptable _ => exact ⟨rfl, rfl⟩
    | notAllowed h2 _ => exact absurd h2 h1
    | direct h2 _ _ _ _ => exact absurd h2 h1
    | found h2 _ _ _ _ _ _ => exact absurd h2 h1
    | missing h2 _ _ _ _ => exact absurd h2 h1
  | notAllowed h1 hs =>
    cases h' with
    | notAcceptable h2 => exact absurd h1 h2
    | notAllowed _ _ => exact ⟨rfl, rfl⟩
    | direct _ h2 _ _ _ => exact absurd h2 hs
    | found _ h2 _ _ _ _ _ => exact absurd h2 hs
    | missing _ h2 _ _ _ => exact absurd h2 hs
  | direct h1 hs hd hf hu =>
    cases h' with
    | notAcceptable h2 => exact absurd h1 h2
    | notAllowed _ h2 => exact absurd hs h2
    | direct _ _ _ hf' hu' =>
      obtain rfl := firstHandlers_unique hf hf'
      obtain rfl := lastUri_unique hu hu'
      exact ⟨rfl, rfl⟩
    | found _ _ h2 _ _ _ _ => exact absurd hd h2
    | missing _ _ h2 _ _ => exact absurd hd h2
  | found h1 hs hd hb hf hu hp =>
    cases h' with
    | notAcceptable h2 => exact absurd h1 h2
    | notAllowed _ h2 => exact absurd hs h2
    | direct _ _ h2 _ _ => exact absurd h2 hd
    | found _ _ _ hb' hf' hu' hp' =>
      obtain rfl := best_unique hb hb'
      obtain rfl := firstHandlers_unique hf hf'
      obtain rfl := lastUri_unique hu hu'
      obtain rfl := hext hp hp'
      exact ⟨rfl, rfl⟩
    | missing _ _ _ h2 _ => exact absurd h2 (hno hb)
  | missing h1 hs hd hn hp =>
    cases h' with
    | notAcceptable h2 => exact absurd h1 h2
    | notAllowed _ h2 => exact absurd hs h2
    | direct _ _ h2 _ _ => exact absurd h2 hd
    | found _ _ _ hb' _ _ _ => exact absurd hn (hno hb')
    | missing _ _ _ _ hp' =>
      obtain rfl := hext hp hp'
      exact ⟨rfl, rfl⟩

/-- the reference server asks the chain for nothing but what the site's handlers do from the start -/
theorem reference_mono {rx : Regex} {chain chain' : Req → List (Prog ω) → St ω → Out × St ω} {site : Site ω} {req : Req} {prev : Params}
    {rw : Writer} {body : Option Str} {w : ω} {a : Answer ω} {ps : Params}
    (hsame : ∀ hs, (∃ v ∈ site.routes, v.handlers = hs) ∨ hs = site.noFound → ∀ full ps,
      chainAnswer (chain req hs (fresh full ps rw body w)) = chainAnswer (chain' req hs (fresh full ps rw body w)))
    (h : Reference rx chain site req prev rw body w a ps) : Reference rx chain' site req prev rw body w a ps := by
  have hin : ∀ {r : List Str} {hs : List (Prog ω)}, FirstHandlers (tableFor req.method site.routes) r hs →
      ∃ v ∈ site.routes, v.handlers = hs := by
    intro r hs hf
    obtain ⟨v, hv, _, _, hh⟩ := firstHandlers_mem hf
    exact ⟨v, hv, hh⟩
  cases h with
  | notAcceptable h1 => exact .notAcceptable h1
  | notAllowed h1 hs => exact .notAllowed h1 hs
  | direct h1 hs hd hf hu =>
    rw [hsame _ (.inl (hin hf))]
    exact .direct h1 hs hd hf hu
  | found h1 hs hd hb hf hu hp =>
    rw [hsame _ (.inl (hin hf))]
    exact .found h1 hs hd hb hf hu hp
  | missing h1 hs hd hn hp =>
    rw [hsame _ (.inr rfl)]
    exact .missing h1 hs hd hn hp

/-- **C108 (composition, partial).** If the handlers call `Next` at most once and answer when they recover from a panic, the chain in the
reference server is the composition of its handlers. Missing: other handlers, for which a chain is no composition (C88). -/
theorem C108_composed_partial {rx : Regex} {o : Oracle} (hgood : o.bad 404 = false ∧ o.bad 405 = false ∧ o.bad 406 = false)
    {site : Site ω} {e : Engine (Prog ω)} (h : mkEngine rx site.static site.noFound site.routes = .ok e)
    (hone : (∀ v ∈ site.routes, ∀ p ∈ v.handlers, Single p) ∧ ∀ p ∈ site.noFound, Single p) (c : Ctx ω) (req : Req) (rw : Writer)
    (body : Option Str) (w : ω) :
    ∃ left, Reference rx (compose o) site req c.params rw body w (answerOf (serve rx o e c req rw body w)) left ∧
      ∀ c' ∈ (serve rx o e c req rw body w).puts, c'.params = left := by
  obtain ⟨left, h1, h2⟩ := C108_refines hgood h c req rw body w
  refine ⟨left, reference_mono ?_ h1, h2⟩
  intro hs hin full ps
  have hsingle : ∀ p ∈ hs, Single p := by
    rcases hin with ⟨v, hv, rfl⟩ | rfl
    · exact hone.1 v hv
    · exact hone.2
  have := C88_composition_partial o req ({ fresh full ps rw body w with ctx := { (fresh full ps rw body w).ctx with handlers := hs } }) rfl hsingle
  have hun : unchained ({ fresh full ps rw body w with ctx := { (fresh full ps rw body w).ctx with handlers := hs } } : St ω) =
      fresh full ps rw body w := rfl
  rw [hun] at this
  simp only [] at this
  rw [this]
  rfl

/-- **C108 (sessions).** Any sequence of requests, each served in a new context or in one put back by an earlier request, is a session of
the reference server. -/
theorem C108_session {rx : Regex} {o : Oracle} (hgood : o.bad 404 = false ∧ o.bad 405 = false ∧ o.bad 406 = false) {site : Site ω}
    {e : Engine (Prog ω)} (h : mkEngine rx site.static site.noFound site.routes = .ok e) {w : ω}
    {l : List (Req × Writer × Option Str × Answer ω)} (hl : Serving rx o e [] w l) : Session rx (driver o) site [] w l := by
  have key : ∀ {pool : List (Ctx ω)} {left : List Params} {w : ω} {l : List (Req × Writer × Option Str × Answer ω)},
      Serving rx o e pool w l → (∀ c ∈ pool, c.params ∈ left) → Session rx (driver o) site left w l := by
    intro pool left w l hl
    induction hl generalizing left with
    | done => intro _; exact .done
    | request hc hp _ ih =>
      rename_i pool pool' c w req rw body rest hserv
      intro hleft
      obtain ⟨ps, h1, h2⟩ := C108_refines hgood h c req rw body w
      refine .request (prev := c.params) (ps := ps) ?_ h1 (ih ?_)
      · rcases hc with rfl | hc
        · exact .inl rfl
        · exact .inr (hleft c hc)
      · intro c' hc'
        rcases hp c' hc' with h3 | h3
        · exact List.mem_cons_of_mem _ (hleft c' h3)
        · rw [h2 c' h3]; exact List.mem_cons_self
  exact key hl (by simp)

/-- **C108 (whole applications).** Any history of registration calls for which `Handler` returns gives the reference server of its
endpoints, in depth-first order of registration, with the middleware of all enclosing routers. -/
theorem C108_application {rx : Regex} {o : Oracle} (hgood : o.bad 404 = false ∧ o.bad 405 = false ∧ o.bad 406 = false)
    {ops : List (Op (Prog ω))} {heap : Heap (Prog ω)} (h : runOps [] ops = .ok heap) {r : Nat} {opts : List (Opt (Prog ω))}
    {e : Engine (Prog ω)} (he : handler rx heap r opts = .ok e) :
    ∃ es : List (Nat × List Nat), (∀ i l, (i, l) ∈ es ↔ Endpoint ops r i l) ∧ es.Pairwise (fun a b => Precedes a.2 b.2) ∧
      ∀ (w : ω) (l : List (Req × Writer × Option Str × Answer ω)), Serving rx o e [] w l →
        Session rx (driver o) ⟨es.map (routeFor ops r), (noFoundOf ops r opts).filterMap payload, staticOf opts⟩ [] w l := by
  obtain ⟨es, h1, _, h3, _, h5⟩ := C20_endpoints h he
  exact ⟨es, h1, h3, fun w l hl => C108_session hgood (site := ⟨_, _, _⟩) h5 hl⟩

/-- the reference server answers every request -/
theorem C108_total {rx : Regex} {o : Oracle} (hgood : o.bad 404 = false ∧ o.bad 405 = false ∧ o.bad 406 = false) {site : Site ω}
    {e : Engine (Prog ω)} (h : mkEngine rx site.static site.noFound site.routes = .ok e) (req : Req) (prev : Params) (rw : Writer)
    (body : Option Str) (w : ω) : ∃ a ps, Reference rx (driver o) site req prev rw body w a ps := by
  obtain ⟨left, h1, _⟩ := C108_refines hgood h { Ctx.new with params := prev } req rw body w
  exact ⟨_, _, h1⟩

/-- **C34 (what can be seen).** Of the requests before it a request can see nothing but the parameters in the context it gets. -/
theorem C34_only_params {rx : Regex} {o : Oracle} (hgood : o.bad 404 = false ∧ o.bad 405 = false ∧ o.bad 406 = false) {st : Bool}
    {nf : List (Prog ω)} {rs : List (Route (Prog ω))} {e : Engine (Prog ω)} (h : mkEngine rx st nf rs = .ok e) {c c' : Ctx ω}
    (hp : c.params = c'.params) (req : Req) (rw : Writer) (body : Option Str) (w : ω) :
    answerOf (serve rx o e c req rw body w) = answerOf (serve rx o e c' req rw body w) := by
  obtain ⟨_, h1, _⟩ := C108_refines hgood (site := ⟨rs, nf, st⟩) h c req rw body w
  obtain ⟨_, h2, _⟩ := C108_refines hgood (site := ⟨rs, nf, st⟩) h c' req rw body w
  rw [hp] at h1
  exact (C108_function h1 h2).1

/-- **C34 (who can see it).** Only a path registered as a literal, under the static-route option, can see anything at all. -/
theorem C34_only_direct {rx : Regex} {o : Oracle} (hgood : o.bad 404 = false ∧ o.bad 405 = false ∧ o.bad 406 = false) {st : Bool}
    {nf : List (Prog ω)} {rs : List (Route (Prog ω))} {e : Engine (Prog ω)} (h : mkEngine rx st nf rs = .ok e) {req : Req}
    (hd : ¬ Direct ⟨rs, nf, st⟩ req) (c c' : Ctx ω) (rw : Writer) (body : Option Str) (w : ω) :
    answerOf (serve rx o e c req rw body w) = answerOf (serve rx o e c' req rw body w) := by
  obtain ⟨l1, h1, _⟩ := C108_refines hgood (site := ⟨rs, nf, st⟩) h c req rw body w
  obtain ⟨l2, h2, _⟩ := C108_refines hgood (site := ⟨rs, nf, st⟩) h c' req rw body w
  have key : ∃ ps, Reference rx (driver o) ⟨rs, nf, st⟩ req c'.params rw body w (answerOf (serve rx o e c req rw body w)) ps := by
    generalize answerOf (serve rx o e c req rw body w) = a at h1
    cases h1 with
    | notAcceptable h1 => exact ⟨_, .notAcceptable h1⟩
    | notAllowed h1 hs => exact ⟨_, .notAllowed h1 hs⟩
    | direct _ _ h _ _ => exact absurd h hd
    | found h1 hs hd hb hf hu hp => exact ⟨_, .found h1 hs hd hb hf hu hp⟩
    | missing h1 hs hd hn hp => exact ⟨_, .missing h1 hs hd hn hp⟩
  obtain ⟨_, h3⟩ := key
  exact (C108_function h3 h2).1

namespace Demo

/-- two requests, the second in the context of the first: the literal route sees the parameter left there, and so does the session of the
reference server -/
theorem leaking_session : ∃ (heap : Heap (Prog Unit)) (e : Engine (Prog Unit)) (a b : Answer Unit) (es : List (Nat × List Nat)),
    runOps [] serveOps = .ok heap ∧ handler rx heap 0 [.staticRouter true] = .ok e ∧
    b.rw.log.flatMap (fun x => match x with | .body d => d | _ => []) = b!"42" ∧
    Session rx (driver chainO) ⟨es.map (routeFor serveOps 0), [], true⟩ [] ()
      [(at' b!"/u/42", Writer.new, none, a), (at' b!"/s", Writer.new, none, b)] := by
  obtain ⟨heap, e, h1, h2, h3⟩ := withServe_spec (opts := [.staticRouter true]) (p := fun e =>
    match (ask e .new b!"/u/42").puts with
    | [c] => bodyOf (ask e c b!"/s") == b!"42"
    | _ => false) (by decide +kernel)
  split at h3
  · rename_i c hc
    have h4 := eq_of_beq h3
    obtain ⟨es, _, _, h5⟩ := C108_application (o := chainO) ⟨rfl, rfl, rfl⟩ h1 h2
    refine ⟨heap, e, _, answerOf (ask e c b!"/s"), es, h1, h2, h4, h5 () _ (.request (c := .new) (pool' := [c]) (.inl rfl) ?_
      (.request (c := c) (pool' := []) (.inr List.mem_cons_self) (by simp) .done))⟩
    intro c' hc'
    right
    have h6 : (serve rx chainO e .new (at' b!"/u/42") Writer.new none ()).puts = [c] := hc
    rw [h6]
    exact hc'
  · cases h3

end Demo

end Water
