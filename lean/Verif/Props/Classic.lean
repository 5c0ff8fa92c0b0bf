import Verif.Model.Classic
import Verif.Spec.Classic
import Verif.Props.Serve
import Verif.Props.Response
import Verif.Props.Middleware
/-
C83: applications built on `Default()`.
-/
namespace Water
open Spec
variable {α ω : Type}

/-! ### `Default` and `Classic` -/

/-- `Default` never fails, and is the history of `NewRouter` and two calls of `Use`. -/
theorem C83_default (lg rc : α) (heap : Heap α) :
    newDefault lg rc heap = runOps heap (.newRouter :: classicOps lg rc heap.length) ∧ ∃ heap', newDefault lg rc heap = .ok heap' := by
  unfold newDefault
  have h1 : ∀ n : RNode α, (heap ++ [n])[heap.length]? = some n := by
    intro n; rw [List.getElem?_append_right (Nat.le_refl _)]; simp
  have h2 : ∀ n : RNode α, ∀ f : RNode α → RNode α, ((heap ++ [n]).modify heap.length f)[heap.length]? = some (f n) := by
    intro n f; simp [List.getElem?_modify]
  constructor
  · simp only [step, bind, Except.bind, runOps, classic, h1]
    simp
  · simp only [step, bind, Except.bind, classic, classicOps, runOps, h1, h2, ne_eq, not_true_eq_false, if_false]
    exact ⟨_, rfl⟩

/-- `Classic` on a router made by `Group` panics. -/
theorem C83_sub {lg rc : α} {heap : Heap α} {r : Nat} {n : RNode α} (hn : heap[r]? = some n) (hm : n.method = [])
    (hp : n.parent ≠ none) : classic lg rc heap r = .error .subRouter := by
  simp [classic, hn, hm, hp]

/-! ### the chains -/

theorem lineage_head {ms : List (Made α)} {i : Nat} {l : List Nat} (h : Lineage ms i l) : l ≠ [] := by
  cases h <;> simp

/-- C83: if `Classic` was called on the root before anything else was given to `Use` there, then every chain is: the Before
handlers, Logger, Recovery, everything else. -/
theorem C83_chain {rx : Regex} {lg rc : α} {pre post : List (Op α)} {r : Nat} {heap : Heap α}
    (h : runOps [] (pre ++ classicOps lg rc r ++ post) = .ok heap) (hu : usesOf pre r = [])
    {opts : List (Opt α)} {e : Engine α} (he : handler rx heap r opts = .ok e) {m path : Str} {n : EndNode α}
    (hd : routeOf rx e m path = some n) :
    ∃ bs rest, n.handlers = bs ++ lg :: rc :: rest ∧ bs.map some = (beforesOf (pre ++ post) r).map payload := by
  obtain ⟨i, l, hend, -, hh, -⟩ := C17_chain h he hd
  have hb : beforesOf (pre ++ classicOps lg rc r ++ post) r = beforesOf (pre ++ post) r := by
    simp [beforesOf, classicOps, beforesBy]
  have huse : usesOf (pre ++ classicOps lg rc r ++ post) r = .handler lg :: .handler rc :: usesOf post r := by
    unfold usesOf at hu ⊢
    simp [hu, classicOps, usesBy]
  obtain ⟨l', rfl⟩ : ∃ l', l = r :: l' := by
    have h2 := hend.1.2
    cases l with
    | nil => simp at h2
    | cons a l => simp at h2; exact ⟨l, by rw [h2]⟩
  rw [hb, List.flatMap_cons, huse] at hh
  simp only [List.map_append, List.map_cons, List.cons_append, List.append_assoc] at hh
  obtain ⟨bs, rest, h1, h2, h3⟩ := List.map_eq_append_iff.1 hh
  obtain ⟨a, l1, h4, h5, h6⟩ := List.map_eq_cons_iff.1 h3
  obtain ⟨b, l2, h7, h8, h9⟩ := List.map_eq_cons_iff.1 h6
  simp only [payload, Option.some.injEq] at h5 h8
  subst h4 h7 h5 h8
  exact ⟨bs, l2, h1, h2⟩

/-! ### Logger around Recovery -/

theorem logger_decent (o : Oracle) (req : Req) (closed withBody : Bool) (emit : List Str → Int → Str → ω → ω) :
    Decent o req true (logger closed withBody emit) := by
  have tail : ∀ b, Decent o req true (loggerTail emit b) := by
    intro b
    refine ⟨rfl, fun s => ⟨_, rfl⟩, fun r => ?_⟩
    cases r with
    | int st =>
      refine ⟨fun s => ⟨_, rfl⟩, fun r => ?_⟩
      cases r with
      | strs a => exact ⟨fun s => ⟨_, rfl⟩, fun _ => trivial⟩
      | _ => trivial
    | _ => trivial
  unfold logger
  split
  · trivial
  · split
    · exact tail _
    · refine ⟨fun s => ⟨_, rfl⟩, fun r => ?_⟩
      dsimp only
      split
      · refine ⟨fun s => ⟨_, rfl⟩, fun r => ?_⟩
        cases r with
        | str ct =>
          dsimp only
          split
          · refine ⟨fun s => ?_, fun r => ?_⟩
            · simp only [doCall]
              cases s.body <;> exact ⟨_, rfl⟩
            · cases r with
              | str d => exact ⟨fun s => ⟨_, rfl⟩, fun _ => tail _⟩
              | _ => trivial
          · exact tail _
        | _ => trivial
      · exact tail _

/-- An open Logger with the text it logs. -/
theorem logger_text (o : Oracle) (req : Req) (nx : St ω → Out × St ω) (i : Nat) (t : St ω) (withBody : Bool)
    (emit : List Str → Int → Str → ω → ω) :
    exec o req nx i (logger false withBody emit) t =
      exec o req nx i (loggerTail emit (loggedText withBody req t.body)) { t with body := loggedBody withBody req t.body } := by
  unfold logger loggedBody loggedText
  simp only [Bool.false_eq_true, if_false]
  cases withBody with
  | false =>
    rcases t with ⟨ctx, rw', body, forms, w, tr⟩
    cases body <;> rfl
  | true =>
    simp only [Bool.not_true, Bool.false_eq_true, if_false, exec, doCall, Bool.true_and]
    have hk : kContentType = b!"Content-Type" := rfl
    by_cases hj : containsStr (req.header.get kContentType) b!"application/json" = true
    · have hj' : containsStr (req.header.get b!"Content-Type") b!"application/json" = true := hj
      simp only [hj, hj', if_true]
      rcases t with ⟨ctx, rw', body, forms, w, tr⟩
      cases body with
      | none => rfl
      | some d => simp [exec, doCall, Prog.do, hj, logLimit]
    · have hj' : containsStr (req.header.get kContentType) b!"application/json" = false := by simpa using hj
      have hj'' : containsStr (req.header.get b!"Content-Type") b!"application/json" = false := hj'
      simp only [hj', hj'', Bool.false_eq_true, if_false]
      rcases t with ⟨ctx, rw', body, forms, w, tr⟩
      cases body with
      | none => rfl
      | some d => simp [exec, doCall, hj']

/-- What is behind Logger, run from a state at the start of the chain. -/
def behind (o : Oracle) (req : Req) (withBody : Bool) (s : St ω) : Out × St ω :=
  downstream o req { s with body := loggedBody withBody req s.body }

theorem classic_run (o : Oracle) (h200 : o.bad 200 = false) (h500 : o.bad 500 = false) (req : Req) (withBody : Bool)
    (emit : List Str → Int → Str → ω → ω) (s : St ω) (hs : AtStart s) (rest : List (Prog ω))
    (hh : s.ctx.handlers = logger false withBody emit :: recovery o :: rest) :
    let d := behind o req withBody s
    let f := runAll o req s
    d.1 = .ret ∧ d.2.ctx.written = true ∧ f.1 = .ret ∧ f.2.ctx.written = true ∧ f.2.rw = d.2.rw ∧
    f.2.ctx.status = d.2.ctx.status ∧ f.2.world = emit (asked req) d.2.ctx.status (loggedText withBody req s.body) d.2.world := by
  intro d f
  have hd := run_decent o req h200 h500 [logger false withBody emit] rest
    (by intro p hp; rw [List.mem_singleton.1 hp]; exact logger_decent o req false withBody emit) 0
    ((({ s with body := loggedBody withBody req s.body } : St ω).log (.start 0)).log (.next 0)).bump hh
    (by simp [St.bump, St.log, hs.1])
  have hd' : d.1 = .ret ∧ d.2.ctx.written = true := hd
  refine ⟨hd'.1, hd'.2, ?_⟩
  have hf : f = runAll o req s := rfl
  rw [runAll_unfold, hs.1, hh] at hf
  simp only [List.getElem?_cons_zero] at hf
  rw [logger_text] at hf
  have hdd : d = runAll o req ((({ s with body := loggedBody withBody req s.body } : St ω).log (.start 0)).log (.next 0)).bump := rfl
  rcases hr : d with ⟨out, s1⟩
  rw [hr] at hd' hdd
  obtain ⟨rfl, hw⟩ := hd'
  have hex : exec o req (runAll o req) 0 (loggerTail emit (loggedText withBody req (s.log (.start 0)).body))
      { s.log (.start 0) with body := loggedBody withBody req (s.log (.start 0)).body } =
      (.ret, { s1.log (.back 0) with world := emit (asked req) s1.ctx.status (loggedText withBody req s.body) s1.world }) := by
    unfold loggerTail
    simp only [exec]
    rw [show (({ s.log (.start 0) with body := loggedBody withBody req (s.log (.start 0)).body } : St ω).log (.next 0)).bump =
      ((({ s with body := loggedBody withBody req s.body } : St ω).log (.start 0)).log (.next 0)).bump from rfl, ← hdd]
    rfl
  rw [hex] at hf
  have hw' : s1.ctx.written = true := hw
  have e : f = (.ret, (({ s1.log (.back 0) with world := emit (asked req) s1.ctx.status (loggedText withBody req s.body) s1.world } : St ω).log
      (.stop 0 true)).bump) := by
    rw [hf]
    simp [St.log, St.bump, hw']
  rw [e]
  exact ⟨rfl, hw', rfl, rfl, rfl⟩

/-! ### C83 -/

/-- an application on `Default()`: `Classic` on the root before any other `Use` there, and then any other registrations -/
structure OnDefault (o : Oracle) (closed withBody : Bool) (emit : List Str → Int → Str → ω → ω) (rx : Regex) (ops : List (Op (Prog ω)))
    (r : Nat) (opts : List (Opt (Prog ω))) (e : Engine (Prog ω)) : Prop where
  calls : ∃ pre post, ops = pre ++ classicOps (logger closed withBody emit) (recovery o) r ++ post ∧ usesOf pre r = []
  built : ∃ heap, runOps [] ops = .ok heap ∧ handler rx heap r opts = .ok e

theorem OnDefault.chain {o : Oracle} {closed withBody : Bool} {emit : List Str → Int → Str → ω → ω} {rx : Regex} {ops : List (Op (Prog ω))}
    {r : Nat} {opts : List (Opt (Prog ω))} {e : Engine (Prog ω)} (h : OnDefault o closed withBody emit rx ops r opts e)
    {m path : Str} {n : EndNode (Prog ω)} (hn : routeOf rx e m path = some n) :
    ∃ bs rest, n.handlers = bs ++ logger closed withBody emit :: recovery o :: rest ∧ bs.map some = (beforesOf ops r).map payload := by
  obtain ⟨pre, post, rfl, hu⟩ := h.calls
  obtain ⟨heap, h1, h2⟩ := h.built
  obtain ⟨bs, rest, h3, h4⟩ := C83_chain h1 hu h2 hn
  refine ⟨bs, rest, h3, ?_⟩
  rw [h4]
  simp [beforesOf, classicOps, beforesBy]

/-- C83, partial: whatever the handlers of an application on `Default()` do, nothing escapes from a request for which there is a
route, provided the Before handlers do not panic themselves and call `Next` at most once. Missing: panics of Before handlers
and of not-found handlers, see `C83_refuted`. -/
theorem C83_contained_partial {o : Oracle} (h200 : o.bad 200 = false) (h500 : o.bad 500 = false) {closed withBody : Bool}
    {emit : List Str → Int → Str → ω → ω} {rx : Regex} {ops : List (Op (Prog ω))} {r : Nat} {opts : List (Opt (Prog ω))}
    {e : Engine (Prog ω)} (h : OnDefault o closed withBody emit rx ops r opts e) {req : Req}
    (hb : ∀ x ∈ beforesOf ops r, ∀ p, payload x = some p → Decent o req true p) (hr : Routed req) {n : EndNode (Prog ω)}
    (hn : routeOf rx e req.method req.path = some n) (c : Ctx ω) (rw : Writer) (body : Option Str) (w : ω) :
    (serve rx o e c req rw body w).out = .ret := by
  obtain ⟨bs, rest, hh, hbs⟩ := h.chain hn
  obtain ⟨s, h1, h2, -, -, -, -, h7, -⟩ := serve_ran (o := o) (c := c) (rw := rw) (body := body) (w := w) hr hn
  rw [h7]
  refine (run_decent o req h200 h500 (bs ++ [logger closed withBody emit]) rest ?_ (bs ++ [logger closed withBody emit]).length s
    (by rw [h2, hh]; simp) (by rw [h1.index]; omega)).1
  intro p hp
  rcases List.mem_append.1 hp with hp | hp
  · have : some p ∈ (beforesOf ops r).map payload := by rw [← hbs]; exact List.mem_map_of_mem hp
    obtain ⟨x, hx, hxp⟩ := List.mem_map.1 this
    exact hb x hx p hxp
  · rw [List.mem_singleton.1 hp]; exact logger_decent o req closed withBody emit

/-- C83: without Before handlers, every request for which there is a route is logged exactly once, after everything else has
been done, with the status recorded by the context (and the body that was read). -/
theorem C83_logged {o : Oracle} (h200 : o.bad 200 = false) (h500 : o.bad 500 = false) {withBody : Bool}
    {emit : List Str → Int → Str → ω → ω} {rx : Regex} {ops : List (Op (Prog ω))} {r : Nat} {opts : List (Opt (Prog ω))}
    {e : Engine (Prog ω)} (h : OnDefault o false withBody emit rx ops r opts e) {req : Req} (hb : beforesOf ops r = [])
    (hr : Routed req) {n : EndNode (Prog ω)} (hn : routeOf rx e req.method req.path = some n) (c : Ctx ω) (rw : Writer)
    (body : Option Str) (w : ω) :
    ∃ s, Blank s ∧ s.ctx.handlers = n.handlers ∧ s.rw = rw ∧ s.body = body ∧ s.world = w ∧
      (serve rx o e c req rw body w).rw = (behind o req withBody s).2.rw ∧
      (serve rx o e c req rw body w).world =
        emit (asked req) (behind o req withBody s).2.ctx.status (loggedText withBody req body) (behind o req withBody s).2.world := by
  obtain ⟨bs, rest, hh, hbs⟩ := h.chain hn
  rw [hb] at hbs
  simp at hbs
  subst hbs
  obtain ⟨s, h1, h2, -, h4, h5, h6, -, h8, h9, -⟩ := serve_ran (o := o) (c := c) (rw := rw) (body := body) (w := w) hr hn
  obtain ⟨-, -, -, -, k1, -, k2⟩ := classic_run o h200 h500 req withBody emit s ⟨h1.index, h1.written, h1.trace⟩ rest (by rw [h2, hh]; rfl)
  refine ⟨s, h1, h2, h4, h5, h6, ?_, ?_⟩
  · rw [h8, k1]
  · rw [h9, k2, h5]

/-- C83, partial: if moreover the handlers only use the context and valid codes, the logged status is the status line the client
receives, which is the only one. Missing: the same for `File` and invalid codes (`C30_refuted`, `C33_refuted_code`). -/
theorem C83_status_partial {o : Oracle} (h200 : o.bad 200 = false) (h500 : o.bad 500 = false) {withBody : Bool}
    {emit : List Str → Int → Str → ω → ω} {rx : Regex} {ops : List (Op (Prog ω))} {r : Nat} {opts : List (Opt (Prog ω))}
    {e : Engine (Prog ω)} (h : OnDefault o false withBody emit rx ops r opts e) {req : Req} (hb : beforesOf ops r = [])
    (hr : Routed req) {n : EndNode (Prog ω)} (hn : routeOf rx e req.method req.path = some n)
    (hv : ∀ p ∈ n.handlers, CallsIn (fun c => ¬ Bypass c ∧ ValidCode o.bad c) p) (c : Ctx ω) (rw : Writer) (hrw : rw.log = [])
    (body : Option Str) (w : ω) :
    ∃ st w', (serve rx o e c req rw body w).world = emit (asked req) st (loggedText withBody req body) w' ∧
      received (serve rx o e c req rw body w).rw.log = some st ∧ statusLines false (serve rx o e c req rw body w).rw.log = 1 := by
  obtain ⟨bs, rest, hh, hbs⟩ := h.chain hn
  rw [hb] at hbs
  simp at hbs
  subst hbs
  obtain ⟨s, h1, h2, -, h4, h5, h6, -, h8, h9, -⟩ := serve_ran (o := o) (c := c) (rw := rw) (body := body) (w := w) hr hn
  have hs : AtStart s := ⟨h1.index, h1.written, h1.trace⟩
  obtain ⟨-, -, -, k3, -, k4, k2⟩ := classic_run o h200 h500 req withBody emit s hs rest (by rw [h2, hh]; rfl)
  have h29 := C29_status_partial o h200 req s ⟨hs, by rw [h4]; exact hrw⟩ (by rw [h2]; exact hv)
  refine ⟨_, _, by rw [h9, k2, h5], ?_⟩
  rcases h29 with ⟨hw, -⟩ | ⟨-, g1, -, g2⟩
  · rw [k3] at hw; cases hw
  · rw [h8, ← k4]
    exact ⟨g1, g2⟩

namespace Demo

/-- a log that is kept -/
def keepLog : List Str → Int → Str → List (Int × Str) → List (Int × Str) := fun _ st b w => w ++ [(st, b)]

/-- `Default()`, then the handlers; options -/
def classicApp (more : List (Op (Prog (List (Int × Str))))) : List (Op (Prog (List (Int × Str)))) :=
  [.newRouter] ++ classicOps (logger false true keepLog) (recovery chainO) 0 ++ more

/-- panics -/
def crashH : Prog (List (Int × Str)) := .panic (.val b!"boom")
/-- answers 201 and then panics -/
def answeredH : Prog (List (Int × Str)) := .do (.writeHeader 201) (.panic (.val b!"boom"))
/-- does nothing -/
def quietH : Prog (List (Int × Str)) := .ret

/-- build the application and test it -/
def withApp (more : List (Op (Prog (List (Int × Str))))) (opts : List (Opt (Prog (List (Int × Str)))))
    (p : Engine (Prog (List (Int × Str))) → Bool) : Bool :=
  match runOps [] (classicApp more) with
  | .error _ => false
  | .ok heap =>
    match handler rx heap 0 opts with
    | .ok e => p e
    | .error _ => false

theorem withApp_spec {more : List (Op (Prog (List (Int × Str))))} {opts : List (Opt (Prog (List (Int × Str))))}
    {p : Engine (Prog (List (Int × Str))) → Bool} (h : withApp more opts p = true) :
    ∃ e, OnDefault chainO false true keepLog rx (classicApp more) 0 opts e ∧ p e = true := by
  unfold withApp at h
  cases h1 : runOps [] (classicApp more) with
  | error er => rw [h1] at h; cases h
  | ok heap =>
    rw [h1] at h
    simp only [] at h
    cases h2 : handler rx heap 0 opts with
    | error er => rw [h2] at h; cases h
    | ok e => rw [h2] at h; exact ⟨e, ⟨⟨[.newRouter], more, rfl, rfl⟩, heap, h1, h2⟩, h⟩

/-- serve a request -/
def askApp (e : Engine (Prog (List (Int × Str)))) (path : Str) : Served (List (Int × Str)) :=
  serve rx chainO e .new (at' path) Writer.new none []

/-- crashes before and after a response, a handler that answers nothing: each is answered and logged once -/
example : withApp [.handle 0 mGET b!"/crash" [.ctxFunc crashH], .handle 0 mGET b!"/late" [.ctxFunc answeredH],
      .handle 0 mGET b!"/quiet" [.ctxFunc quietH]] [] (fun e =>
    (askApp e b!"/crash").out == .ret && (askApp e b!"/crash").world == [(500, [])] &&
    (askApp e b!"/late").out == .ret && (askApp e b!"/late").world == [(201, [])] &&
    (askApp e b!"/quiet").out == .ret && (askApp e b!"/quiet").world == [(200, [])] &&
    received (askApp e b!"/crash").rw.log == some 500 && received (askApp e b!"/late").rw.log == some 201) = true := by
  decide +kernel

/-- the whole claim of C83: nothing escapes from an application on `Default()` -/
def C83_claim : Prop :=
  ∀ (more : List (Op (Prog (List (Int × Str))))) (opts : List (Opt (Prog (List (Int × Str))))) (e : Engine (Prog (List (Int × Str)))),
    OnDefault chainO false true keepLog rx (classicApp more) 0 opts e → ∀ path, path ≠ b!"*" → (askApp e path).out = .ret

end Demo

open Demo in
/-- C83, as stated, is false: a panic in a not-found handler escapes, since Recovery is not in that chain. -/
theorem C83_refuted : ¬ C83_claim := by
  intro h
  obtain ⟨e, he, hp⟩ := withApp_spec (more := [.handle 0 mGET b!"/a" [.ctxFunc quietH]]) (opts := [.noFound [.ctxFunc crashH]])
    (p := fun e => (askApp e b!"/x").out != .ret) (by decide +kernel)
  have := h _ _ e he b!"/x" (by decide)
  rw [this] at hp
  exact absurd hp (by decide)

open Demo in
/-- C83 is also false of Before handlers, which run outside of Recovery (and of Logger: the request is not logged). -/
theorem C83_refuted_before : ¬ C83_claim := by
  intro h
  obtain ⟨e, he, hp⟩ := withApp_spec (more := [.before 0 [.ctxFunc crashH], .handle 0 mGET b!"/a" [.ctxFunc quietH]]) (opts := [])
    (p := fun e => (askApp e b!"/a").out != .ret && (askApp e b!"/a").world == []) (by decide +kernel)
  have := h _ _ e he b!"/a" (by decide)
  simp only [this] at hp
  exact absurd hp (by simp)

end Water
