import Verif.Props.Files
import Verif.Props.StaticMap
/-
C48 for routers with the static-route option. The option changes the dispatch only for paths with a literal route (C107), and not the
routes themselves.
-/
namespace Water
open Spec Demo
variable {α ω : Type}

theorem applyOpts_static (o : Options α) (opts : List (Opt α)) (b : Bool) :
    applyOpts o (opts ++ [.staticRouter b]) =
      match applyOpts o opts with
      | .error p => .error p
      | .ok o' => .ok { o' with enableStatic := b } := by
  induction opts generalizing o with
  | nil => rfl
  | cons x xs ih =>
    cases x with
    | staticRouter c => exact ih _
    | maxMultipart m => exact ih _
    | noFound hs =>
      simp only [List.cons_append, applyOpts]
      split
      · rfl
      · cases newHandlers hs with
        | error p => rfl
        | ok as => exact ih _

/-- The option does not change the routes a router dumps. -/
theorem dumpFor_static {heap : Heap α} {r : Nat} {opts : List (Opt α)} {o : Options α} {rs : List (Route α)} (b : Bool)
    (hd : dumpFor heap r opts = .ok (o, rs)) :
    dumpFor heap r (opts ++ [.staticRouter b]) = .ok ({ o with enableStatic := b }, rs) := by
  revert hd
  unfold dumpFor
  cases heap[r]? with
  | none => simp
  | some n =>
    simp only []
    split
    · simp
    split
    · simp
    rw [applyOpts_static]
    cases applyOpts noOptions opts with
    | error p => simp [bind, Except.bind]
    | ok o1 =>
      simp only [bind, Except.bind, withBefores]
      by_cases hc : o1.noFound.length > 0 ∧ n.gbefores.length > 0
      · rw [if_pos hc, if_pos hc]
        cases newHandlers n.gbefores with
        | error p => simp
        | ok gs =>
          simp only []
          cases dumpRoute heap heap.length r newRouteStore with
          | error p => simp
          | ok rs' => intro h; cases h; rfl
      · rw [if_neg hc, if_neg hc]
        cases dumpRoute heap heap.length r newRouteStore with
        | error p => simp
        | ok rs' => intro h; cases h; rfl

/-- C48 (partial), for all options: below the prefix the static handler runs for every name, unless another route accepts the path or,
with the static-route option, a literal route is registered for exactly this path. Missing, as in `C48_below_partial`: prefixes with `..`
or pattern characters, and the prefix itself with a trailing slash, which is not served (`C48_refuted`). -/
theorem C48_option_partial {rx : Regex} {a b : List (Op (Prog ω))} {fs : FS ω} {http : Http ω} {opt : StaticOptions ω}
    {r : Nat} {ops : List (Op (Prog ω))} (hops : ops = a ++ staticOps r fs http opt ++ b)
    {heap : Heap (Prog ω)} (h : runOps [] ops = .ok heap)
    {opts : List (Opt (Prog ω))} {e : Engine (Prog ω)} (he : handler rx heap r opts = .ok e)
    (ho : ∀ s ∈ elems opt.pre, Ordinary s) {o : Oracle} {req : Req} (hr : Routed req)
    (hm : req.method = b!"GET" ∨ req.method = b!"HEAD") {name : Str} (hne : name ≠ []) (hl : name.getLast? ≠ some slash)
    (hpath : req.path = pathBelow (elems opt.pre) name ∨ req.path = pathBelow (elems opt.pre) name ++ [slash])
    (hother : ∀ i l, Endpoint ops r i l → methodOf ops i = req.method →
      Accepts rx (routeSegs (fullPath ops l)) (pathSegs req.path) → fullPath ops l = pathBelow (elems opt.pre) [star])
    (hexact : staticOf opts = true → ∀ i l, Endpoint ops r i l → methodOf ops i = req.method →
      fullPath ops l = req.path → ∃ p ∈ routeSegs (fullPath ops l), kind p ≠ .literal)
    (c : Ctx ω) (rw : Writer) (body : Option Str) (w : ω) :
    ∃ s : St ω, Blank s ∧
      s.ctx.handlers = (beforesOf ops r ++ usesOf ops r).filterMap payload ++ [staticHandler fs http opt] ∧
      s.ctx.params b!"*0" = some name ∧ s.rw = rw ∧ s.body = body ∧ s.world = w ∧
      let sv := serve rx o e c req rw body w
      sv.out = (runAll o req s).1 ∧ sv.rw = (runAll o req s).2.rw ∧ sv.world = (runAll o req s).2.world := by
  cases hst : staticOf opts with
  | false => exact C48_below_partial hops h he hst ho hr hm hne hl hpath hother c rw body w
  | true =>
    obtain ⟨_, es, h1, _, _, _, _, _, ⟨o', hd⟩, _⟩ := handler_ok h he
    have hso : staticOf (opts ++ [.staticRouter false]) = false := by simp [staticOf]
    unfold handler at he
    rw [hd] at he
    have he : mkEngine rx o'.enableStatic o'.noFound (routesOf ops r es) = .ok e := he
    have hoff : ∀ e0, mkEngine rx false o'.noFound (routesOf ops r es) = .ok e0 →
        handler rx heap r (opts ++ [.staticRouter false]) = .ok e0 := by
      intro e0 hm0
      unfold handler
      rw [dumpFor_static false hd]
      exact hm0
    cases hb : o'.enableStatic with
    | false =>
      rw [hb] at he
      exact C48_below_partial hops h (hoff e he) hso ho hr hm hne hl hpath hother c rw body w
    | true =>
      rw [hb] at he
      obtain ⟨e0, hmk0⟩ := C13_same_construction.1 ⟨e, he⟩
      rw [C107_miss (o := o) he hmk0 (req := req) (by
        rintro ⟨v, hv, h2, h3, h4⟩
        obtain ⟨j, k, hj, rfl⟩ := (mem_routesOf h1 (run_reflects h)).1 hv
        obtain ⟨p, hp, h5⟩ := hexact hst j k hj h2 h3
        exact h5 (h4 p hp)) c rw body w]
      exact C48_below_partial hops h (hoff e0 hmk0) hso ho hr hm hne hl hpath hother c rw body w

namespace Demo

/-- the directory of C48 and a literal route below it, with the static-route option on or off: the answers to requests -/
def diskAskStatic (on : Bool) (req : Req) : Option (Str × List Str) :=
  match runOps [] (diskOps [] 0 ++ [.handle 0 mGET b!"/static/a//b" [.ctxFunc (.do (.rawWrite b!"route") .ret)]]) with
  | .error _ => none
  | .ok heap =>
    match handler rx heap 0 [.staticRouter on] with
    | .error _ => none
    | .ok e =>
      let sv := serve rx chainO e .new req Writer.new none []
      some (sv.rw.log.flatMap (fun x => match x with | .body d => d | _ => []), sv.world)

end Demo

/-- the hypotheses are met, and needed: with the option, a literal route with a double slash takes its path from the directory -/
example : diskAskStatic true (at' b!"/static/f.txt") = some (b!"content of f.txt", [b!"open f.txt", b!"close"]) ∧
    diskAskStatic false (at' b!"/static/a//b") = some ([], [b!"open a//b"]) ∧
    diskAskStatic true (at' b!"/static/a//b") = some (b!"route", []) := by decide +kernel

end Water
