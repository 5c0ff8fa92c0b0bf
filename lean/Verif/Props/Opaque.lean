import Verif.Lemmas.Opaque
import Verif.Props.Chain
import Verif.Props.Demo
/-
C112: the framework never looks into handlers. Which path they serve, and whether an application can be built at all, depends on the
places they are registered at only; and a request depends on the handlers that answer it only.
-/
namespace Water
open Spec
variable {α β : Type}

theorem alike_map (rx : Regex) (f : α → β) (e : Engine α) : Alike rx f e (e.map f) := by
  refine ⟨rfl, fun m path => ?_, fun m path => ?_, fun i path => by rw [lookup_map]⟩
  · simp only [routeOf]
    cases methodIndex m with
    | none => rfl
    | some i =>
      simp only [lookup_map, Option.map_map]
      cases (lookup rx e i path).1 <;> rfl
  · simp only [routeOf]
    cases methodIndex m with
    | none => rfl
    | some i =>
      simp only [lookup_map, Option.map_map]
      cases (lookup rx e i path).1 <;> rfl

/-- **C112 (construction).** Two applications that differ in their handlers only: building one panics exactly if building the other does,
with the same panic; otherwise they dispatch alike, every request to the same path and parameters and the handlers at the same places. The
package variables for multipart memory are set alike. -/
theorem C112_construction {f : α → β} (rx : Regex) {ops : List (Op α)} {ops' : List (Op β)} (h : Each (SameCall f) ops ops') (r : Nat)
    {opts : List (Opt α)} {opts' : List (Opt β)} (ho : Each (SameOpt f) opts opts') :
    (∀ p, app rx ops' r opts' = .error p ↔ app rx ops r opts = .error p) ∧
    (∀ e', app rx ops' r opts' = .ok e' → ∃ e, app rx ops r opts = .ok e ∧ Alike rx f e e') ∧
    (∀ e, app rx ops r opts = .ok e → ∃ e', app rx ops' r opts' = .ok e' ∧ Alike rx f e e') := by
  rw [app_each rx h r ho]
  cases app rx ops r opts with
  | error p => exact ⟨fun q => by simp [Except.map], nofun, nofun⟩
  | ok e =>
    refine ⟨fun q => ⟨nofun, nofun⟩, ?_, ?_⟩
    · intro e' he'
      cases he'
      exact ⟨e, rfl, alike_map rx f e⟩
    · intro e1 he1
      cases he1
      exact ⟨_, rfl, alike_map rx f e⟩

/-- **C112 (memory).** Nor do the package variables for multipart memory depend on the handlers. -/
theorem C112_memory {f : α → β} {ops : List (Op α)} {ops' : List (Op β)} (h : Each (SameCall f) ops ops') (r : Nat)
    {opts : List (Opt α)} {opts' : List (Opt β)} (ho : Each (SameOpt f) opts opts') (mem : Int) :
    (runOps [] ops').map (fun heap => handlerMem heap r opts' mem) = (runOps [] ops).map (fun heap => handlerMem heap r opts mem) := by
  have := runOps_each h (.nil : Each (SameRouter f) [] [])
  revert this
  generalize runOps [] ops = y
  generalize runOps [] ops' = y'
  intro this
  cases this with
  | error p => rfl
  | ok hr => simp only [Except.map, handlerMem_each hr r ho]

mutual
theorem Node.map_id : ∀ n : Node α, n.map id = n
  | .mk seg subs ends => by
    rw [Node.map, Node.mapAll_id subs]
    have : ∀ es : List (EndNode α), es.map (EndNode.map id) = es := by
      intro es
      induction es with
      | nil => rfl
      | cons e es ih => simp [ih, EndNode.map]
    rw [this]

theorem Node.mapAll_id : ∀ ns : List (Node α), Node.mapAll id ns = ns
  | [] => rfl
  | n :: ns => by rw [Node.mapAll, Node.map_id n, Node.mapAll_id ns]
end

theorem Engine.map_id (e : Engine α) : e.map id = e := by
  obtain ⟨st, nf, trees, statics⟩ := e
  simp only [Engine.map, List.map_id]
  congr
  funext i
  cases trees i with
  | none => rfl
  | some t => exact congrArg some (Node.map_id t)

/-- **C112 (types).** It does not matter as which of the four supported types handlers are handed over. -/
theorem C112_types (rx : Regex) {ops ops' : List (Op α)} (h : Each (SameCall id) ops ops') (r : Nat) {opts opts' : List (Opt α)}
    (ho : Each (SameOpt id) opts opts') : app rx ops' r opts' = app rx ops r opts := by
  rw [app_each rx h r ho]
  cases app rx ops r opts with
  | error p => rfl
  | ok e => exact congrArg Except.ok (Engine.map_id e)

variable {ω : Type}

theorem serveRouted_like (o : Oracle) (e e' : Engine (Prog ω)) (c : Ctx ω) (req : Req) (rw_ : Writer) (body : Option Str) (w : ω)
    (n n' : Option (EndNode (Prog ω))) (ps : Option (Option Params)) (h : chainFor e n = chainFor e' n') (hu : n.map (·.uri) = n'.map (·.uri)) :
    serveRouted o e c req rw_ body w n ps = serveRouted o e' c req rw_ body w n' ps := by
  simp only [serveRouted, h, hu]

/-- **C112 (answers).** Take one application with handlers at its places in two ways, `f` and `g`. A request that is answered by places
where both have the same handler is served the same: whatever is done to the other handlers changes nothing. -/
theorem C112_answers {f g : α → Prog ω} (rx : Regex) (o : Oracle) {ops : List (Op α)} {opsf opsg : List (Op (Prog ω))} {r : Nat}
    {opts : List (Opt α)} {optsf optsg : List (Opt (Prog ω))} (hf : Each (SameCall f) ops opsf) (hg : Each (SameCall g) ops opsg)
    (hof : Each (SameOpt f) opts optsf) (hog : Each (SameOpt g) opts optsg) {e : Engine α} {ef eg : Engine (Prog ω)}
    (he : app rx ops r opts = .ok e) (hef : app rx opsf r optsf = .ok ef) (heg : app rx opsg r optsg = .ok eg)
    (c : Ctx ω) (req : Req) (rw_ : Writer) (body : Option Str) (w : ω) (hsame : ∀ a ∈ answering rx e req, f a = g a) :
    serve rx o ef c req rw_ body w = serve rx o eg c req rw_ body w := by
  rw [app_each rx hf r hof, he] at hef
  rw [app_each rx hg r hog, he] at heg
  cases hef
  cases heg
  simp only [serve]
  split
  · rfl
  · simp only [answering, routeOf] at hsame
    revert hsame
    cases methodIndex req.method with
    | none => intro; rfl
    | some i =>
      simp only [lookup_map]
      generalize lookup rx e i req.path = y
      obtain ⟨n, ps⟩ := y
      intro hsame
      have hmap : ∀ l : List α, (∀ a ∈ l, f a = g a) → l.map f = l.map g := fun l hl => List.map_congr_left hl
      cases n with
      | none =>
        have hsame : ∀ a ∈ e.noFound, f a = g a := hsame
        refine serveRouted_like o _ _ c req rw_ body w _ _ ps ?_ rfl
        have hn : (e.map f).noFound = (e.map g).noFound := hmap _ hsame
        simp only [Option.map_none, chainFor]
        rw [hn]
      | some n =>
        have hsame : ∀ a ∈ n.handlers, f a = g a := hsame
        refine serveRouted_like o _ _ c req rw_ body w _ _ ps ?_ rfl
        simp only [Option.map_some, chainFor, EndNode.map, hmap _ hsame]

namespace Demo

/-- places `0` to `5`: a middleware, two routes in a group with a middleware of its own, a route outside, a not-found handler -/
def placed : List (Op Nat) :=
  [.newRouter, .use 0 [.handler 0], .group 0 b!"/g", .use 1 [.ctxFunc 1], .handle 1 b!"GET" b!"/a" [.ctxFunc 2],
   .handle 1 b!"GET" b!"/<x>" [.httpFunc 3], .handle 0 b!"GET" b!"/h" [.handler 4]]

/-- the same with other handlers, of other types -/
def filled (f : Nat → Prog Nat) : List (Op (Prog Nat)) :=
  [.newRouter, .use 0 [.ctxFunc (f 0)], .group 0 b!"/g", .use 1 [.handler (f 1)], .handle 1 b!"GET" b!"/a" [.httpHandler (f 2)],
   .handle 1 b!"GET" b!"/<x>" [.ctxFunc (f 3)], .handle 0 b!"GET" b!"/h" [.handler (f 4)]]

theorem filled_same (f : Nat → Prog Nat) : Each (SameCall f) placed (filled f) := by
  refine .cons .newRouter (.cons (.use ?_) (.cons .group (.cons (.use ?_) (.cons (.handle ?_) (.cons (.handle ?_) (.cons (.handle ?_) .nil))))))
  · exact .cons (.val (.handler _) (.ctxFunc _)) .nil
  · exact .cons (.val (.ctxFunc _) (.handler _)) .nil
  · exact .cons (.val (.ctxFunc _) (.httpHandler _)) .nil
  · exact .cons (.val (.httpFunc _) (.ctxFunc _)) .nil
  · exact .cons (.val (.handler _) (.handler _)) .nil

/-- what answers a GET request -/
def who (ops : List (Op Nat)) (opts : List (Opt Nat)) (path : Str) : Option (List Nat) :=
  match app rx ops 0 opts with
  | .ok e => some (answering rx e { chainReq with method := b!"GET", path })
  | .error _ => none

end Demo
open Demo

/-- `/g/a` is answered by the places 0, 1, 2: handlers at 3, 4 and 5 make no difference to it -/
example : (∀ f, Each (SameCall f) placed (filled f)) ∧ (∀ f : Nat → Prog Nat, Each (SameOpt f) [.noFound [.handler 5]] [.noFound [.ctxFunc (f 5)]]) ∧
    who placed [.noFound [.handler 5]] b!"/g/a" = some [0, 1, 2] ∧ who placed [.noFound [.handler 5]] b!"/g/b" = some [0, 1, 3] ∧
    who placed [.noFound [.handler 5]] b!"/h" = some [0, 4] ∧ who placed [.noFound [.handler 5]] b!"/none" = some [5] := by
  refine ⟨filled_same, fun f => .cons (.noFound (.cons (.val (.handler _) (.ctxFunc _)) .nil)) .nil, ?_⟩
  decide +kernel

/-- an application that cannot be built, whatever the handlers are: the path is registered twice -/
example : who (placed ++ [.handle 0 b!"GET" b!"/h" [.handler 9]]) [] b!"/h" = none ∧
    (∀ f : Nat → Prog Nat, Each (SameCall f) (placed ++ [.handle 0 b!"GET" b!"/h" [.handler 9]])
      (filled f ++ [.handle 0 b!"GET" b!"/h" [.ctxFunc (f 9)]])) := by
  refine ⟨by decide +kernel, fun f => (filled_same f).append (.cons (.handle (.cons (.val (.handler _) (.ctxFunc _)) .nil)) .nil)⟩

end Water
