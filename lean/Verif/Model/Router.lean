import Verif.Model.Engine
/-
Router construction: router.go:63-329, engine.go:22-50, option.go.
Routers are pointers in Go; here they are addresses in a heap, a list of router records. The payload of a
handler value is an arbitrary type `α`.
-/
namespace Water
variable {α : Type}

/-- A value of type `interface{}` given as a handler, by the case of `newHandler` (engine.go:23-38) it falls
in. A typed nil function counts as its function type, as in Go. -/
inductive HVal (α : Type) where
  /-- implements `Handler` (this includes `HandlerFunc`) -/
  | handler (a : α)
  /-- a `func(*Context)` -/
  | ctxFunc (a : α)
  /-- implements `http.Handler` -/
  | httpHandler (a : α)
  /-- a `func(http.ResponseWriter, *http.Request)` -/
  | httpFunc (a : α)
  /-- the nil interface -/
  | nil
  /-- anything else -/
  | other
  deriving DecidableEq, Repr

/-- `newHandler` (engine.go:22-39). The adapters for `http.Handler` and functions keep the payload. -/
def newHandler : HVal α → Except Panic α
  | .handler a => .ok a
  | .ctxFunc a => .ok a
  | .httpHandler a => .ok a
  | .httpFunc a => .ok a
  | .nil => .error .unsupported
  | .other => .error .unsupported

/-- `newHandlers` (engine.go:41-50). -/
def newHandlers : List (HVal α) → Except Panic (List α)
  | [] => .ok []
  | h :: hs => do
    let a ← newHandler h
    let as ← newHandlers hs
    return a :: as

/-- `Router` (router.go:104-114). A nil `sub` and an empty one are the same here: `sub` only ever changes by
`append`, which never yields an empty non-nil slice (router.go:135, 169, 218). -/
structure RNode (α : Type) where
  method : Str
  pattern : Str
  gbefores : List (HVal α)
  befores : List (HVal α)
  handlers : List (HVal α)
  parent : Option Nat
  sub : List Nat

/-- The heap of routers; the address of a router is its position. -/
abbrev Heap (α : Type) := List (RNode α)

/-- One registration call. `groupMw r h` and `groupBad` are the treatment of one further argument of `Group`
(router.go:137-146): a `func(*Context)` and a value of an unsupported type; the body of a `func(*Router)`
argument is the calls it makes. Users only hold pointers to routers made by `NewRouter` and `Group`. -/
inductive Op (α : Type) where
  | newRouter
  | before (r : Nat) (hs : List (HVal α))
  | group (r : Nat) (pattern : Str)
  | groupMw (r : Nat) (h : α)
  | groupBad
  | use (r : Nat) (hs : List (HVal α))
  | handle (r : Nat) (method pattern : Str) (hs : List (HVal α))

/-- allocate a child of `r` and append it to `r.sub` (router.go:130-135, 162-169) -/
def addChild (heap : Heap α) (r : Nat) (n : RNode α) : Heap α :=
  heap.modify r (fun x => { x with sub := x.sub ++ [heap.length] }) ++ [n]

/-- One registration call (router.go:116-170). `noSuchRouter` marks calls that cannot be written in Go: on
a router that does not exist or is an endpoint, or with a method other than the seven. -/
def step (heap : Heap α) : Op α → Except Panic (Heap α)
  | .newRouter =>                                                        -- router.go:116-118
    .ok (heap ++ [{ method := [], pattern := [], gbefores := [], befores := [], handlers := [],
                    parent := none, sub := [] }])
  | .before r hs =>                                                      -- router.go:121-127
    match heap[r]? with
    | none => .error .noSuchRouter
    | some n =>
      if n.method ≠ [] then .error .noSuchRouter
      else if n.parent ≠ none then .error .subRouter
      else .ok (heap.modify r (fun x => { x with gbefores := x.gbefores ++ hs }))
  | .group r pattern =>                                                  -- router.go:129-135
    match heap[r]? with
    | none => .error .noSuchRouter
    | some n =>
      if n.method ≠ [] then .error .noSuchRouter
      else .ok (addChild heap r { method := [], pattern, gbefores := [], befores := [], handlers := [],
                                  parent := some r, sub := [] })
  | .groupMw r h =>                                                      -- router.go:139-140
    match heap[r]? with
    | none => .error .noSuchRouter
    | some n =>
      if n.method ≠ [] then .error .noSuchRouter
      else .ok (heap.modify r (fun x => { x with befores := x.befores ++ [.ctxFunc h] }))
  | .groupBad => .error .unsupported                                     -- router.go:143-144
  | .use r hs =>                                                         -- router.go:151-153
    match heap[r]? with
    | none => .error .noSuchRouter
    | some n =>
      if n.method ≠ [] then .error .noSuchRouter
      else .ok (heap.modify r (fun x => { x with befores := x.befores ++ hs }))
  | .handle r method pattern hs =>                                       -- router.go:155-170, 188-214
    match heap[r]? with
    | none => .error .noSuchRouter
    | some n =>
      if n.method ≠ [] ∨ method ∉ methodNames then .error .noSuchRouter
      else if hs.any (fun h => match h with | .nil => true | _ => false) then .error .nilHandler
      else .ok (addChild heap r { method, pattern, gbefores := [], befores := [], handlers := hs,
                                  parent := some r, sub := [] })

/-- A history of registration calls. A call that panics leaves the heap unchanged, so a program that recovers
from such a panic behaves like the history without the call. -/
def runOps (heap : Heap α) : List (Op α) → Except Panic (Heap α)
  | [] => .ok heap
  | op :: ops => do
    let heap' ← step heap op
    runOps heap' ops

/-- An argument of `Group` (router.go:137-146). -/
inductive GArg (α : Type) where
  | mw (h : α)
  | fn (body : List (Op α))
  | bad

/-- The calls made by one argument of `Group` on `r`. -/
def GArg.ops (r : Nat) : GArg α → List (Op α)
  | .mw h => [.groupMw r h]
  | .fn body => body
  | .bad => [.groupBad]

/-- `Group(pattern, is...)` (router.go:129-149). The new router is at the address `heap.length`. -/
def groupCall (r : Nat) (pattern : Str) (is : List (GArg α)) : List (Op α) :=
  .group r pattern :: is.flatMap (GArg.ops r)

/-- The methods `ANY` registers (router.go:176-186), for a value of `MethodAnyExclude`. -/
def anyMethods (exclude : List Str) : List Str :=
  methodNames.filter (fun m => !exclude.any (fun v => m == v))

/-- `ANY` (router.go:176-186). -/
def anyCall (exclude : List Str) (r : Nat) (pattern : Str) (hs : List (HVal α)) : List (Op α) :=
  (anyMethods exclude).map (fun m => .handle r m pattern hs)

/-- `routeStore` (router.go:65-70) without the lock. -/
structure RouteStore (α : Type) where
  routeMap : Map Str (Map Str (Route α))
  routeSlice : List (Route α)

/-- `newRouteStore` (router.go:72-83). -/
def newRouteStore : RouteStore α where
  routeMap := fun m => if m ∈ methodNames then some Map.empty else none
  routeSlice := []

/-- `routeStore.add` (router.go:85-99). Writing to the map of an unknown method would panic in Go
(assignment to a nil map); endpoints always have a known method. -/
def RouteStore.add (rs : RouteStore α) (r : Route α) : Except Panic (RouteStore α) :=
  if r.method = [] then .ok rs
  else
    match rs.routeMap r.method with
    | none => .error .noSuchRouter
    | some byUri =>
      if (byUri r.uri).isSome then .error .doubleUri
      else .ok { routeMap := rs.routeMap.set r.method (byUri.set r.uri r), routeSlice := rs.routeSlice ++ [r] }

/-- The loop of `getRoute` (router.go:232-260): climb to the root collecting patterns and handlers. `fuel`
bounds the number of steps; parents have smaller addresses (see `climb_fuel`). -/
def climb (heap : Heap α) : Nat → Nat → List Str → List (HVal α) → Option (List Str × List (HVal α))
  | 0, _, _, _ => none
  | fuel + 1, i, ps, hs =>
    match heap[i]? with
    | none => none
    | some n =>
      let ps := ps ++ [trimSpace n.pattern]
      let hs := if n.handlers.length > 0 then hs ++ n.handlers else hs
      let hs := if n.befores.length > 0 then n.befores ++ hs else hs
      let hs := if n.gbefores.length > 0 then n.gbefores ++ hs else hs
      match n.parent with
      | none => some (ps, hs)
      | some p => climb heap fuel p ps hs

/-- `getRoute` (router.go:228-273). -/
def getRoute (heap : Heap α) (i : Nat) : Except Panic (Route α) :=
  match heap[i]? with
  | none => .error .noSuchRouter
  | some n =>
    match climb heap heap.length i [] [] with
    | none => .error .noSuchRouter
    | some (ps, hs) => do
      let handlers ← newHandlers hs
      let re : Route α := { method := n.method, uri := join [] (reverseStrings ps), variant := [], handlers }
      if re.handlers.length = 0 then .error .emptyHandlers else .ok re

/-- `dumpRoute` (router.go:217-226). `fuel` bounds the depth; children have larger addresses. -/
def dumpRoute (heap : Heap α) : Nat → Nat → RouteStore α → Except Panic (RouteStore α)
  | 0, _, _ => .error .noSuchRouter
  | fuel + 1, r, rs =>
    match heap[r]? with
    | none => .error .noSuchRouter
    | some n =>
      if n.sub.isEmpty then do
        let re ← getRoute heap r
        rs.add re
      else n.sub.foldlM (fun rs v => dumpRoute heap fuel v rs) rs

/-- `options` (option.go:3-7). -/
structure Options (α : Type) where
  enableStatic : Bool
  noFound : List α
  maxMultipart : Int

/-- A call of one of the option constructors (option.go:13-36). -/
inductive Opt (α : Type) where
  | staticRouter (enable : Bool)
  | noFound (hs : List (HVal α))
  | maxMultipart (max : Int)

/-- Applying the options in order (router.go:286-289, option.go:13-36). `WithNoFoundHandlers()` without
handlers panics when the option is made, before `Handler` is entered; the model raises it here. -/
def applyOpts (o : Options α) : List (Opt α) → Except Panic (Options α)
  | [] => .ok o
  | .staticRouter b :: os => applyOpts { o with enableStatic := b } os
  | .noFound hs :: os =>
    if hs.length = 0 then .error .noNoFound
    else do
      let as ← newHandlers hs
      applyOpts { o with noFound := as } os
  | .maxMultipart m :: os => applyOpts { o with maxMultipart := m } os

/-- `&options{}` (router.go:286) -/
def noOptions : Options α := { enableStatic := false, noFound := [], maxMultipart := 0 }

/-- Putting the Before handlers in front of the not-found handlers (router.go:292-298). -/
def withBefores (o : Options α) (gbefores : List (HVal α)) : Except Panic (Options α) :=
  if o.noFound.length > 0 ∧ gbefores.length > 0 then
    match newHandlers gbefores with
    | .error p => .error p
    | .ok gs => .ok { o with noFound := gs ++ o.noFound }
  else .ok o

/-- `Handler` up to the dump (router.go:281-302): the options with the Before handlers put in front of the
not-found handlers, and the dumped routes. -/
def dumpFor (heap : Heap α) (r : Nat) (opts : List (Opt α)) : Except Panic (Options α × List (Route α)) :=
  match heap[r]? with
  | none => .error .noSuchRouter
  | some n =>
    if n.method ≠ [] then .error .noSuchRouter
    else if n.parent ≠ none then .error .subRouter
    else do
      let o ← applyOpts noOptions opts
      let o ← withBefores o n.gbefores
      let rs ← dumpRoute heap heap.length r newRouteStore
      return (o, rs.routeSlice)

/-- `Handler` (router.go:281-329): the engine, if construction succeeds. -/
def handler (rx : Regex) (heap : Heap α) (r : Nat) (opts : List (Opt α)) : Except Panic (Engine α) := do
  let (o, rs) ← dumpFor heap r opts
  mkEngine rx o.enableStatic o.noFound rs

/-- The effect of `Handler` on the package variables for multipart memory (router.go:323-324): they are set
after the paths have been checked and before the tree is built. -/
def handlerMem (heap : Heap α) (r : Nat) (opts : List (Opt α)) (mem : Int) : Int :=
  match dumpFor heap r opts with
  | .error _ => mem
  | .ok (o, rs) =>
    match checkRoutes rs with
    | .error _ => mem
    | .ok _ => o.maxMultipart

end Water
