import Verif.Model.Tree
/-
Engine construction from the route list and route lookup: engine.go:61-69, 84-123 (lookup part), 159-193;
router.go:33-61, 300-315.
Handlers are values of an arbitrary type `α`.
-/
namespace Water
variable {α : Type}

def mGET : Str := b!"GET"
def mPOST : Str := b!"POST"
def mDELETE : Str := b!"DELETE"
def mPUT : Str := b!"PUT"
def mPATCH : Str := b!"PATCH"
def mHEAD : Str := b!"HEAD"
def mOPTIONS : Str := b!"OPTIONS"
def mCONNECT : Str := b!"CONNECT"

/-- `_HTTP_METHODS_NAMES` (router.go:22-30) -/
def methodNames : List Str := [mGET, mPOST, mDELETE, mPUT, mPATCH, mHEAD, mOPTIONS]

/-- `MethodIndex` (router.go:33-52); `none` is -1. -/
def methodIndex (m : Str) : Option Nat :=
  if m = mGET then some 0
  else if m = mPOST then some 1
  else if m = mDELETE then some 2
  else if m = mPUT then some 3
  else if m = mPATCH then some 4
  else if m = mHEAD then some 5
  else if m = mOPTIONS then some 6
  else none

/-- `route` (router.go:56-61). -/
structure Route (α : Type) where
  method : Str
  uri : Str
  variant : Str
  handlers : List α

/-- The end node reached by the segments of a pattern: the `*node` returned by `add` (tree.go:144-209). -/
def endAt : List Str → Node α → Option (EndNode α)
  | [], _ => none
  | [p], .mk _ _ ends => ends.find? (fun e => e.seg.pattern == p)
  | p :: q :: rest, .mk _ subs _ =>
    match subs.find? (fun n => n.seg.pattern == p) with
    | some n => endAt (q :: rest) n
    | none => none

/-- `isStaticRoute` (engine.go:183-193): the end node and all its ancestors are static. Instead of climbing
`parent` pointers the model descends along the same path. -/
def staticPath : List Str → Node α → Bool
  | [], _ => false
  | [p], .mk seg _ ends =>
    seg.typ == .static &&
      match ends.find? (fun e => e.seg.pattern == p) with
      | some e => e.seg.typ == .static
      | none => false
  | p :: q :: rest, .mk seg subs _ =>
    seg.typ == .static &&
      match subs.find? (fun n => n.seg.pattern == p) with
      | some n => staticPath (q :: rest) n
      | none => false

/-- The routing part of `Engine` (engine.go:62-69): per method index the tree (`none` is nil) and the
static map (a nil map behaves as an empty one for lookups). A `*node` stored in the static map is
represented by the segments leading to it, and looked up in the final tree. -/
structure Engine (α : Type) where
  enableStatic : Bool
  noFound : List α
  trees : Nat → Option (Node α)
  statics : Nat → Map Str (List Str)

def setAt {β : Type} (f : Nat → β) (i : Nat) (x : β) : Nat → β := fun j => if j = i then x else f j

/-- One iteration of `buildTree` (engine.go:162-179). A method outside the table would index with -1;
`routeStore.add` only lets registered methods through (router.go:89-98), see `Router.lean`. -/
def buildStep (rx : Regex) (e : Engine α) (v : Route α) : Except Panic (Engine α) :=
  match methodIndex v.method with
  | none => .error .invalidRoute
  | some i => do
    let t := (e.trees i).getD newTree
    let t' ← t.add rx v.variant v.handlers v.uri
    let e' := { e with trees := setAt e.trees i (some t') }
    if e.enableStatic && staticPath (addSegments v.variant) t' then
      return { e' with statics := setAt e'.statics i ((e'.statics i).set v.variant (addSegments v.variant)) }
    else
      return e'

/-- `newWater` (engine.go:71-82) with the options of the engine. -/
def newEngine (enableStatic : Bool) (noFound : List α) : Engine α :=
  { enableStatic, noFound, trees := fun _ => none, statics := fun _ => Map.empty }

/-- `buildTree` (engine.go:159-180). -/
def buildTree (rx : Regex) (e : Engine α) : List (Route α) → Except Panic (Engine α)
  | [] => .ok e
  | v :: vs => do
    let e' ← buildStep rx e v
    buildTree rx e' vs

/-- The check of router.go:309-315, which also computes `variantUri`. -/
def checkRoutes : List (Route α) → Except Panic (List (Route α))
  | [] => .ok []
  | v :: vs =>
    if !(v.uri == [slash] || checkSplitPattern v.uri) then .error .invalidRoute
    else do
      let vs' ← checkRoutes vs
      return { v with variant := variantUri v.uri } :: vs'

/-- The tail of `Router.Handler` (router.go:308-328) on the dumped routes. -/
def mkEngine (rx : Regex) (enableStatic : Bool) (noFound : List α) (rs : List (Route α)) :
    Except Panic (Engine α) := do
  let rs' ← checkRoutes rs
  buildTree rx (newEngine enableStatic noFound) rs'

/-- Route lookup in `ServeHTTP` (engine.go:102-110), before the context is run. `none` in the second
component means that `ctx.Params` is left as it was (static hit); `some none` is `nil`. -/
def lookup (rx : Regex) (e : Engine α) (i : Nat) (path : Str) :
    Option (EndNode α) × Option (Option Params) :=
  let static : Option (EndNode α) :=
    if e.enableStatic then
      match e.statics i path, e.trees i with
      | some segs, some t => endAt segs t
      | _, _ => none
    else none
  match static with
  | some n => (some n, none)
  | none =>
    match e.trees i with
    | none => (none, some none)
    | some t => let (ps, n) := matchUri rx (some t) path; (n, some (some ps))

/-- The end node a request is dispatched to (engine.go:90-110); `none`: not found or unsupported method. -/
def routeOf (rx : Regex) (e : Engine α) (method path : Str) : Option (EndNode α) :=
  match methodIndex method with
  | none => none
  | some i => (lookup rx e i path).1

/-- `ctx.Params` as set for a request (engine.go:109); `none`: not set by this request (static hit, or no
tree for the method, where it is nil). -/
def paramsOf (rx : Regex) (e : Engine α) (method path : Str) : Option Params :=
  match methodIndex method with
  | none => none
  | some i => (lookup rx e i path).2.join

end Water
