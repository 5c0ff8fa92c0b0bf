import Verif.Model.Serve
/-
The routing trees as the code has them: nodes in memory, connected by pointers (tree.go, engine.go). Here a pointer is an address, the
position of a node in a list. Nodes are never freed. `Tree.lean` and `Engine.lean` have the trees as values instead; `Props/Pointers.lean`
proves that the two agree.
-/
namespace Water
variable {α : Type}

/-- `node` (tree.go:17-31). `matchNode` is the pattern of the route it points to. -/
structure PNode (α : Type) where
  parent : Option Nat
  subNodes : List Nat
  endNodes : List Nat
  seg : Seg
  handlers : List α
  matchNode : Option Str

/-- The memory. -/
abbrev THeap (α : Type) := List (PNode α)

/-- `newNode` (tree.go:42-53). -/
def newNodeP (rx : Regex) (h : THeap α) (parent : Option Nat) (pattern : Str) : Except Panic (Nat × THeap α) := do
  let seg ← analyzePattern rx pattern
  return (h.length, h ++ [{ parent, subNodes := [], endNodes := [], seg, handlers := [], matchNode := none }])

/-- The loop `if nodes[i].pattern == pattern { return … }` (tree.go:161-165, 187-191). -/
def findP (h : THeap α) (pattern : Str) (l : List Nat) : Option Nat :=
  l.find? (fun a => match h[a]? with | some n => n.seg.pattern == pattern | none => false)

/-- The loop `if typ < nodes[i].typ { break }` (tree.go:170-175, 195-200). -/
def placeP (h : THeap α) (typ : PTyp) : List Nat → Nat
  | [] => 0
  | a :: as =>
    match h[a]? with
    | some n => if typ.ord < n.seg.typ.ord then 0 else placeP h typ as + 1
    | none => placeP h typ as + 1

/-- The insertion at `i` (tree.go:177-181, 202-206). -/
def insertP (l : List Nat) (i a : Nat) : List Nat :=
  if i = l.length then l ++ [a] else l.take i ++ ([a] ++ l.drop i)

/-- `addEndNode` (tree.go:160-184). -/
def addEndP (rx : Regex) (handlers : List α) (h : THeap α) (n : Nat) (pattern : Str) : Except Panic (Nat × THeap α) :=
  match h[n]? with
  | none => .error .noSuchRouter
  | some p =>
    match findP h pattern p.endNodes with
    | some e => .ok (e, h)
    | none => do
      let seg ← analyzePattern rx pattern
      let h1 := h ++ [{ parent := some n, subNodes := [], endNodes := [], seg, handlers, matchNode := none }]
      let h2 := h1.modify n (fun p => { p with endNodes := insertP p.endNodes (placeP h1 seg.typ p.endNodes) h.length })
      return (h.length, h2)

/-- `addNextSegment` and `addSubNode` (tree.go:149-158, 186-209). `fuel` bounds the number of levels. -/
def addNextP (rx : Regex) (handlers : List α) : Nat → THeap α → Nat → Str → Except Panic (Nat × THeap α)
  | 0, _, _, _ => .error .noSuchRouter
  | f + 1, h, n, pattern =>
    let pattern := trimPrefix pattern [slash]
    match indexByte pattern slash with
    | none => addEndP rx handlers h n pattern
    | some i =>
      match h[n]? with
      | none => .error .noSuchRouter
      | some p =>
        match findP h (pattern.take i) p.subNodes with
        | some s => addNextP rx handlers f h s (pattern.drop (i + 1))
        | none => do
          let seg ← analyzePattern rx (pattern.take i)
          let h1 := h ++ [{ parent := some n, subNodes := [], endNodes := [], seg, handlers := [], matchNode := none }]
          let h2 := h1.modify n (fun p => { p with subNodes := insertP p.subNodes (placeP h1 seg.typ p.subNodes) h.length })
          addNextP rx handlers f h2 h.length (pattern.drop (i + 1))

/-- `add` (tree.go:144-147). -/
def addP (rx : Regex) (handlers : List α) (h : THeap α) (n : Nat) (pattern : Str) : Except Panic (Nat × THeap α) :=
  let p := trimSuffix pattern [slash]
  addNextP rx handlers (p.length + 1) h n p

/-- `matchEndNode` (tree.go:234-271). -/
def matchEndsP (rx : Regex) (h : THeap α) (g : Nat) (uri : Str) : List Nat → Params → Params × Option Nat
  | [], ps => (ps, none)
  | a :: as, ps =>
    match h[a]? with
    | none => matchEndsP rx h g uri as ps
    | some e =>
      match e.seg.typ with
      | .static => if e.seg.pattern = uri then (ps, some a) else matchEndsP rx h g uri as ps
      | .regexp =>
        let results := rx.find e.seg.reg uri
        if (results.length : Int) - 1 ≠ e.seg.wildcards.length then matchEndsP rx h g uri as ps
        else (setAll ps e.seg.wildcards (results.drop 1), some a)
      | .holder => (if e.seg.parsed ≠ [95] then ps.set e.seg.parsed uri else ps, some a)
      | .matchAll => (setGlob e.seg g uri ps, some a)

/-- The end of `matchSubNode` (tree.go:315-329). -/
def matchFallbackP (h : THeap α) (g : Nat) (rest : Str) (ends : List Nat) (ps : Params) : Params × Option Nat :=
  match ends.getLast? with
  | none => (ps, none)
  | some a =>
    match h[a]? with
    | none => (ps, none)
    | some e => if e.seg.typ = .matchAll then (setGlob e.seg g rest ps, some a) else (ps, none)

/-- `matchSubNode` (tree.go:273-330); `next` is `matchNextSegment`. -/
def matchSubsP (rx : Regex) (h : THeap α) (next : Nat → Nat → Str → Params → Params × Option Nat) (ends : List Nat) (g : Nat)
    (segment uri : Str) : List Nat → Params → Params × Option Nat
  | [], ps => matchFallbackP h g (segment ++ [slash] ++ uri) ends ps
  | a :: as, ps =>
    match h[a]? with
    | none => matchSubsP rx h next ends g segment uri as ps
    | some n =>
      match n.seg.typ with
      | .static =>
        if n.seg.pattern = segment then
          match next a g uri ps with
          | (ps', some e) => (ps', some e)
          | (ps', none) => matchSubsP rx h next ends g segment uri as ps'
        else matchSubsP rx h next ends g segment uri as ps
      | .regexp =>
        let results := rx.find n.seg.reg segment
        if (results.length : Int) - 1 ≠ n.seg.wildcards.length then matchSubsP rx h next ends g segment uri as ps
        else
          match next a g uri (setAll ps n.seg.wildcards (results.drop 1)) with
          | (ps', some e) => (ps', some e)
          | (ps', none) => matchSubsP rx h next ends g segment uri as ps'
      | .holder =>
        match next a g uri ps with
        | (ps', some e) => (if n.seg.parsed ≠ [95] then ps'.set n.seg.parsed segment else ps', some e)
        | (ps', none) => matchSubsP rx h next ends g segment uri as ps'
      | .matchAll =>
        match next a (g + 1) uri ps with
        | (ps', some e) =>
          (if n.seg.parsed ≠ [] then
            (if n.seg.parsed ≠ [95] then ps'.set n.seg.parsed (segment ++ [slash] ++ uri) else ps')
           else ps'.set (globKey g) segment, some e)
        | (ps', none) => matchSubsP rx h next ends g segment uri as ps'

/-- `matchNextSegment` (tree.go:226-232). `fuel` bounds the number of levels. -/
def matchNextP (rx : Regex) (h : THeap α) : Nat → Nat → Nat → Str → Params → Params × Option Nat
  | 0, _, _, _, ps => (ps, none)
  | f + 1, n, g, uri, ps =>
    match h[n]? with
    | none => (ps, none)
    | some p =>
      match indexByte uri slash with
      | none => matchEndsP rx h g uri p.endNodes ps
      | some i => matchSubsP rx h (matchNextP rx h f) p.endNodes g (uri.take i) (uri.drop (i + 1)) p.subNodes ps

/-- `Match` (tree.go:212-223) on a tree that is not nil. -/
def matchUriP (rx : Regex) (h : THeap α) (n : Nat) (uri : Str) : Params × Option Nat :=
  let uri := trimSuffix (trimPrefix uri [slash]) [slash]
  matchNextP rx h (uri.length + 1) n 0 uri Map.empty

/-- `isStaticRoute` (engine.go:183-193): climb to the root. `fuel` bounds the number of steps. -/
def isStaticP (h : THeap α) : Nat → Option Nat → Bool
  | 0, _ => false
  | _ + 1, none => true
  | f + 1, some a =>
    match h[a]? with
    | none => false
    | some n => if n.seg.typ ≠ .static then false else isStaticP h f n.parent

/-- `Engine` (engine.go:62-69), with the memory its pointers point to. -/
structure PEngine (α : Type) where
  enableStatic : Bool
  noFound : List α
  mem : THeap α
  routers : Nat → Option Nat
  routersStatic : Nat → Map Str Nat

/-- the root of the tree of method `i`, made if there is none (engine.go:163-169, tree.go:38-40) -/
def rootP (rx : Regex) (e : PEngine α) (i : Nat) : Except Panic (Nat × PEngine α) :=
  match e.routers i with
  | some t => .ok (t, e)
  | none => do
    let (t, h) ← newNodeP rx e.mem none []
    return (t, { e with mem := h, routers := setAt e.routers i (some t) })

/-- One iteration of `buildTree` (engine.go:162-179). The code stores a new tree after the first route was added to it; as nothing is
looked up in between, storing it before is the same. -/
def buildStepP (rx : Regex) (e : PEngine α) (v : Route α) : Except Panic (PEngine α) :=
  match methodIndex v.method with
  | none => .error .invalidRoute
  | some i => do
    let (t, e1) ← rootP rx e i
    let (endNode, h) ← addP rx v.handlers e1.mem t v.variant
    let e2 := { e1 with mem := h }
    let e3 :=
      if e2.enableStatic && isStaticP h (h.length + 1) (some endNode) then
        { e2 with routersStatic := setAt e2.routersStatic i ((e2.routersStatic i).set v.variant endNode) }
      else e2
    return { e3 with mem := e3.mem.modify endNode (fun n => { n with matchNode := some v.uri }) }

/-- `newWater` (engine.go:71-82) with the options of the engine. -/
def newEngineP (enableStatic : Bool) (noFound : List α) : PEngine α :=
  { enableStatic, noFound, mem := [], routers := fun _ => none, routersStatic := fun _ => Map.empty }

/-- `buildTree` (engine.go:159-180). -/
def buildTreeP (rx : Regex) (e : PEngine α) : List (Route α) → Except Panic (PEngine α)
  | [] => .ok e
  | v :: vs => do
    let e' ← buildStepP rx e v
    buildTreeP rx e' vs

/-- The end of `Router.Handler` (router.go:308-328) on the dumped routes. -/
def mkEngineP (rx : Regex) (enableStatic : Bool) (noFound : List α) (rs : List (Route α)) : Except Panic (PEngine α) := do
  let rs' ← checkRoutes rs
  buildTreeP rx (newEngineP enableStatic noFound) rs'

/-- Route lookup in `ServeHTTP` (engine.go:102-110): the end node, and what is assigned to `ctx.Params` (`none`: nothing, `some none`:
nil). -/
def lookupP (rx : Regex) (e : PEngine α) (i : Nat) (path : Str) : Option Nat × Option (Option Params) :=
  let endNode : Option Nat := if e.enableStatic then e.routersStatic i path else none
  match endNode with
  | some n => (some n, none)
  | none =>
    match e.routers i with
    | none => (none, some none)
    | some t => let (ps, n) := matchUriP rx e.mem t path; (n, some (some ps))

/-- What `ServeHTTP` and `FullPath` read of an end node (engine.go:124, content.go:315-316). Reading `matchNode.uri` of a node without
`matchNode` would panic; see `C109_routed`. -/
def PEngine.read (e : PEngine α) (a : Nat) : Option (EndNode α) :=
  match e.mem[a]? with
  | none => none
  | some n => some { seg := n.seg, handlers := n.handlers, uri := n.matchNode.getD [] }

/-- The engine, as far as the rest of `ServeHTTP` is concerned. -/
def PEngine.rest (e : PEngine α) : Engine α :=
  { enableStatic := e.enableStatic, noFound := e.noFound, trees := fun _ => none, statics := fun _ => Map.empty }

/-- `ServeHTTP` (engine.go:84-132) on the trees in memory. -/
def serveP {ω : Type} (rx : Regex) (o : Oracle) (e : PEngine (Prog ω)) (c : Ctx ω) (req : Req) (rw : Writer) (body : Option Str)
    (w : ω) : Served ω :=
  if !protoAtLeast11 req || req.requestURI == b!"*" || req.method == b!"CONNECT" then
    let (p, rw) := rw.writeHeader o.bad 406
    { out := if p then .panic callPanic else .ret, rw, world := w, forms := [], trace := [], took := false, puts := [] }
  else
    match methodIndex req.method with
    | none =>
      let (p, rw) := rw.writeHeader o.bad 405
      { out := if p then .panic callPanic else .ret, rw, world := w, forms := [], trace := [], took := false, puts := [] }
    | some i => serveRouted o e.rest c req rw body w ((lookupP rx e i req.path).1.bind e.read) (lookupP rx e i req.path).2

end Water
