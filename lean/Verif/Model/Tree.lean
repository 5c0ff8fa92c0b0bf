import Verif.Model.Pattern
/-
The routing tree: tree.go:17-53, 142-330.
Pointers: a node is a value; the functions that mutate a node return the new one. The `parent` pointer
is only used by `isStaticRoute` (engine.go:183-193), modelled along the insertion path in Engine.lean.
-/
namespace Water

/-- An end node (leaf): tree.go:17-31. `handlers` is fixed when the node is created (tree.go:168),
`uri` is `matchNode.uri`, overwritten by every registration that reaches the node (engine.go:178). -/
structure EndNode (α : Type) where
  seg : Seg
  handlers : List α
  uri : Str

/-- An inner node: tree.go:17-31. -/
inductive Node (α : Type) where
  | mk (seg : Seg) (subs : List (Node α)) (ends : List (EndNode α))

variable {α : Type}

/-- the segment data of a node -/
def Node.seg : Node α → Seg | .mk s _ _ => s
/-- `subNodes` -/
def Node.subs : Node α → List (Node α) | .mk _ s _ => s
/-- `endNodes` -/
def Node.ends : Node α → List (EndNode α) | .mk _ _ e => e

/-- `newTree` (tree.go:38-40): `analyzePattern("")` is a static segment with empty pattern. -/
def newTree : Node α := .mk { typ := .static, pattern := [], parsed := [], wildcards := [], reg := [] } [] []

/-- Insert before the first element of a strictly larger type, else at the end
(tree.go:170-181 and 195-206). -/
def insertOrd {β : Type} (typ : β → PTyp) (x : β) : List β → List β
  | [] => [x]
  | y :: ys => if (typ x).ord < (typ y).ord then x :: y :: ys else y :: insertOrd typ x ys

/-- `addEndNode` (tree.go:160-184) together with `endNode.matchNode = v` (engine.go:178):
an existing end node keeps its handlers. -/
def addEnd (rx : Regex) (ends : List (EndNode α)) (pattern : Str) (handlers : List α) (uri : Str) :
    Except Panic (List (EndNode α)) :=
  match ends.findIdx? (fun e => e.seg.pattern == pattern) with
  | some i => .ok (ends.modify i (fun e => { e with uri := uri }))
  | none => do
    let seg ← analyzePattern rx pattern
    return insertOrd (fun e => e.seg.typ) { seg, handlers, uri } ends

/-- The cutting of the pattern performed level by level by `addNextSegment` (tree.go:149-158):
strip one leading '/', cut at the next '/'. `fuel` bounds the number of levels. -/
def addSegmentsF : Nat → Str → List Str
  | 0, p => [p]
  | f + 1, p =>
    let p := trimPrefix p [slash]
    match indexByte p slash with
    | none => [p]
    | some i => p.take i :: addSegmentsF f (p.drop (i + 1))

/-- The segments under which `add` (tree.go:144-147) stores a pattern. -/
def addSegments (pattern : Str) : List Str :=
  let p := trimSuffix pattern [slash]
  addSegmentsF (p.length + 1) p

/-- `addNextSegment` / `addSubNode` / `addEndNode` (tree.go:149-209) on the cut pattern. -/
def addSegs (rx : Regex) (handlers : List α) (uri : Str) : List Str → Node α → Except Panic (Node α)
  | [], n => .ok n
  | [p], .mk seg subs ends => do
    let ends' ← addEnd rx ends p handlers uri
    return .mk seg subs ends'
  | p :: q :: rest, .mk seg subs ends =>
    match subs.findIdx? (fun n => n.seg.pattern == p) with
    | some i => do
      match subs[i]? with
      | none => return .mk seg subs ends
      | some sub =>
        let sub' ← addSegs rx handlers uri (q :: rest) sub
        return .mk seg (subs.set i sub') ends
    | none => do
      let sseg ← analyzePattern rx p
      let sub' ← addSegs rx handlers uri (q :: rest) (.mk sseg [] [])
      return .mk seg (insertOrd (fun n => n.seg.typ) sub' subs) ends

/-- `node.add` (tree.go:144-147). -/
def Node.add (rx : Regex) (n : Node α) (pattern : Str) (handlers : List α) (uri : Str) :
    Except Panic (Node α) :=
  addSegs rx handlers uri (addSegments pattern) n

/-- `Params` (params.go:7). -/
abbrev Params := Map Str Str

/-- the loop `params[wildcards[j]] = results[j+1]` (tree.go:248-250, 288-290) -/
def setAll (ps : Params) : List Str → List Str → Params
  | w :: ws, r :: rs => setAll (ps.set w r) ws rs
  | _, _ => ps

/-- key used for an anonymous `*` at level `g`: `"*"+strconv.Itoa(globLevel)` (tree.go:263, 308, 323) -/
def globKey (g : Nat) : Str := star :: itoaNat g

/-- the `_PATTERN_MATCH_ALL` parameter write for an end node (tree.go:258-264, 318-324) -/
def setGlob (seg : Seg) (g : Nat) (v : Str) (ps : Params) : Params :=
  if seg.parsed ≠ [] then (if seg.parsed ≠ [95] then ps.set seg.parsed v else ps)
  else ps.set (globKey g) v

/-- `matchEndNode` (tree.go:234-271): first end node that accepts. -/
def matchEnds (rx : Regex) (g : Nat) (uri : Str) : List (EndNode α) → Params → Params × Option (EndNode α)
  | [], ps => (ps, none)
  | e :: es, ps =>
    match e.seg.typ with
    | .static => if e.seg.pattern = uri then (ps, some e) else matchEnds rx g uri es ps
    | .regexp =>
      let results := rx.find e.seg.reg uri
      if (results.length : Int) - 1 ≠ e.seg.wildcards.length then matchEnds rx g uri es ps
      else (setAll ps e.seg.wildcards (results.drop 1), some e)
    | .holder => (if e.seg.parsed ≠ [95] then ps.set e.seg.parsed uri else ps, some e)
    | .matchAll => (setGlob e.seg g uri ps, some e)

/-- the tail of `matchSubNode` (tree.go:315-329): the last end node, if it is a match-all -/
def matchFallback (g : Nat) (rest : Str) (ends : List (EndNode α)) (ps : Params) :
    Params × Option (EndNode α) :=
  match ends.getLast? with
  | some e => if e.seg.typ = .matchAll then (setGlob e.seg g rest ps, some e) else (ps, none)
  | none => (ps, none)

mutual
/-- `matchNextSegment` (tree.go:226-232) -/
def matchNext (rx : Regex) : Node α → Nat → Str → Params → Params × Option (EndNode α)
  | .mk _ subs ends, g, uri, ps =>
    match indexByte uri slash with
    | none => matchEnds rx g uri ends ps
    | some i => matchSubs rx subs ends g (uri.take i) (uri.drop (i + 1)) ps

/-- `matchSubNode` (tree.go:273-330): the loop over the remaining sub nodes, then the fallback.
`params` is the single mutable map of the search: it is threaded through failed branches too. -/
def matchSubs (rx : Regex) : List (Node α) → List (EndNode α) → Nat → Str → Str → Params →
    Params × Option (EndNode α)
  | [], ends, g, segment, uri, ps => matchFallback g (segment ++ [slash] ++ uri) ends ps
  | n :: ns, ends, g, segment, uri, ps =>
    match n.seg.typ with
    | .static =>
      if n.seg.pattern = segment then
        match matchNext rx n g uri ps with
        | (ps', some e) => (ps', some e)
        | (ps', none) => matchSubs rx ns ends g segment uri ps'
      else matchSubs rx ns ends g segment uri ps
    | .regexp =>
      let results := rx.find n.seg.reg segment
      if (results.length : Int) - 1 ≠ n.seg.wildcards.length then matchSubs rx ns ends g segment uri ps
      else
        match matchNext rx n g uri (setAll ps n.seg.wildcards (results.drop 1)) with
        | (ps', some e) => (ps', some e)
        | (ps', none) => matchSubs rx ns ends g segment uri ps'
    | .holder =>
      match matchNext rx n g uri ps with
      | (ps', some e) => (if n.seg.parsed ≠ [95] then ps'.set n.seg.parsed segment else ps', some e)
      | (ps', none) => matchSubs rx ns ends g segment uri ps'
    | .matchAll =>
      match matchNext rx n (g + 1) uri ps with
      | (ps', some e) =>
        (if n.seg.parsed ≠ [] then
          (if n.seg.parsed ≠ [95] then ps'.set n.seg.parsed (segment ++ [slash] ++ uri) else ps')
         else ps'.set (globKey g) segment, some e)
      | (ps', none) => matchSubs rx ns ends g segment uri ps'
end

/-- `node.Match` (tree.go:212-223); `none` for the tree is the nil receiver ("no method router tree"). -/
def matchUri (rx : Regex) (t : Option (Node α)) (uri : Str) : Params × Option (EndNode α) :=
  match t with
  | none => (Map.empty, none)
  | some n =>
    let uri := trimSuffix (trimPrefix uri [slash]) [slash]
    matchNext rx n 0 uri Map.empty

end Water
