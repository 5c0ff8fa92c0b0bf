import Verif.Model.Router
import Verif.Model.Strconv
import Verif.Model.Util
/-
router_print.go: what the Print functions of an engine write. A result is the list of texts written by the calls of
`fmt.Printf`, without the final newline of each.
-/
namespace Water
variable {α : Type}

/-- `_PREFIX_BRANCH` (router_print.go:10) -/
def pBranch : Str := b!"├──"
/-- `_PREFIX_TRUNK` (router_print.go:11) -/
def pTrunk : Str := b!"│   "
/-- `_PREFIX_LEAF` (router_print.go:12) -/
def pLeaf : Str := b!"└──"
/-- `_PREFIX_EMP` (router_print.go:13) -/
def pEmp : Str := b!"    "

/-- The verb `%-7s` of fmt on a text of one-byte characters; it is only used on method names. -/
def padRight (w : Nat) (s : Str) : Str := s ++ List.replicate (w - s.length) 32

/-- The verb `%3d` of fmt on a number that is not negative. -/
def padLeft (w : Nat) (s : Str) : Str := List.replicate (w - s.length) 32 ++ s

/-- `strings.Replace(s, old, new, -1)` for a non-empty `old`; `fuel` bounds the number of bytes looked at. -/
def replaceAll (old new : Str) : Nat → Str → Str
  | 0, s => s
  | _ + 1, [] => []
  | f + 1, c :: s =>
    if hasPrefix (c :: s) old then new ++ replaceAll old new f ((c :: s).drop old.length)
    else c :: replaceAll old new f s

/-- The first statement of `printRawRouter` and `printTreeNode` (router_print.go:34-36, 133-135). -/
def indent (pre : Str) : Str := if pre ≠ [] then replaceAll pLeaf pEmp pre.length pre else pre

/-- `countHandlersForRawRouter` (router_print.go:25-31). `fuel` bounds the number of steps to the root. -/
def countHandlers (heap : Heap α) : Nat → Nat → Nat
  | 0, _ => 0
  | f + 1, i =>
    match heap[i]? with
    | none => 0
    | some n =>
      match n.parent with
      | some p => n.befores.length + n.handlers.length + countHandlers heap f p
      | none => n.befores.length + n.handlers.length

/-- `printRawRoute` (router_print.go:16-22). -/
def rawRoute (heap : Heap α) (pre : Str) (i : Nat) : Str :=
  match heap[i]? with
  | none => []
  | some n =>
    if n.method = [] then pre ++ b!" " ++ n.pattern
    else pre ++ b!" " ++ n.pattern ++ b!" [" ++ padRight 7 n.method ++ b!" : " ++ itoaNat (countHandlers heap heap.length i) ++ b!"]"

/-- `nodes[i].sub` -/
def subOf (heap : Heap α) (i : Nat) : List Nat := ((heap[i]?).map (·.sub)).getD []

/-- The loop of `printRawRouter` (router_print.go:38-52); `walk` is `printRawRouter` itself. -/
def rawLoop (heap : Heap α) (walk : List Nat → Str → List Str) (pre : Str) : List Nat → List Str
  | [] => []
  | [i] => rawRoute heap (pre ++ pLeaf) i :: (if (subOf heap i).length > 0 then walk (subOf heap i) (pre ++ pLeaf) else [])
  | i :: rest =>
    rawRoute heap (pre ++ pBranch) i :: (if (subOf heap i).length > 0 then walk (subOf heap i) (pre ++ pTrunk) else []) ++
      rawLoop heap walk pre rest

/-- `printRawRouter` (router_print.go:33-53). `fuel` bounds the depth. -/
def rawRouter (heap : Heap α) : Nat → List Nat → Str → List Str
  | 0, _, _ => []
  | f + 1, nodes, pre => rawLoop heap (rawRouter heap f) (indent pre) nodes

/-- `PrintRawRouter` (router_print.go:56-63) of an engine made from root `r`; `heap` are the routers at the time of the call.
The root is never nil in an engine made by `Handler`. -/
def printRawRouter (heap : Heap α) (r : Nat) : List Str := rawRouter heap heap.length (subOf heap r) []

/-- `sort.Strings` (router_print.go:81), one step: insertion sort; the sorted list of given strings is unique. -/
def insertStr (s : Str) : List Str → List Str
  | [] => [s]
  | t :: ts => if s ≤ t then s :: t :: ts else t :: insertStr s ts

/-- `sort.Strings` -/
def sortStrings : List Str → List Str
  | [] => []
  | s :: ss => insertStr s (sortStrings ss)

/-- `e.routeStore`: what `Handler` keeps of the dump (router.go:300-302, 320). -/
def storeOf (heap : Heap α) (r : Nat) : Except Panic (RouteStore α) := dumpRoute heap heap.length r newRouteStore

/-- `PrintRawRoutes` (router_print.go:68-89). `keys` are the paths in the map of the method, in the order in which Go runs
through the map. `none`: panic. -/
def printRawRoutes (rs : RouteStore α) (keys : List Str) (method : Str) : Option (List Str) :=
  match checkMethod method with
  | none => none
  | some (m, _) =>
    let routes := (rs.routeMap m).getD Map.empty
    if keys.length = 0 then some [b!"no route"]
    else (sortStrings keys).mapM (fun v =>
      (routes v).map (fun route => b!"[" ++ padLeft 3 (itoaNat route.handlers.length) ++ b!"] " ++ v))

/-- `PrintRawAllRoutes` (router_print.go:93-103). -/
def printRawAllRoutes (rs : List (Route α)) : List Str :=
  if rs.length = 0 then [b!"no route"]
  else rs.map (fun v => b!"[" ++ padRight 7 v.method ++ b!" : " ++ itoaNat v.handlers.length ++ b!"] " ++ v.uri)

/-- `printNode` (router_print.go:124-130) for an end node. -/
def printEnd (pre : Str) (n : EndNode α) : Str :=
  pre ++ b!" " ++ n.seg.pattern ++ b!" [" ++ padLeft 3 (itoaNat n.handlers.length) ++ b!"]"

/-- The second loop of `printTreeNode` (router_print.go:155-165). -/
def printEnds (isRoot : Bool) (pre : Str) : List (EndNode α) → List Str
  | [] => []
  | [n] => if isRoot && n.seg.pattern == [] then [] else [printEnd (pre ++ pLeaf) n]
  | n :: rest =>
    (if isRoot && n.seg.pattern == [] then [] else [printEnd (pre ++ pBranch) n]) ++ printEnds isRoot pre rest

mutual
/-- `printTreeNode` (router_print.go:132-166). The nodes of the loop print their pattern without a count
(router_print.go:128). -/
def printTreeNode (isRoot : Bool) (pre : Str) : Node α → List Str
  | .mk _ subs ends => printSubs (ends.length > 0) (indent pre) subs ++ printEnds isRoot (indent pre) ends
/-- The first loop of `printTreeNode` (router_print.go:138-154). -/
def printSubs (ends : Bool) (pre : Str) : List (Node α) → List Str
  | [] => []
  | n :: rest =>
    if rest.isEmpty && !ends then
      (pre ++ pLeaf ++ b!" " ++ n.seg.pattern) :: printTreeNode false (pre ++ pEmp) n ++ printSubs ends pre rest
    else
      (pre ++ pBranch ++ b!" " ++ n.seg.pattern) :: printTreeNode false (pre ++ pTrunk) n ++ printSubs ends pre rest
end

/-- `PrintRouterTree` (router_print.go:107-122). `none`: panic. -/
def printRouterTree (e : Engine α) (method : Str) : Option (List Str) :=
  match checkMethod method with
  | none => none
  | some (_, idx) =>
    match e.trees idx with
    | none => some [b!"no route"]
    | some root =>
      some ((root.ends.filter (fun v => v.seg.pattern == [])).map
        (fun v => b!"/ [" ++ padLeft 3 (itoaNat v.handlers.length) ++ b!"]") ++ printTreeNode true [] root)

end Water
