import Verif.Model.Router
/-
Registration as the code does it with slices (router.go:104-329): a slice is a window on an array in memory, `append` writes into the
array if there is room, and slices handed to the framework keep pointing at the arrays of the caller. `Router.lean` has lists instead;
`Props/Slices.lean` says when this is the same.
-/
namespace Water
variable {α β : Type}

/-- A slice: the address of its array, where it starts in it, its length, and its capacity. A nil or empty slice has capacity 0. -/
structure Slice where
  arr : Nat
  off : Nat
  len : Nat
  cap : Nat
  deriving DecidableEq, Repr

/-- The nil slice, and `[]T{}`. -/
def Slice.none : Slice := ⟨0, 0, 0, 0⟩

/-- The arrays in memory, by address. They are never freed. -/
abbrev Arrays (β : Type) := List (List β)

/-- The values of a slice. -/
def Slice.read (m : Arrays β) (s : Slice) : List β := ((m.getD s.arr []).drop s.off).take s.len

/-- Writing `xs` into an array from `k` on. -/
def putAt (xs : List β) (k : Nat) (l : List β) : List β := l.take k ++ xs ++ l.drop (k + xs.length)

/-- `append(s, xs...)`. `grow` is the choice of the runtime for the new capacity, if there is no room; `z` is the zero value. -/
def appendS (grow : Nat → Nat → Nat) (z : β) (m : Arrays β) (s : Slice) (xs : List β) : Slice × Arrays β :=
  if s.len + xs.length ≤ s.cap then
    ({ s with len := s.len + xs.length }, m.modify s.arr (putAt xs (s.off + s.len)))
  else
    let cap := max (s.len + xs.length) (grow s.cap (s.len + xs.length))
    (⟨m.length, 0, s.len + xs.length, cap⟩, m ++ [s.read m ++ xs ++ List.replicate (cap - (s.len + xs.length)) z])

/-- `make([]T, n)`. -/
def makeS (z : β) (m : Arrays β) (n : Nat) : Slice × Arrays β := (⟨m.length, 0, n, n⟩, m ++ [List.replicate n z])

/-- `copy(dst, src)`. -/
def copyS (m : Arrays β) (dst : Slice) (src : List β) : Arrays β := m.modify dst.arr (putAt (src.take dst.len) dst.off)

/-- `s[:i]`. -/
def Slice.upTo (s : Slice) (i : Nat) : Slice := { s with len := i }

/-- `s[i:]`. -/
def Slice.downFrom (s : Slice) (i : Nat) : Slice := { s with off := s.off + i, len := s.len - i, cap := s.cap - i }

/-- The insertion of `x` at `i` (tree.go:177-181, 202-206):
`append(l, x)` or `append(l[:i], append([]*node{x}, l[i:]...)...)`. -/
def insertS (grow : Nat → Nat → Nat) (z : β) (m : Arrays β) (l : Slice) (i : Nat) (x : β) : Slice × Arrays β :=
  if i = l.len then appendS grow z m l [x]
  else
    let one : Slice := ⟨m.length, 0, 1, 1⟩
    let m := m ++ [[x]]
    let (t, m) := appendS grow z m one ((l.downFrom i).read m)
    appendS grow z m (l.upTo i) (t.read m)

/-- `Router` (router.go:104-114). `sub` belongs to the router alone and stays a list. -/
structure SNode where
  method : Str
  pattern : Str
  gbefores : Slice
  befores : Slice
  handlers : Slice
  parent : Option Nat
  sub : List Nat

/-- The arrays, the routers, and which arrays the caller made (the `k`-th one is at `own[k]`). -/
structure SState (α : Type) where
  mem : Arrays (HVal α)
  heap : List SNode
  own : List Nat

/-- What a program does until it calls `Handler`. `alloc` makes an array: the literal `[]interface{}{…}`, or the one the compiler makes
for a call `r.GET(p, h1, h2)`. In slices of the caller `arr` is the number of the array. `poke` is an assignment to an element. -/
inductive SOp (α : Type) where
  | alloc (xs : List (HVal α))
  | poke (k i : Nat) (v : HVal α)
  | newRouter
  | before (r : Nat) (s : Slice)
  | group (r : Nat) (pattern : Str)
  | groupMw (r : Nat) (h : α)
  | groupBad
  | use (r : Nat) (s : Slice)
  | handle (r : Nat) (method pattern : Str) (s : Slice)

/-- the slice in memory, if there is one -/
def SState.resolve (st : SState α) (s : Slice) : Option Slice :=
  match st.own[s.arr]? with
  | .none => .none
  | some a => if s.off + s.cap ≤ (st.mem.getD a []).length ∧ s.len ≤ s.cap then some { s with arr := a } else .none

/-- allocate a child of `r` and append it to `r.sub` (router.go:130-135, 162-169) -/
def addChildS (heap : List SNode) (r : Nat) (n : SNode) : List SNode :=
  heap.modify r (fun x => { x with sub := x.sub ++ [heap.length] }) ++ [n]

/-- the handler is nil (router.go:156-160) -/
def nilValue : HVal α → Bool
  | .nil => true
  | _ => false

/-- One step of a program (router.go:116-170). `noSuchRouter` marks what cannot be written in Go. -/
def stepS (grow : Nat → Nat → Nat) (st : SState α) : SOp α → Except Panic (SState α)
  | .alloc xs => .ok { st with mem := st.mem ++ [xs], own := st.own ++ [st.mem.length] }
  | .poke k i v =>
    match st.own[k]? with
    | none => .error .noSuchRouter
    | some a =>
      if i < (st.mem.getD a []).length then .ok { st with mem := st.mem.modify a (fun l => l.set i v) }
      else .error .noSuchRouter
  | .newRouter =>                                                        -- router.go:116-118
    .ok { st with heap := st.heap ++ [⟨[], [], .none, .none, .none, none, []⟩] }
  | .before r s =>                                                       -- router.go:121-127
    match st.heap[r]?, st.resolve s with
    | some n, some s =>
      if n.method ≠ [] then .error .noSuchRouter
      else if n.parent ≠ none then .error .subRouter
      else
        let (b, mem) := appendS grow .nil st.mem n.gbefores (s.read st.mem)
        .ok { st with mem, heap := st.heap.modify r (fun x => { x with gbefores := b }) }
    | _, _ => .error .noSuchRouter
  | .group r pattern =>                                                  -- router.go:129-135
    match st.heap[r]? with
    | none => .error .noSuchRouter
    | some n =>
      if n.method ≠ [] then .error .noSuchRouter
      else .ok { st with heap := addChildS st.heap r ⟨[], pattern, .none, .none, .none, some r, []⟩ }
  | .groupMw r h =>                                                      -- router.go:139-140
    match st.heap[r]? with
    | none => .error .noSuchRouter
    | some n =>
      if n.method ≠ [] then .error .noSuchRouter
      else
        let (b, mem) := appendS grow .nil st.mem n.befores [.ctxFunc h]
        .ok { st with mem, heap := st.heap.modify r (fun x => { x with befores := b }) }
  | .groupBad => .error .unsupported                                     -- router.go:143-144
  | .use r s =>                                                          -- router.go:151-153
    match st.heap[r]?, st.resolve s with
    | some n, some s =>
      if n.method ≠ [] then .error .noSuchRouter
      else
        let (b, mem) := appendS grow .nil st.mem n.befores (s.read st.mem)
        .ok { st with mem, heap := st.heap.modify r (fun x => { x with befores := b }) }
    | _, _ => .error .noSuchRouter
  | .handle r method pattern s =>                                        -- router.go:155-170, 188-214
    match st.heap[r]?, st.resolve s with
    | some n, some s =>
      if n.method ≠ [] ∨ method ∉ methodNames then .error .noSuchRouter
      else if (s.read st.mem).any nilValue then .error .nilHandler
      else .ok { st with heap := addChildS st.heap r ⟨method, pattern, .none, .none, s, some r, []⟩ }
    | _, _ => .error .noSuchRouter

/-- A program up to `Handler`. -/
def runS (grow : Nat → Nat → Nat) (st : SState α) : List (SOp α) → Except Panic (SState α)
  | [] => .ok st
  | op :: ops => do
    let st' ← stepS grow st op
    runS grow st' ops

/-- before anything is done -/
def SState.start : SState α := { mem := [], heap := [], own := [] }

/-- `hs` with the handlers of one list put in front (router.go:239-245, 247-253):
`hstmp := make(…, len(bs)); copy(hstmp, bs); hstmp = append(hstmp, hs...); hs = hstmp`. -/
def frontS (grow : Nat → Nat → Nat) (m : Arrays (HVal α)) (bs hs : Slice) : Slice × Arrays (HVal α) :=
  if bs.len > 0 then
    let (t, m) := makeS .nil m bs.len
    let m := copyS m t (bs.read m)
    appendS grow .nil m t (hs.read m)
  else (hs, m)

/-- The loop of `getRoute` (router.go:232-260). -/
def climbS (grow : Nat → Nat → Nat) (heap : List SNode) : Nat → Arrays (HVal α) → Nat → List Str → Slice →
    Option (List Str × Slice × Arrays (HVal α))
  | 0, _, _, _, _ => none
  | fuel + 1, m, i, ps, hs =>
    match heap[i]? with
    | none => none
    | some n =>
      let ps := ps ++ [trimSpace n.pattern]
      let (hs, m) := if n.handlers.len > 0 then appendS grow .nil m hs (n.handlers.read m) else (hs, m)
      let (hs, m) := frontS grow m n.befores hs
      let (hs, m) := frontS grow m n.gbefores hs
      match n.parent with
      | none => some (ps, hs, m)
      | some p => climbS grow heap fuel m p ps hs

/-- `getRoute` (router.go:228-273). `newHandlers` makes a new slice (engine.go:41-50), which nothing writes to afterwards: a list. -/
def getRouteS (grow : Nat → Nat → Nat) (heap : List SNode) (m : Arrays (HVal α)) (i : Nat) :
    Except Panic (Route α × Arrays (HVal α)) :=
  match heap[i]? with
  | none => .error .noSuchRouter
  | some n =>
    match climbS grow heap heap.length m i [] .none with
    | none => .error .noSuchRouter
    | some (ps, hs, m) => do
      let handlers ← newHandlers (hs.read m)
      let re : Route α := { method := n.method, uri := join [] (reverseStrings ps), variant := [], handlers }
      if re.handlers.length = 0 then .error .emptyHandlers else .ok (re, m)

/-- `dumpRoute` (router.go:217-226). -/
def dumpRouteS (grow : Nat → Nat → Nat) (heap : List SNode) : Nat → Nat → RouteStore α × Arrays (HVal α) →
    Except Panic (RouteStore α × Arrays (HVal α))
  | 0, _, _ => .error .noSuchRouter
  | fuel + 1, r, (rs, m) =>
    match heap[r]? with
    | none => .error .noSuchRouter
    | some n =>
      if n.sub.isEmpty then do
        let (re, m) ← getRouteS grow heap m r
        let rs ← rs.add re
        return (rs, m)
      else n.sub.foldlM (fun x v => dumpRouteS grow heap fuel v x) (rs, m)

/-- A call of one of the option constructors (option.go:13-36); the handlers of `WithNoFoundHandlers` are read when `Handler` applies it. -/
inductive OptS (α : Type) where
  | staticRouter (enable : Bool)
  | noFound (s : Slice)
  | maxMultipart (max : Int)

/-- the option as `Handler` sees it -/
def OptS.now (st : SState α) : OptS α → Opt α
  | .staticRouter b => .staticRouter b
  | .noFound s => .noFound (match st.resolve s with | some s => s.read st.mem | .none => [])
  | .maxMultipart m => .maxMultipart m

/-- `Handler` (router.go:281-329). -/
def handlerS (grow : Nat → Nat → Nat) (rx : Regex) (st : SState α) (r : Nat) (opts : List (OptS α)) :
    Except Panic (Engine α × Arrays (HVal α)) :=
  match st.heap[r]? with
  | none => .error .noSuchRouter
  | some n =>
    if n.method ≠ [] then .error .noSuchRouter
    else if n.parent ≠ none then .error .subRouter
    else do
      let o ← applyOpts noOptions (opts.map (OptS.now st))
      let o ← withBefores o (n.gbefores.read st.mem)
      let (rs, m) ← dumpRouteS grow st.heap st.heap.length r (newRouteStore, st.mem)
      let e ← mkEngine rx o.enableStatic o.noFound rs.routeSlice
      return (e, m)

end Water
