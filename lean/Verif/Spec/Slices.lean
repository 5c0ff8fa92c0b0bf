import Verif.Model.Slices
/-
What a program says, if slices are read at the time of the call. Only the arrays of the caller are looked at here.
-/
namespace Water.Spec
open Water
variable {α : Type}

/-- the values a slice of the caller shows -/
def window (arrs : List (List (HVal α))) (s : Slice) : List (HVal α) := (((arrs[s.arr]?).getD []).drop s.off).take s.len

/-- what a step does to the arrays of the caller -/
def arraysStep (arrs : List (List (HVal α))) : SOp α → List (List (HVal α))
  | .alloc xs => arrs ++ [xs]
  | .poke k i v => arrs.modify k (fun l => l.set i v)
  | _ => arrs

/-- and a program -/
def arraysAfter (arrs : List (List (HVal α))) (ops : List (SOp α)) : List (List (HVal α)) := ops.foldl arraysStep arrs

/-- the registration call, with the values the slice shows now -/
def callNow (arrs : List (List (HVal α))) : SOp α → List (Op α)
  | .alloc _ | .poke _ _ _ => []
  | .newRouter => [.newRouter]
  | .before r s => [.before r (window arrs s)]
  | .group r p => [.group r p]
  | .groupMw r h => [.groupMw r h]
  | .groupBad => [.groupBad]
  | .use r s => [.use r (window arrs s)]
  | .handle r m p s => [.handle r m p (window arrs s)]

/-- the registration calls of a program, each with the values its slice shows at that time -/
def callsOf (arrs : List (List (HVal α))) : List (SOp α) → List (Op α)
  | [] => []
  | op :: ops => callNow arrs op ++ callsOf (arraysStep arrs op) ops

/-- the slice lies within its array -/
def InArray (arrs : List (List (HVal α))) (s : Slice) : Prop :=
  ∃ l, arrs[s.arr]? = some l ∧ s.off + s.cap ≤ l.length ∧ s.len ≤ s.cap

/-- the step is one of a Go program: its slices lie within their arrays, and so do its assignments -/
def SoundStep (arrs : List (List (HVal α))) : SOp α → Prop
  | .poke k i _ => ∃ l, arrs[k]? = some l ∧ i < l.length
  | .before _ s | .use _ s | .handle _ _ _ s => InArray arrs s
  | _ => True

def Sounds (arrs : List (List (HVal α))) : List (SOp α) → Prop
  | [] => True
  | op :: ops => SoundStep arrs op ∧ Sounds (arraysStep arrs op) ops

/-- the slices given to the routers, in the order the routers were made; only endpoints get one -/
def givenBy : SOp α → List (Option Slice)
  | .newRouter | .group _ _ => [none]
  | .handle _ _ _ s => [some s]
  | _ => []

/-- the caller registers a route with a slice, and later assigns to an element of its array -/
def Disturbs (a b : SOp α) : Prop := ∃ r m p s i v, a = .handle r m p s ∧ b = .poke s.arr i v

/-- an option, with the values its slice shows now -/
def optNow (arrs : List (List (HVal α))) : OptS α → Opt α
  | .staticRouter b => .staticRouter b
  | .noFound s => .noFound (window arrs s)
  | .maxMultipart m => .maxMultipart m

/-- the slice of the option lies within its array -/
def OptWithin (arrs : List (List (HVal α))) : OptS α → Prop
  | .noFound s => InArray arrs s
  | _ => True

/-- the routers as they are once the arrays hold `arrs`: an endpoint has what its slice shows now, the rest is as at the call -/
def heapNow (arrs : List (List (HVal α))) (given : List (Option Slice)) (heap : Heap α) : Heap α :=
  List.zipWith (fun n g => match g with | none => n | some s => { n with handlers := window arrs s }) heap given

/-- a router with its slices read -/
def shown (m : Arrays (HVal α)) (n : SNode) : RNode α :=
  { method := n.method, pattern := n.pattern, gbefores := n.gbefores.read m, befores := n.befores.read m, handlers := n.handlers.read m,
    parent := n.parent, sub := n.sub }

/-- the routers with their slices read -/
def view (st : SState α) : Heap α := st.heap.map (shown st.mem)

end Water.Spec
