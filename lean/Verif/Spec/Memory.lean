import Verif.Model.TreeHeap
/-
What it means that nodes in memory form trees.
-/
namespace Water.Spec
open Water
variable {α : Type}

/-- The nodes form trees: a parent was made before its children; whatever a node lists is a node that has it as its parent, and is listed
once; and a node with a parent is listed by it. -/
structure Forest (h : THeap α) : Prop where
  up : ∀ (a : Nat) (n : PNode α), h[a]? = some n → ∀ q, n.parent = some q → q < a
  down : ∀ (a : Nat) (n : PNode α), h[a]? = some n → ∀ c ∈ n.subNodes ++ n.endNodes, ∃ x : PNode α, h[c]? = some x ∧ x.parent = some a
  once : ∀ (a : Nat) (n : PNode α), h[a]? = some n → (n.subNodes ++ n.endNodes).Nodup
  listed : ∀ (c : Nat) (x : PNode α) (a : Nat), h[c]? = some x → x.parent = some a → ∃ n : PNode α, h[a]? = some n ∧ c ∈ n.subNodes ++ n.endNodes

/-- `a` is `b`, or its parent, or the parent of its parent, and so on. -/
inductive IsAbove (h : THeap α) (a : Nat) : Nat → Prop where
  | refl : IsAbove h a a
  | up {b q : Nat} {n : PNode α} : h[b]? = some n → n.parent = some q → IsAbove h a q → IsAbove h a b

end Water.Spec
