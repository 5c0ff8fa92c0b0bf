import Verif.Spec.Routing
/-
Specification of route selection over the plain list of registrations (registration order), with no tree.
-/
namespace Water.Spec
open Water

/-- One registration, cut into pattern segments: its segments, its handler chain, the path as written. -/
structure Entry (α : Type) where
  segs : List Str
  handlers : List α
  uri : Str

variable {α : Type}

/-- Some element satisfying `P` comes before every element satisfying `Q`. -/
def Before {β : Type} (P Q : β → Prop) (l : List β) : Prop :=
  ∃ l1 x l2, l = l1 ++ x :: l2 ∧ P x ∧ ¬ Q x ∧ ∀ y ∈ l1, ¬ Q y

/-- `h` is the handler chain of the first registration with segments `r`. -/
def FirstHandlers (tbl : List (Entry α)) (r : List Str) (h : List α) : Prop :=
  ∃ l1 x l2, tbl = l1 ++ x :: l2 ∧ x.segs = r ∧ x.handlers = h ∧ ∀ y ∈ l1, y.segs ≠ r

/-- `u` is the path as written in the last registration with segments `r`. -/
def LastUri (tbl : List (Entry α)) (r : List Str) (u : Str) : Prop :=
  ∃ l1 x l2, tbl = l1 ++ x :: l2 ∧ x.segs = r ∧ x.uri = u ∧ ∀ y ∈ l2, y.segs ≠ r

/-- Registration `e` goes through prefix `c` and continues below it. -/
def Through (c : List Str) (e : Entry α) : Prop := ∃ q rest, e.segs = c ++ q :: rest

/-- Two patterns at their first difference: common prefix `c`, then `a` against `b`; or the same segment
`a`, which is last in exactly one of the two. -/
def Differ (r r' c : List Str) (a : Str) (ra : List Str) (b : Str) (rb : List Str) : Prop :=
  r = c ++ a :: ra ∧ r' = c ++ b :: rb ∧ (a ≠ b ∨ (ra = [] ∧ rb ≠ []) ∨ (ra ≠ [] ∧ rb = []))

/-- Which of two accepting patterns wins on a path of `k` segments: decided at the first difference.
* both continue below: the stronger kind; for equal kinds the prefix registered first;
* one continues and the other ends there (in a catch-all): the one that continues;
* both end there, on the last path segment: the stronger kind; for equal kinds the one registered first;
* both end there before the last path segment (both are catch-alls): the one registered LAST. -/
def Wins (tbl : List (Entry α)) (k : Nat) (r r' : List Str) : Prop :=
  ∃ c a ra b rb, Differ r r' c a ra b rb ∧
    ((ra ≠ [] ∧ rb ≠ [] ∧ ((kind a).rank < (kind b).rank ∨
        ((kind a).rank = (kind b).rank ∧ Before (Through (c ++ [a])) (Through (c ++ [b])) tbl))) ∨
     (ra ≠ [] ∧ rb = [] ∧ kind b = .star ∧ c.length + 1 < k) ∨
     (ra = [] ∧ rb = [] ∧ k = c.length + 1 ∧ ((kind a).rank < (kind b).rank ∨
        ((kind a).rank = (kind b).rank ∧ Before (fun e => e.segs = r) (fun e => e.segs = r') tbl))) ∨
     (ra = [] ∧ rb = [] ∧ c.length + 1 < k ∧ kind a = .star ∧ kind b = .star ∧
        Before (fun e => e.segs = r') (fun e => e.segs = r) tbl))

end Water.Spec
