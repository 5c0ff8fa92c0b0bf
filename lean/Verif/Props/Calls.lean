import Verif.Spec.Calls
import Verif.Lemmas.Heap
import Verif.Props.Serve
/- C160: when, and in how many pieces, middleware is registered. -/
namespace Water
open Spec
variable {α : Type}

/-- The routers are the same after two histories that make the same things in the same order and give every router the same middleware in the
same order, so `Handler` does the same with them. -/
theorem C160 {ops ops' : List (Op α)} {heap heap' : Heap α} (h : runOps [] ops = .ok heap) (h' : runOps [] ops' = .ok heap')
    (hm : made ops = made ops') (hu : ∀ r, usesOf ops r = usesOf ops' r) (hb : ∀ r, beforesOf ops r = beforesOf ops' r) : heap = heap' := by
  obtain ⟨l, n⟩ := run_reflects h
  obtain ⟨l', n'⟩ := run_reflects h'
  apply List.ext_getElem?
  intro i
  by_cases hi : i < heap.length
  · have hi' : i < heap'.length := by rw [l', ← hm, ← l]; exact hi
    have hc : i < (made ops).length := by rw [← l]; exact hi
    have a := n i _ _ (List.getElem?_eq_getElem hi) (List.getElem?_eq_getElem hc)
    have a' := n' i _ ((made ops)[i]) (List.getElem?_eq_getElem hi') (by rw [← hm]; exact List.getElem?_eq_getElem hc)
    rw [List.getElem?_eq_getElem hi, List.getElem?_eq_getElem hi']
    congr 1
    generalize heap[i] = x at a
    generalize heap'[i] = y at a'
    cases x; cases y
    have e1 := a.method.trans a'.method.symm
    have e2 := a.pattern.trans a'.pattern.symm
    have e3 := a.handlers.trans a'.handlers.symm
    have e4 := a.parent.trans a'.parent.symm
    have e5 := (a.befores.trans (hu i)).trans a'.befores.symm
    have e6 := (a.gbefores.trans (hb i)).trans a'.gbefores.symm
    have e7 := (a.sub.trans (by rw [hm])).trans a'.sub.symm
    simp only at e1 e2 e3 e4 e5 e6 e7
    subst e1 e2 e3 e4 e5 e6 e7
    rfl
  · rw [List.getElem?_eq_none (by omega), List.getElem?_eq_none (by rw [l', ← hm, ← l]; omega)]

private theorem node_of {pre : List (Op α)} {heap : Heap α} (hr : Reflects pre heap) (r : Nat) :
    (heap[r]? = none ∧ (made pre)[r]? = none) ∨
      ∃ n c, heap[r]? = some n ∧ (made pre)[r]? = some c ∧ n.method = c.method ∧ n.parent = c.parent := by
  by_cases hi : r < heap.length
  · have hc : r < (made pre).length := by rw [← hr.1]; exact hi
    have a := hr.2 r _ _ (List.getElem?_eq_getElem hi) (List.getElem?_eq_getElem hc)
    exact .inr ⟨_, _, List.getElem?_eq_getElem hi, List.getElem?_eq_getElem hc, a.method, a.parent⟩
  · exact .inl ⟨List.getElem?_eq_none (by omega), List.getElem?_eq_none (by rw [← hr.1]; omega)⟩

private theorem any_nil (hs : List (HVal α)) : hs.any (fun h => match h with | .nil => true | _ => false) = true ↔ .nil ∈ hs := by
  rw [List.any_eq_true]
  constructor
  · rintro ⟨x, hx, h⟩
    cases x <;> first | exact hx | cases h
  · intro h
    exact ⟨_, h, rfl⟩

private theorem step_accepted {pre : List (Op α)} {heap : Heap α} (hr : Reflects pre heap) (op : Op α) :
    (∃ heap', step heap op = .ok heap') ↔ Accepted (made pre) op := by
  have two : ∀ (b : Prop) [Decidable b] (e : Panic) (x : Heap α),
      ((∃ heap', (if b then .error e else .ok x : Except Panic (Heap α)) = .ok heap') ↔ ¬ b) := by
    intro b _ e x
    by_cases hb : b
    · rw [if_pos hb]
      exact ⟨(nomatch ·), fun h => absurd hb h⟩
    · rw [if_neg hb]
      exact ⟨fun _ => hb, fun _ => ⟨_, rfl⟩⟩
  cases op with
  | newRouter => exact ⟨fun _ => trivial, fun _ => ⟨_, rfl⟩⟩
  | groupBad => exact ⟨(nomatch ·), False.elim⟩
  | before r hs =>
    simp only [step, Accepted, IsRootRouter]
    rcases node_of hr r with ⟨h1, h2⟩ | ⟨n, c, h1, h2, h3, h4⟩
    · rw [h1, h2]
      exact ⟨(nomatch ·), fun ⟨_, h, _⟩ => nomatch h⟩
    · rw [h1, h2]
      simp only [h3, h4]
      by_cases hm : c.method = []
      · rw [if_neg (by simp [hm]), two]
        simp [hm]
      · rw [if_pos hm]
        exact ⟨(nomatch ·), fun ⟨c', h, h', _⟩ => by cases h; exact absurd h' hm⟩
  | group r p =>
    simp only [step, Accepted, IsRouter]
    rcases node_of hr r with ⟨h1, h2⟩ | ⟨n, c, h1, h2, h3, h4⟩
    · rw [h1, h2]
      exact ⟨(nomatch ·), fun ⟨_, h, _⟩ => nomatch h⟩
    · rw [h1, h2]
      simp only [h3]
      rw [two]
      simp
  | groupMw r p =>
    simp only [step, Accepted, IsRouter]
    rcases node_of hr r with ⟨h1, h2⟩ | ⟨n, c, h1, h2, h3, h4⟩
    · rw [h1, h2]
      exact ⟨(nomatch ·), fun ⟨_, h, _⟩ => nomatch h⟩
    · rw [h1, h2]
      simp only [h3]
      rw [two]
      simp
  | use r p =>
    simp only [step, Accepted, IsRouter]
    rcases node_of hr r with ⟨h1, h2⟩ | ⟨n, c, h1, h2, h3, h4⟩
    · rw [h1, h2]
      exact ⟨(nomatch ·), fun ⟨_, h, _⟩ => nomatch h⟩
    · rw [h1, h2]
      simp only [h3]
      rw [two]
      simp
  | handle r m p hs =>
    simp only [step, Accepted, IsRouter]
    rcases node_of hr r with ⟨h1, h2⟩ | ⟨n, c, h1, h2, h3, h4⟩
    · rw [h1, h2]
      exact ⟨(nomatch ·), fun ⟨⟨_, h, _⟩, _⟩ => nomatch h⟩
    · rw [h1, h2]
      simp only [h3]
      by_cases hm : c.method ≠ [] ∨ m ∉ methodNames
      · rw [if_pos hm]
        refine ⟨(nomatch ·), fun ⟨⟨c', h, h'⟩, hmm, _⟩ => ?_⟩
        cases h
        rcases hm with hm | hm
        · exact absurd h' hm
        · exact absurd hmm hm
      · rw [if_neg hm, two]
        simp only [ne_eq, not_or, Decidable.not_not] at hm
        exact ⟨fun h => ⟨⟨c, rfl, hm.1⟩, hm.2, fun hn => h ((any_nil hs).2 hn)⟩, fun h hn => h.2.2 ((any_nil hs).1 hn)⟩

private theorem accepted_more {ms : List (Made α)} (more : List (Made α)) {op : Op α} (h : Accepted ms op) : Accepted (ms ++ more) op := by
  have g : ∀ {i : Nat} {c : Made α}, ms[i]? = some c → (ms ++ more)[i]? = some c := by
    intro i c hi
    obtain ⟨hlt, _⟩ := List.getElem?_eq_some_iff.1 hi
    rw [List.getElem?_append_left hlt]
    exact hi
  have k : ∀ {i : Nat}, IsRouter ms i → IsRouter (ms ++ more) i := fun ⟨c, h1, h2⟩ => ⟨c, g h1, h2⟩
  cases op with
  | newRouter => trivial
  | groupBad => exact h
  | before r hs => obtain ⟨c, h1, h2⟩ := h; exact ⟨c, g h1, h2⟩
  | group r p => exact k h
  | groupMw r p => exact k h
  | use r p => exact k h
  | handle r m p hs => exact ⟨k h.1, h.2⟩

private theorem run_accepted : ∀ (ops pre : List (Op α)) {heap : Heap α}, Reflects pre heap → Fresh pre →
    ((∃ heap', runOps heap ops = .ok heap') ↔ ∀ a op b, ops = a ++ op :: b → Accepted (made (pre ++ a)) op)
  | [], pre, heap, _, _ => by
    constructor
    · intro _ a op b h
      cases a <;> cases h
    · intro _
      exact ⟨heap, rfl⟩
  | x :: ops, pre, heap, hr, hf => by
    unfold runOps
    cases h1 : step heap x with
    | error e =>
      refine ⟨(nomatch ·), fun h => ?_⟩
      have := (step_accepted hr x).2 (by simpa using h [] x ops rfl)
      obtain ⟨h2, h3⟩ := this
      rw [h1] at h3
      cases h3
    | ok h2 =>
      have ih := run_accepted ops (pre ++ [x]) (step_reflects hr hf h1) (step_fresh hr hf h1)
      simp only [bind, Except.bind]
      rw [ih]
      constructor
      · intro h a op b hab
        cases a with
        | nil =>
          obtain ⟨rfl, rfl⟩ := List.cons.inj hab
          simpa using (step_accepted hr x).1 ⟨_, h1⟩
        | cons y a =>
          cases hab
          simpa using h a op b rfl
      · intro h a op b hab
        have := h (x :: a) op b (by rw [hab]; rfl)
        simpa using this

/-- Exactly the histories run without a panic in which every call is accepted after what the calls before it made. Middleware has no part in it. -/
theorem C160_accepted (ops : List (Op α)) :
    (∃ heap, runOps [] ops = .ok heap) ↔ ∀ a op b, ops = a ++ op :: b → Accepted (made a) op := by
  have := run_accepted ops [] (heap := []) reflects_nil (by intro i _; simp [usesOf, beforesOf, kids, made])
  simpa using this

private theorem made_makes (ops : List (Op α)) : made (ops.filter makes) = made ops := by
  induction ops with
  | nil => rfl
  | cons x xs ih =>
    unfold made at ih ⊢
    by_cases hx : makes x = true
    · rw [List.filter_cons_of_pos hx, List.filterMap_cons, List.filterMap_cons, ih]
    · have : madeBy x = none := by simpa [makes] using hx
      rw [List.filter_cons_of_neg hx, List.filterMap_cons, this, ih]

private theorem made_rest (ops : List (Op α)) : made (ops.filter (fun op => !makes op)) = [] := by
  unfold made
  rw [List.filterMap_eq_nil_iff]
  intro x hx
  simpa [makes] using (List.mem_filter.1 hx).2

private theorem flat_last {β : Type} (f : Op α → List β) (hf : ∀ op, makes op = true → f op = []) (ops : List (Op α)) :
    (middlewareLast ops).flatMap f = ops.flatMap f := by
  unfold middlewareLast
  rw [List.flatMap_append]
  have h1 : (ops.filter makes).flatMap f = [] := by
    rw [List.flatMap_eq_nil_iff]
    exact fun x hx => hf x (List.mem_filter.1 hx).2
  rw [h1, List.nil_append]
  induction ops with
  | nil => rfl
  | cons x xs ih =>
    have h1' : (xs.filter makes).flatMap f = [] := by
      rw [List.flatMap_eq_nil_iff]
      exact fun x hx => hf x (List.mem_filter.1 hx).2
    by_cases hx : makes x = true
    · rw [List.filter_cons_of_neg (by simp [hx]), List.flatMap_cons, hf x hx, ih h1', List.nil_append]
    · rw [List.filter_cons_of_pos (by simp [hx]), List.flatMap_cons, List.flatMap_cons, ih h1']

/-- All middleware may be registered at the end: the same routers result. -/
theorem C160_late {ops : List (Op α)} {heap : Heap α} (h : runOps [] ops = .ok heap) : runOps [] (middlewareLast ops) = .ok heap := by
  have hm : made ops = made (middlewareLast ops) := by
    unfold middlewareLast
    rw [made_append, made_makes, made_rest, List.append_nil]
  have hacc := (C160_accepted ops).1 ⟨_, h⟩
  have hok : ∃ heap', runOps [] (middlewareLast ops) = .ok heap' := by
    rw [C160_accepted]
    intro a op b hab
    unfold middlewareLast at hab
    rcases List.append_eq_append_iff.1 hab with ⟨c, hc1, hc2⟩ | ⟨c, hc1, hc2⟩
    · -- the call is in the second part
      have hop : op ∈ ops.filter (fun op => !makes op) := by rw [hc2]; simp
      obtain ⟨s, t, hst⟩ := List.append_of_mem (List.mem_filter.1 hop).1
      have := hacc s op t hst
      have e : made a = made s ++ (made (op :: t)) := by
        have hcm : made c = [] := by
          have := made_rest ops
          rw [hc2, made_append] at this
          exact (List.append_eq_nil_iff.1 this).1
        rw [hc1, made_append, made_makes, hcm, List.append_nil, hst, made_append]
      rw [e]
      exact accepted_more _ this
    · -- the call is in the first part, or is the first of the second
      cases c with
      | nil =>
        have hop : op ∈ ops.filter (fun op => !makes op) := by
          rw [List.nil_append] at hc2
          rw [← hc2]
          simp
        obtain ⟨s, t, hst⟩ := List.append_of_mem (List.mem_filter.1 hop).1
        have := hacc s op t hst
        have e : made a = made s ++ (made (op :: t)) := by
          rw [List.append_nil] at hc1
          rw [← hc1, made_makes, hst, made_append]
        rw [e]
        exact accepted_more _ this
      | cons y c =>
        rw [List.cons_append] at hc2
        obtain ⟨rfl, hc3⟩ := List.cons.inj hc2
        obtain ⟨s, t, hst, hs, ht⟩ := List.filter_eq_append_iff.1 hc1
        obtain ⟨u, v, huv, hu, hp, hv⟩ := List.filter_eq_cons_iff.1 ht
        have := hacc (s ++ u) op v (by rw [hst, huv, List.append_assoc])
        have e : made (s ++ u) = made a := by
          rw [made_append, ← made_makes s, hs]
          have : made u = [] := by
            unfold made
            rw [List.filterMap_eq_nil_iff]
            intro x hx
            simpa [makes] using hu x hx
          rw [this, List.append_nil]
        rw [e] at this
        exact this
  obtain ⟨heap', h'⟩ := hok
  rw [h', C160 h h' hm (fun r => (flat_last _ (fun op hop => by cases op <;> first | rfl | cases hop) ops).symm)
    (fun r => (flat_last _ (fun op hop => by cases op <;> first | rfl | cases hop) ops).symm)]

/-- `Use` with several handlers is `Use` with some of them and then with the others, anywhere in a history; so it is for `Before`. -/
theorem C160_pieces (pre post : List (Op α)) (g : Nat) (a b : List (HVal α)) (heap : Heap α) :
    (runOps [] (pre ++ .use g (a ++ b) :: post) = .ok heap ↔ runOps [] (pre ++ .use g a :: .use g b :: post) = .ok heap) ∧
    (runOps [] (pre ++ .before g (a ++ b) :: post) = .ok heap ↔ runOps [] (pre ++ .before g a :: .before g b :: post) = .ok heap) := by
  have key : ∀ (x y z : Op α), madeBy x = none → madeBy y = none → madeBy z = none →
      (∀ ms, Accepted ms x ↔ Accepted ms y) → (∀ ms, Accepted ms x ↔ Accepted ms z) →
      (∀ r, usesBy r x = usesBy r y ++ usesBy r z) → (∀ r, beforesBy r x = beforesBy r y ++ beforesBy r z) →
      (runOps [] (pre ++ x :: post) = .ok heap ↔ runOps [] (pre ++ y :: z :: post) = .ok heap) := by
    intro x y z mx my mz axy axz ux bx
    have hm : made (pre ++ x :: post) = made (pre ++ y :: z :: post) := by simp [made, mx, my, mz]
    have hu : ∀ r, usesOf (pre ++ x :: post) r = usesOf (pre ++ y :: z :: post) r := by intro r; simp [usesOf, ux]
    have hb : ∀ r, beforesOf (pre ++ x :: post) r = beforesOf (pre ++ y :: z :: post) r := by intro r; simp [beforesOf, bx]
    have hacc : (∃ h, runOps [] (pre ++ x :: post) = .ok h) ↔ (∃ h, runOps [] (pre ++ y :: z :: post) = .ok h) := by
      rw [C160_accepted, C160_accepted]
      constructor
      · intro h s op t hst
        rcases List.append_eq_append_iff.1 hst with ⟨c, rfl, hc⟩ | ⟨c, rfl, hc⟩
        · match c, hc with
          | [], hc =>
            cases hc
            simpa using (axy _).1 (h pre x post rfl)
          | [_], hc =>
            cases hc
            have := (axz _).1 (h pre x post rfl)
            simpa [made, my] using this
          | _ :: _ :: c, hc =>
            cases hc
            have := h (pre ++ x :: c) op t (by simp)
            simpa [made, mx, my, mz] using this
        · cases c with
          | nil =>
            cases hc
            simpa using (axy _).1 (h _ x post rfl)
          | cons w c =>
            cases hc
            exact h s op (c ++ x :: post) (by simp)
      · intro h s op t hst
        rcases List.append_eq_append_iff.1 hst with ⟨c, rfl, hc⟩ | ⟨c, rfl, hc⟩
        · match c, hc with
          | [], hc =>
            cases hc
            simpa using (axy _).2 (h pre y (z :: post) rfl)
          | _ :: c, hc =>
            cases hc
            have := h (pre ++ y :: z :: c) op t (by simp)
            simpa [made, mx, my, mz] using this
        · cases c with
          | nil =>
            cases hc
            simpa using (axy _).2 (h _ y (z :: post) rfl)
          | cons w c =>
            cases hc
            exact h s op (c ++ y :: z :: post) (by simp)
    constructor
    · intro h
      obtain ⟨h', e⟩ := hacc.1 ⟨_, h⟩
      rw [e, C160 h e hm hu hb]
    · intro h
      obtain ⟨h', e⟩ := hacc.2 ⟨_, h⟩
      rw [e, C160 e h hm hu hb]
  refine ⟨key _ _ _ rfl rfl rfl (fun _ => Iff.rfl) (fun _ => Iff.rfl) (fun r => ?_) (fun r => rfl),
    key _ _ _ rfl rfl rfl (fun _ => Iff.rfl) (fun _ => Iff.rfl) (fun r => rfl) (fun r => ?_)⟩
  · simp only [usesBy]
    by_cases h : g = r <;> simp [h]
  · simp only [beforesBy]
    by_cases h : g = r <;> simp [h]

namespace Demo

/-- middleware before, between and after the routes of a root and a group -/
def mixedOps : List (Op Nat) :=
  [.newRouter, .use 0 [.ctxFunc 1], .group 0 b!"/a", .before 0 [.ctxFunc 2], .handle 1 b!"GET" b!"/x" [.ctxFunc 9], .use 1 [.ctxFunc 3], .use 0 [.ctxFunc 4]]

/-- a nontrivial history runs, its calls really move, and the chain of its route has all the middleware -/
theorem C160_demo : (∃ heap, runOps [] mixedOps = .ok heap) ∧ (middlewareLast mixedOps).map makes = [true, true, true, false, false, false, false] ∧
    (match runOps [] mixedOps with
      | .ok heap => (match getRoute heap 2 with | .ok r => r.handlers == [2, 1, 4, 3, 9] | _ => false)
      | _ => false) = true := by
  refine ⟨⟨_, rfl⟩, by decide +kernel, by decide +kernel⟩

end Demo
end Water
