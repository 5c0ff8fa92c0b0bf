import Verif.Lemmas.Handler
import Verif.Props.Serve
/- C159: the options of `Handler`. -/
namespace Water
open Spec
variable {α : Type}

/-- what an option sets -/
inductive OptKind where
  | static
  | noFound
  | memory
  deriving DecidableEq

/-- the constructor an option was made by (option.go:13-36) -/
def Opt.kind : Opt α → OptKind
  | .staticRouter _ => .static
  | .noFound _ => .noFound
  | .maxMultipart _ => .memory

/-- the last option of a kind -/
def lastOf (k : OptKind) (opts : List (Opt α)) : Option (Opt α) := (opts.filter (fun o => o.kind = k)).getLast?

theorem lastOf_map (opts : List (Opt α)) :
    (lastOf .static opts = (opts.filterMap (fun o => match o with | .staticRouter b => some b | _ => none)).getLast?.map .staticRouter) ∧
    (lastOf .memory opts = (memOf opts).map .maxMultipart) ∧ (lastOf .noFound opts = (noFoundGiven opts).map .noFound) := by
  unfold lastOf memOf noFoundGiven
  simp only [← List.getLast?_map, List.map_filterMap]
  refine ⟨?_, ?_, ?_⟩ <;>
  · congr 1
    induction opts with
    | nil => rfl
    | cons x xs ih => cases x <;> simp_all [Opt.kind]

/-- Two lists of options with the same last option of each kind do the same, if all the options are acceptable: the same engine results, or the
same panic, and the same limit for forms. So options of different kinds may be given in any order, and of those of one kind the last counts. -/
theorem C159 (rx : Regex) (heap : Heap α) (r : Nat) {opts opts' : List (Opt α)} (hok : ∀ x ∈ opts, OptOk x) (hok' : ∀ x ∈ opts', OptOk x)
    (h : ∀ k, lastOf k opts = lastOf k opts') :
    handler rx heap r opts = handler rx heap r opts' ∧ ∀ mem, handlerMem heap r opts mem = handlerMem heap r opts' mem := by
  have hap : applyOpts (α := α) noOptions opts = applyOpts noOptions opts' := by
    obtain ⟨h1, h2⟩ := applyOpts_spec (α := α) noOptions opts
    obtain ⟨h1', h2'⟩ := applyOpts_spec (α := α) noOptions opts'
    obtain ⟨o, ho⟩ := h1.2 hok
    obtain ⟨o', ho'⟩ := h1'.2 hok'
    rw [ho, ho']
    obtain ⟨a, b, c⟩ := h2 o ho
    obtain ⟨a', b', c'⟩ := h2' o' ho'
    obtain ⟨l1, l2, l3⟩ := lastOf_map opts
    obtain ⟨l1', l2', l3'⟩ := lastOf_map opts'
    have e1 := h .static
    have e2 := h .memory
    have e3 := h .noFound
    rw [l1, l1'] at e1
    rw [l2, l2'] at e2
    rw [l3, l3'] at e3
    have inj : ∀ {β : Type} (f : β → Opt α), (∀ x y, f x = f y → x = y) → ∀ x y : Option β, x.map f = y.map f → x = y := by
      intro β f hf x y hxy
      cases x <;> cases y <;> simp at hxy ⊢
      exact hf _ _ hxy
    have e1 := inj _ (fun x y e => by cases e; rfl) _ _ e1
    have e2 := inj _ (fun x y e => by cases e; rfl) _ _ e2
    have e3 := inj _ (fun x y e => by cases e; rfl) _ _ e3
    have a := (a.trans (congrArg (fun z => z.getD (noOptions (α := α)).enableStatic) e1)).trans a'.symm
    rw [e2, ← b'] at b
    rw [e3, ← c'] at c
    cases o; cases o'
    simp only at a b c
    subst a; subst b; subst c
    rfl
  have hd : dumpFor heap r opts = dumpFor heap r opts' := by
    unfold dumpFor
    rw [hap]
  exact ⟨by unfold handler; rw [hd], fun mem => by unfold handlerMem; rw [hd]⟩

/-- Two neighbouring options of different kinds may be exchanged, anywhere in a list of acceptable options. -/
theorem C159_swap (rx : Regex) (heap : Heap α) (r : Nat) (a b : List (Opt α)) (x y : Opt α) (hxy : x.kind ≠ y.kind)
    (hok : ∀ z ∈ a ++ x :: y :: b, OptOk z) :
    handler rx heap r (a ++ x :: y :: b) = handler rx heap r (a ++ y :: x :: b) ∧
      ∀ mem, handlerMem heap r (a ++ x :: y :: b) mem = handlerMem heap r (a ++ y :: x :: b) mem := by
  refine C159 rx heap r hok (fun z hz => hok z ?_) (fun k => ?_)
  · simp only [List.mem_append, List.mem_cons] at hz ⊢
    rcases hz with h | h | h | h <;> simp [h]
  · unfold lastOf
    congr 1
    simp only [List.filter_append, List.filter_cons]
    by_cases hx : x.kind = k <;> by_cases hy : y.kind = k
    · exact absurd (hx.trans hy.symm) hxy
    all_goals simp [hx, hy]

/-- An option before another of its kind may be left out. -/
theorem C159_last (rx : Regex) (heap : Heap α) (r : Nat) (a b c : List (Opt α)) (x y : Opt α) (hxy : x.kind = y.kind)
    (hok : ∀ z ∈ a ++ x :: b ++ y :: c, OptOk z) :
    handler rx heap r (a ++ x :: b ++ y :: c) = handler rx heap r (a ++ b ++ y :: c) ∧
      ∀ mem, handlerMem heap r (a ++ x :: b ++ y :: c) mem = handlerMem heap r (a ++ b ++ y :: c) mem := by
  refine C159 rx heap r hok (fun z hz => hok z ?_) (fun k => ?_)
  · simp only [List.mem_append, List.mem_cons] at hz ⊢
    rcases hz with (h | h) | h | h <;> simp [h]
  · unfold lastOf
    simp only [List.filter_append, List.filter_cons]
    by_cases hx : x.kind = k
    · have hy : y.kind = k := hxy ▸ hx
      simp only [hx, hy, decide_true, if_true]
      rw [List.getLast?_append, List.getLast?_append]
      simp [List.getLast?_cons]
    · simp [hx]

/-- An option that is not acceptable makes `Handler` fail, also if a later one of its kind replaces it. -/
theorem C159_rejected (rx : Regex) (heap : Heap α) (r : Nat) {opts : List (Opt α)} {x : Opt α} (hx : x ∈ opts) (hbad : ¬ OptOk x) (e : Engine α) :
    handler rx heap r opts ≠ .ok e := by
  intro h
  have hn : ∀ o, applyOpts (α := α) noOptions opts ≠ .ok o := fun o ho => hbad ((applyOpts_spec noOptions opts).1.1 ⟨o, ho⟩ x hx)
  unfold handler dumpFor at h
  cases hh : heap[r]? with
  | none => rw [hh] at h; cases h
  | some n =>
    rw [hh] at h
    simp only at h
    by_cases h1 : n.method ≠ []
    · rw [if_pos h1] at h; cases h
    · rw [if_neg h1] at h
      by_cases h2 : n.parent ≠ none
      · rw [if_pos h2] at h; cases h
      · rw [if_neg h2] at h
        cases ha : applyOpts (α := α) noOptions opts with
        | ok o => exact hn o ha
        | error p => rw [ha] at h; cases h

namespace Demo

/-- options given twice and in another order, with an application that answers unknown paths itself -/
theorem C159_demo : withServe [.noFound [.ctxFunc (sayH b!"old")], .staticRouter true, .maxMultipart 5, .noFound [.ctxFunc (sayH b!"nope")]]
    (fun e => bodyOf (ask e .new b!"/x") == b!"nope") = true ∧
    withServe [.maxMultipart 5, .noFound [.ctxFunc (sayH b!"nope")], .staticRouter true]
    (fun e => bodyOf (ask e .new b!"/x") == b!"nope") = true := by
  decide +kernel

end Demo
end Water
