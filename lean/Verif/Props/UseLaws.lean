import Verif.Props.Router
import Verif.Lemmas.Apps
/- Properties C18 and C19 at the level of the program: what moving a call of `Use`, or giving middleware to
`Group`, does to the routers and to dispatched requests. -/
namespace Water
open Spec Demo
variable {α : Type}

/-- C18 for a dispatched request: whatever the position of a call of `Use` in the history, if the router it was
called on encloses the endpoint of the request, its handlers are in the chain that runs, in call order, before the
endpoint's own. -/
theorem C18_dispatched {rx : Regex} {ops : List (Op α)} {heap : Heap α} (h : runOps [] ops = .ok heap) {r : Nat}
    {opts : List (Opt α)} {e : Engine α} (he : handler rx heap r opts = .ok e) {m path : Str} {n : EndNode α}
    (hd : routeOf rx e m path = some n) :
    ∃ i l, Endpoint ops r i l ∧ methodOf ops i = m ∧
      ∀ pre post g hs, ops = pre ++ [.use g hs] ++ post → g ∈ l →
        ∃ a b, n.handlers.map some = (beforesOf ops r ++ a ++ hs ++ b ++ handlersOf ops i).map payload := by
  obtain ⟨i, l, hend, hm, hh, _⟩ := C17_chain h he hd
  refine ⟨i, l, hend, hm, ?_⟩
  intro pre post g hs hops hg
  obtain ⟨a, b, hc, _⟩ := C18_late_use hend hg hops
  refine ⟨a, b, ?_⟩
  rw [hh, ← hc]
  rfl

private def addB (hs : List (HVal α)) (x : RNode α) : RNode α := { x with befores := x.befores ++ hs }

private theorem modify_comm (heap : Heap α) (i j : Nat) (f g : RNode α → RNode α) (hc : i = j → ∀ x, f (g x) = g (f x)) :
    (heap.modify i f).modify j g = (heap.modify j g).modify i f := by
  apply List.ext_getElem?
  intro k
  simp only [List.getElem?_modify]
  cases heap[k]? with
  | none => simp
  | some x =>
    by_cases h1 : i = k <;> by_cases h2 : j = k <;> simp [h1, h2]
    exact (hc (h1.trans h2.symm) x).symm

private theorem step_addB {heap : Heap α} {g : Nat} (hs : List (HVal α)) {op : Op α} (hg : g < heap.length)
    (ho : usesBy g op = []) :
    step (heap.modify g (addB hs)) op = (step heap op).map (fun h => h.modify g (addB hs)) := by
  have hget : ∀ r : Nat, (heap.modify g (addB hs))[r]? = (heap[r]?).map (fun x => if g = r then addB hs x else x) := by
    intro r
    rw [List.getElem?_modify]
    by_cases h : g = r <;> simp [h]
  have hm : ∀ (r : Nat) (x : RNode α), (if g = r then addB hs x else x).method = x.method := by
    intro r x; by_cases h : g = r <;> simp [h, addB]
  have hp : ∀ (r : Nat) (x : RNode α), (if g = r then addB hs x else x).parent = x.parent := by
    intro r x; by_cases h : g = r <;> simp [h, addB]
  have hadd : ∀ (r : Nat) (c : RNode α), addChild (heap.modify g (addB hs)) r c = (addChild heap r c).modify g (addB hs) := by
    intro r c
    unfold addChild
    rw [show (heap.modify g (addB hs)).length = heap.length from List.length_modify ..]
    have hmc := modify_comm heap g r (addB hs)
      (fun x => { x with sub := x.sub ++ [heap.length] }) (fun _ x => rfl)
    rw [hmc]
    apply List.ext_getElem?
    intro k
    simp only [List.getElem?_modify, List.getElem?_append, List.length_modify]
    by_cases hk : k < heap.length
    · simp [hk]
    · have : g ≠ k := by omega
      simp [hk, this]
  cases op with
  | newRouter =>
    simp only [step, Except.map]
    congr 1
    apply List.ext_getElem?
    intro k
    simp only [List.getElem?_modify, List.getElem?_append, List.length_modify]
    by_cases hk : k < heap.length
    · simp [hk]
    · have : g ≠ k := by omega
      simp [hk, this]
  | before r bs =>
    simp only [step, hget]
    cases heap[r]? with
    | none => rfl
    | some n =>
      simp only [Option.map_some, hm, hp]
      by_cases h1 : n.method ≠ []
      · rw [if_pos h1, if_pos h1]; rfl
      · rw [if_neg h1, if_neg h1]
        by_cases h2 : n.parent ≠ none
        · rw [if_pos h2, if_pos h2]; rfl
        · rw [if_neg h2, if_neg h2]
          simp only [Except.map]
          exact congrArg Except.ok (modify_comm heap g r _ _ (fun _ x => rfl))
  | group r p =>
    simp only [step, hget]
    cases heap[r]? with
    | none => rfl
    | some n =>
      simp only [Option.map_some, hm]
      by_cases h1 : n.method ≠ []
      · rw [if_pos h1, if_pos h1]; rfl
      · rw [if_neg h1, if_neg h1, hadd]; rfl
  | groupMw r x =>
    have hne : g ≠ r := by
      rintro rfl; simp [usesBy] at ho
    simp only [step, hget]
    cases heap[r]? with
    | none => rfl
    | some n =>
      simp only [Option.map_some, hm]
      by_cases h1 : n.method ≠ []
      · rw [if_pos h1, if_pos h1]; rfl
      · rw [if_neg h1, if_neg h1]
        simp only [Except.map]
        exact congrArg Except.ok (modify_comm heap g r _ _ (fun e => absurd e hne))
  | groupBad => rfl
  | use r us =>
    have hne : g = r → us = [] := by
      rintro rfl; simpa [usesBy] using ho
    simp only [step, hget]
    cases heap[r]? with
    | none => rfl
    | some n =>
      simp only [Option.map_some, hm]
      by_cases h1 : n.method ≠ []
      · rw [if_pos h1, if_pos h1]; rfl
      · rw [if_neg h1, if_neg h1]
        simp only [Except.map]
        exact congrArg Except.ok (modify_comm heap g r _ _ (fun e x => by simp [addB, hne e]))
  | handle r m p us =>
    simp only [step, hget]
    cases heap[r]? with
    | none => rfl
    | some n =>
      simp only [Option.map_some, hm]
      by_cases h1 : n.method ≠ [] ∨ m ∉ methodNames
      · rw [if_pos h1, if_pos h1]; rfl
      · rw [if_neg h1, if_neg h1]
        split
        · rfl
        · rw [hadd]; rfl

private theorem step_length {heap heap' : Heap α} {op : Op α} (h : step heap op = .ok heap') : heap.length ≤ heap'.length := by
  cases op <;> simp only [step, addChild] at h
  case newRouter => cases h; simp
  case groupBad => cases h
  all_goals
    split at h
    · cases h
    · repeat' split at h
      all_goals first
        | cases h; done
        | (cases h; simp)

private theorem runOps_addB {g : Nat} (hs : List (HVal α)) : ∀ (ops : List (Op α)) {heap : Heap α}, g < heap.length →
    usesOf ops g = [] →
    runOps (heap.modify g (addB hs)) ops = (runOps heap ops).map (fun h => h.modify g (addB hs)) := by
  intro ops
  induction ops with
  | nil => intro heap _ _; rfl
  | cons op ops ih =>
    intro heap hg hu
    have hu' : usesBy g op = [] ∧ usesOf ops g = [] := by simpa [usesOf] using hu
    unfold runOps
    rw [step_addB hs hg hu'.1]
    cases h1 : step heap op with
    | error e => rfl
    | ok h2 =>
      have := step_length h1
      exact ih (by omega) hu'.2

private theorem step_use {heap : Heap α} {g : Nat} {n : RNode α} {hs : List (HVal α)} (hn : heap[g]? = some n)
    (hm : n.method = []) : step heap (.use g hs) = .ok (heap.modify g (addB hs)) := by
  simp only [step, hn, hm]
  rfl

private theorem use_group {heap heap' : Heap α} {g : Nat} {hs : List (HVal α)} (h : step heap (.use g hs) = .ok heap') :
    ∃ n, heap[g]? = some n ∧ n.method = [] := by
  simp only [step] at h
  cases hn : heap[g]? with
  | none => simp [hn] at h
  | some n =>
    rw [hn] at h
    simp only [] at h
    by_cases hm : n.method = []
    · exact ⟨n, rfl, hm⟩
    · rw [if_pos hm] at h; cases h

private theorem group_stays {pre post : List (Op α)} {h0 h1 : Heap α} {g : Nat} {n : RNode α}
    (h : runOps [] pre = .ok h0) (h' : runOps h0 post = .ok h1) (hn : h0[g]? = some n) (hm : n.method = []) :
    ∃ n', h1[g]? = some n' ∧ n'.method = [] := by
  have hall : runOps [] (pre ++ post) = .ok h1 := by
    rw [runOps_append', h]; exact h'
  have r0 := run_reflects h
  have r1 := run_reflects hall
  have hg : g < h0.length := (List.getElem?_eq_some_iff.1 hn).1
  have hg0 : g < (made pre).length := by rw [← r0.1]; exact hg
  have hg1 : g < h1.length := by rw [r1.1, made_append, List.length_append]; omega
  have e0 := (r0.2 g n _ hn (List.getElem?_eq_getElem hg0)).method
  have e1 := (r1.2 g h1[g] (made pre)[g] (List.getElem?_eq_getElem hg1)
    (by rw [made_append, List.getElem?_append_left hg0, List.getElem?_eq_getElem hg0])).method
  exact ⟨h1[g], List.getElem?_eq_getElem hg1, by rw [e1, ← e0, hm]⟩

/-- C18, a call of `Use` may come late: moving it behind any calls that give that router no middleware leaves
every router, and with them the application, exactly as it was. -/
theorem C18_moved {pre post : List (Op α)} {g : Nat} {hs : List (HVal α)} {heap : Heap α}
    (h : runOps [] (pre ++ [.use g hs] ++ post) = .ok heap) (hu : usesOf post g = []) :
    runOps [] (pre ++ post ++ [.use g hs]) = .ok heap := by
  rw [runOps_append', runOps_append'] at h
  rw [runOps_append', runOps_append']
  cases h1 : runOps [] pre with
  | error e => rw [h1] at h; cases h
  | ok h0 =>
    rw [h1] at h
    simp only [bind, Except.bind] at h ⊢
    simp only [runOps, bind, Except.bind] at h ⊢
    cases h2 : step h0 (.use g hs) with
    | error e => rw [h2] at h; cases h
    | ok h3 =>
      obtain ⟨n, hn, hm⟩ := use_group h2
      rw [step_use hn hm] at h
      simp only [] at h
      have hg : g < h0.length := (List.getElem?_eq_some_iff.1 hn).1
      rw [runOps_addB hs post hg hu] at h
      cases h4 : runOps h0 post with
      | error e => rw [h4] at h; cases h
      | ok h5 =>
        rw [h4] at h
        simp only [Except.map, Except.ok.injEq] at h
        simp only []
        obtain ⟨n', hn', hm'⟩ := group_stays h1 h4 hn hm
        rw [step_use hn' hm']
        simp only [h]

/-- C18, exactly when the order does not matter: the earlier position is as good as the later one if and only if the
router existed already. -/
theorem C18_moved_iff {pre post : List (Op α)} {g : Nat} {hs : List (HVal α)} {heap : Heap α}
    (hu : usesOf post g = []) :
    runOps [] (pre ++ [.use g hs] ++ post) = .ok heap ↔
      runOps [] (pre ++ post ++ [.use g hs]) = .ok heap ∧ g < (made pre).length := by
  constructor
  · intro h
    refine ⟨C18_moved h hu, ?_⟩
    rw [runOps_append', runOps_append'] at h
    cases h1 : runOps [] pre with
    | error e => rw [h1] at h; cases h
    | ok h0 =>
      rw [h1] at h
      simp only [bind, Except.bind, runOps] at h
      cases h2 : step h0 (.use g hs) with
      | error e => rw [h2] at h; cases h
      | ok h3 =>
        obtain ⟨n, hn, _⟩ := use_group h2
        rw [← (run_reflects h1).1]
        exact (List.getElem?_eq_some_iff.1 hn).1
  · rintro ⟨h, hg⟩
    have hall := h
    rw [runOps_append', runOps_append'] at h
    rw [runOps_append', runOps_append']
    cases h1 : runOps [] pre with
    | error e => rw [h1] at h; cases h
    | ok h0 =>
      rw [h1] at h
      simp only [bind, Except.bind, runOps] at h ⊢
      cases h4 : runOps h0 post with
      | error e => rw [h4] at h; cases h
      | ok h5 =>
        rw [h4] at h
        simp only [] at h
        cases h2 : step h5 (.use g hs) with
        | error e => rw [h2] at h; cases h
        | ok h6 =>
          obtain ⟨n', hn', hm'⟩ := use_group h2
          have hpp : runOps [] (pre ++ post) = .ok h5 := by
            rw [runOps_append', h1]; exact h4
          have r0 := run_reflects h1
          have r1 := run_reflects hpp
          have hg0 : g < h0.length := by rw [r0.1]; exact hg
          have hn : h0[g]? = some h0[g] := List.getElem?_eq_getElem hg0
          have e0 := (r0.2 g h0[g] (made pre)[g] hn (List.getElem?_eq_getElem hg)).method
          have e1 := (r1.2 g n' (made pre)[g] hn'
            (by rw [made_append, List.getElem?_append_left hg, List.getElem?_eq_getElem hg])).method
          have hm : h0[g].method = [] := by rw [e0, ← e1, hm']
          rw [step_use hn hm]
          simp only []
          rw [runOps_addB hs post hg0 hu, h4]
          rw [step_use hn' hm'] at h
          simpa [Except.map] using h

/-- The calls an argument of `Group` amounts to: middleware is given to the router `Group` is called on. -/
def asUse (r : Nat) : GArg α → List (Op α)
  | .mw h => [.use r [.ctxFunc h]]
  | .fn body => body
  | .bad => [.groupBad]

/-- C19, what `Group` does with middleware, exactly: `Group(pattern, args...)` on `g` is the making of the group
followed, for each argument in order, by a call of `Use` on `g` itself (not on the new group) or by the calls of the
function; before and after any other calls. -/
theorem C19_exact (a b : List (Op α)) (g : Nat) (p : Str) (args : List (GArg α)) :
    runOps [] (a ++ groupCall g p args ++ b) = runOps [] (a ++ (.group g p :: args.flatMap (asUse g)) ++ b) := by
  have hargs : ∀ (heap : Heap α) (args : List (GArg α)),
      runOps heap (args.flatMap (GArg.ops g)) = runOps heap (args.flatMap (asUse g)) := by
    intro heap args
    induction args generalizing heap with
    | nil => rfl
    | cons x xs ih =>
      have hx : runOps heap (GArg.ops g x) = runOps heap (asUse g x) := by cases x <;> rfl
      rw [List.flatMap_cons, List.flatMap_cons, runOps_append', runOps_append', hx]
      cases runOps heap (asUse g x) with
      | error e => rfl
      | ok h => exact ih h
  have hcall : ∀ heap : Heap α, runOps heap (groupCall g p args) = runOps heap (.group g p :: args.flatMap (asUse g)) := by
    intro heap
    unfold groupCall runOps
    cases step heap (.group g p) with
    | error e => rfl
    | ok h => exact hargs h args
  rw [runOps_append', runOps_append', runOps_append', runOps_append']
  cases runOps [] a with
  | error e => rfl
  | ok h => simp only [bind, Except.bind, hcall]

/-- C19 for a dispatched request: middleware given to `Group` on `g` runs for every request whose endpoint `g`
encloses, also outside the new group. -/
theorem C19_dispatched_partial {rx : Regex} {a b : List (Op α)} {g : Nat} {p : Str} {x y : List (GArg α)} {mw : α} {heap : Heap α}
    (h : runOps [] (a ++ groupCall g p (x ++ [.mw mw] ++ y) ++ b) = .ok heap) {r : Nat}
    {opts : List (Opt α)} {e : Engine α} (he : handler rx heap r opts = .ok e) {m path : Str} {n : EndNode α}
    (hd : routeOf rx e m path = some n) :
    ∃ i l, Endpoint (a ++ groupCall g p (x ++ [.mw mw] ++ y) ++ b) r i l ∧
      methodOf (a ++ groupCall g p (x ++ [.mw mw] ++ y) ++ b) i = m ∧ (g ∈ l → mw ∈ n.handlers) := by
  obtain ⟨i, l, hend, hm, hh, _⟩ := C17_chain h he hd
  refine ⟨i, l, hend, hm, ?_⟩
  intro hg
  have hmem : HVal.ctxFunc mw ∈ usesOf (a ++ groupCall g p (x ++ [.mw mw] ++ y) ++ b) g := by
    simp [usesOf, groupCall, GArg.ops, usesBy]
  have hin : some mw ∈ n.handlers.map some := by
    rw [hh]
    exact List.mem_map.2 ⟨.ctxFunc mw, List.mem_append_left _ (List.mem_append_right _
      (List.mem_flatMap.2 ⟨g, hg, hmem⟩)), rfl⟩
  simpa using hin

/-- the hypotheses of C18 and C19 are met: `Use` 2 on the root moved behind everything else changes nothing, and the
middleware 9 of `Group("/admin", 9)` runs for `/public` -/
example : usesOf ((demoOps.drop 4) : List (Op Nat)) 0 = [] ∧
    withRouter (demoOps.take 3 ++ demoOps.drop 4 ++ [.use 0 [fn 2]]) 0 [] (fun e =>
      run e mGET b!"/" == some [1, 2, 10] && run e mGET b!"/api/v1/users/7" == some [1, 2, 6, 5, 11, 12]) = true ∧
    withRouter c19ops 0 [] (fun e => run e mGET b!"/public" == some [9, 1] && run e mGET b!"/admin/x" == some [9, 2]) = true := by
  decide +kernel

end Water
