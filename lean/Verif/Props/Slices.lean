import Verif.Lemmas.Slices3
/-
C110: slices. What is handed to the framework in a slice, and what becomes of it when the slice is written to.
-/
namespace Water
open Spec
variable {α : Type}

/-- **C110** (registration is exact, whatever the growth of slices): the program panics as the calls with their values would, and otherwise
the routers are those of the calls, with the middleware shown at the call and the handlers of a route shown now. -/
theorem C110_exact (grow : Nat → Nat → Nat) {ops : List (SOp α)} (hs : Sounds [] ops) :
    match runS grow .start ops with
    | .error x => runOps [] (callsOf [] ops) = .error x
    | .ok st => ∃ heap, runOps [] (callsOf [] ops) = .ok heap ∧
        view st = heapNow (arraysAfter [] ops) (ops.flatMap givenBy) heap := by
  have h := runS_sim grow sim_start hs
  cases hr : runS grow SState.start ops with
  | error x => rw [hr] at h; exact h
  | ok st =>
    rw [hr] at h
    simp only [] at h
    obtain ⟨heap, h1, h2⟩ := h
    exact ⟨heap, h1, h2.view_eq⟩

/-- **C110** (what is handed over stays): if no array is assigned to after one of its slices was given to a route, the routers are
those of the calls. Missing: programs that do assign to it; `C110_handed_refuted` shows that they change the route. -/
theorem C110_handed_partial (grow : Nat → Nat → Nat) {ops : List (SOp α)} (hs : Sounds [] ops)
    (hp : ops.Pairwise (fun a b => ¬ Disturbs a b)) {st : SState α} (hr : runS grow .start ops = .ok st) :
    runOps [] (callsOf [] ops) = .ok (view st) := by
  have h := runS_sim grow sim_start hs
  rw [hr] at h
  simp only [] at h
  obtain ⟨heap, h1, h2⟩ := h
  rw [h2.view_eq, h1]
  have hw := callsOf_wrote h1
  rw [wrote_undisturbed hs hp] at hw
  rw [heapNow_same (by simpa using hw)]

/-- **C110** (the middleware of a router stays in any case): it is what the slices given to `Use` and `Before` showed at the call. -/
theorem C110_middleware (grow : Nat → Nat → Nat) {ops : List (SOp α)} (hs : Sounds [] ops) {st : SState α}
    (hr : runS grow .start ops = .ok st) : ∃ heap, runOps [] (callsOf [] ops) = .ok heap ∧ (view st).length = heap.length ∧
    ∀ (i : Nat) (n n0 : RNode α), (view st)[i]? = some n → heap[i]? = some n0 → n.gbefores = n0.gbefores ∧ n.befores = n0.befores ∧
      n.method = n0.method ∧ n.pattern = n0.pattern ∧ n.parent = n0.parent ∧ n.sub = n0.sub ∧ n.handlers.length = n0.handlers.length := by
  have h := runS_sim grow sim_start hs
  rw [hr] at h
  simp only [] at h
  obtain ⟨heap, h1, h2⟩ := h
  have hw := callsOf_wrote h1
  refine ⟨heap, h1, by simp [view, h2.len], ?_⟩
  intro i n n0 hi h0
  simp only [view, List.getElem?_map] at hi
  cases hn : st.heap[i]? with
  | none => rw [hn] at hi; exact (nomatch hi)
  | some m =>
    rw [hn] at hi
    simp only [Option.map_some, Option.some.injEq] at hi
    subst hi
    obtain ⟨m0, g, k1, k2, k3, k4, k5, k6, k7, k8⟩ := h2.node i m hn
    rw [h0] at k1
    obtain rfl := Option.some.inj k1
    refine ⟨(k7 true).1, (k7 false).1, k3.symm, k4.symm, k5.symm, k6.symm, ?_⟩
    have hl := Slice.read_length (h2.handlers_fit k8).1
    show (m.handlers.read st.mem).length = _
    rw [hl]
    have hlen : ∀ (ops : List (SOp α)) (arrs : List (List (HVal α))), Sounds arrs ops → (wrote arrs ops).map List.length =
        (ops.flatMap givenBy).map (fun g => match g with | none => 0 | some s => s.len) := by
      intro ops
      induction ops with
      | nil => intro _ _; rfl
      | cons op ops ih =>
        intro arrs hs
        rw [wrote, List.map_append, ih _ hs.2, List.flatMap_cons, List.map_append]
        congr 1
        cases op with
        | handle r m p s =>
          obtain ⟨l, a1, a2, a3⟩ := hs.1
          simp only [givenBy, List.map_cons, List.map_nil, window, a1, Option.getD_some, List.length_take, List.length_drop, List.cons.injEq,
            and_true]
          omega
        | _ => rfl
    have h3 := hlen ops [] hs
    have h4 := congrArg (fun l => (l.map List.length)[i]?) hw
    simp only [List.map_nil, List.nil_append, h3, List.getElem?_map, h0, Option.map_some] at h4
    simp only [List.nil_append] at k2
    rw [k2] at h4
    simp only [Option.map_some, Option.some.injEq] at h4
    rw [h4]
    cases g with
    | none => rw [k8.1]; rfl
    | some s =>
      obtain ⟨a, _, b, _⟩ := k8
      rw [b]

/-- **C110** (the framework writes to no slice of the caller): the arrays of the caller hold what the caller put there. -/
theorem C110_callers (grow : Nat → Nat → Nat) {ops : List (SOp α)} (hs : Sounds [] ops) {st : SState α} (hr : runS grow .start ops = .ok st)
    {k : Nat} {l : List (HVal α)} (hk : (arraysAfter [] ops)[k]? = some l) : ∃ a, st.own[k]? = some a ∧ st.mem[a]? = some l := by
  have h := runS_sim grow sim_start hs
  rw [hr] at h
  simp only [] at h
  obtain ⟨heap, _, h2⟩ := h
  have hlt : k < st.own.length := by rw [h2.own_len]; exact (List.getElem?_eq_some_iff.1 hk).1
  have ha : st.own[k]? = some st.own[k] := List.getElem?_eq_getElem hlt
  exact ⟨_, ha, by rw [← (h2.own_at _ _ ha).2, hk]⟩

/-- **C110** (chains do not disturb one another): `Handler` makes the engine of the routers as they are, and leaves every array there was
as it was, the unused room of slices included. -/
theorem C110_chains (grow : Nat → Nat → Nat) (rx : Regex) {ops : List (SOp α)} (hs : Sounds [] ops) {st : SState α}
    (hr : runS grow .start ops = .ok st) (r : Nat) {opts : List (OptS α)} (ho : ∀ o ∈ opts, OptWithin (arraysAfter [] ops) o) :
    match handlerS grow rx st r opts with
    | .error x => handler rx (view st) r (opts.map (optNow (arraysAfter [] ops))) = .error x
    | .ok (e, m) => handler rx (view st) r (opts.map (optNow (arraysAfter [] ops))) = .ok e ∧ ∀ a, a < st.mem.length → m[a]? = st.mem[a]? := by
  have h := runS_sim grow sim_start hs
  rw [hr] at h
  simp only [] at h
  obtain ⟨heap, _, h2⟩ := h
  have hopts : opts.map (OptS.now st) = opts.map (optNow (arraysAfter [] ops)) := by
    apply List.map_congr_left
    intro o hmem
    have := ho o hmem
    cases o with
    | noFound s =>
      obtain ⟨a, _, h3, h4, _⟩ := h2.resolve this
      simp only [OptS.now, optNow, h3, h4]
    | _ => rfl
  have h3 := handlerS_spec grow rx h2.allFit r opts
  rw [hopts] at h3
  split
  · rename_i x hx
    rw [hx] at h3
    exact h3
  · rename_i e m hx
    rw [hx] at h3
    exact ⟨h3.1, h3.2.2⟩

/-- **C110** (from the program to the engine): if the program disturbs none of its routes, then `Handler` answers with the engine of the
calls, their slices read at the call. Missing: programs that do. -/
theorem C110_engine_partial (grow : Nat → Nat → Nat) (rx : Regex) {ops : List (SOp α)} (hs : Sounds [] ops)
    (hp : ops.Pairwise (fun a b => ¬ Disturbs a b)) (r : Nat) {opts : List (OptS α)} (ho : ∀ o ∈ opts, OptWithin (arraysAfter [] ops) o) :
    (runS grow .start ops >>= fun st => (handlerS grow rx st r opts).map Prod.fst) =
      (runOps [] (callsOf [] ops) >>= fun heap => handler rx heap r (opts.map (optNow (arraysAfter [] ops)))) := by
  have h := C110_exact grow hs
  cases hr : runS grow SState.start ops with
  | error x =>
    rw [hr] at h
    simp only [] at h
    rw [h]
    rfl
  | ok st =>
    rw [C110_handed_partial grow hs hp hr]
    have hc := C110_chains grow rx hs hr r ho
    show (handlerS grow rx st r opts).map Prod.fst = handler rx (view st) r _
    cases hh : handlerS grow rx st r opts with
    | error x => rw [hh] at hc; exact hc.symm
    | ok y =>
      obtain ⟨e, m⟩ := y
      rw [hh] at hc
      exact hc.1.symm

/-- **C110** (a list in a tree, tree.go:177-181, 202-206): the insertion puts the new node at its place, and writes to no array but that
of the list. -/
theorem C110_insert {β : Type} (grow : Nat → Nat → Nat) (z : β) {m : Arrays β} {l : Slice} {ls : List β} (hl : m[l.arr]? = some ls)
    (hfit : l.off + l.cap ≤ ls.length ∧ l.len ≤ l.cap) {i : Nat} (hi : i ≤ l.len) (x : β) :
    (insertS grow z m l i x).1.read (insertS grow z m l i x).2 = (l.read m).take i ++ x :: (l.read m).drop i ∧
    ∀ a, a < m.length → a ≠ l.arr → (insertS grow z m l i x).2[a]? = m[a]? := by
  have hf : Fits m l := ⟨hfit.2, fun _ => by rw [getD_of_get hl]; exact hfit.1⟩
  have hlen := Slice.read_length hf
  have hlt : l.arr < m.length := (List.getElem?_eq_some_iff.1 hl).1
  unfold insertS
  by_cases he : i = l.len
  · rw [if_pos he]
    have ha := appendS_spec grow z hf [x]
    refine ⟨?_, fun a h1 h2 => ha.frame a h1 (.inl h2)⟩
    rw [ha.read, List.take_of_length_le (by omega), List.drop_eq_nil_of_le (by omega)]
  · rw [if_neg he]
    simp only []
    have hone : Fits (m ++ [[x]]) ⟨m.length, 0, 1, 1⟩ := ⟨Nat.le_refl _, fun _ => by simp [List.getD_eq_getElem?_getD]⟩
    have ha := appendS_spec grow z hone ((l.downFrom i).read (m ++ [[x]]))
    generalize appendS grow z (m ++ [[x]]) ⟨m.length, 0, 1, 1⟩ ((l.downFrom i).read (m ++ [[x]])) = r at ha ⊢
    obtain ⟨t, m2⟩ := r
    simp only at ha ⊢
    have hsame : ∀ a, a < m.length → m2[a]? = m[a]? := by
      intro a h
      rw [ha.frame a (by simp; omega) (.inl (by show a ≠ m.length; omega)), List.getElem?_append_left h]
    have hup : Fits m2 (l.upTo i) := by
      refine ⟨by show i ≤ l.cap; omega, fun _ => ?_⟩
      show l.off + l.cap ≤ (m2.getD l.arr []).length
      rw [getD_congr (hsame _ hlt), getD_of_get hl]
      exact hfit.1
    have hb := appendS_spec grow z hup (t.read m2)
    refine ⟨?_, fun a h1 h2 => ?_⟩
    · rw [hb.read, ha.read]
      have e1 : (l.upTo i).read m2 = (l.read m).take i := by
        simp only [Slice.read, Slice.upTo, getD_congr (hsame _ hlt), List.take_take]
        rw [Nat.min_eq_left hi]
      have e2 : Slice.read (m ++ [[x]]) ⟨m.length, 0, 1, 1⟩ = [x] := by simp [Slice.read, List.getD_eq_getElem?_getD]
      have e3 : (l.downFrom i).read (m ++ [[x]]) = (l.read m).drop i := by
        simp only [Slice.read, Slice.downFrom]
        rw [getD_congr (List.getElem?_append_left hlt), List.drop_take, List.drop_drop]
      rw [e1, e2, e3]
      rfl
    · have h3 : a < m2.length := by
        have := ha.grows
        simp at this
        omega
      rw [hb.frame a h3 (.inl h2), hsame a h1]

/-! ### a program -/

namespace Demo

def mwA : HVal Nat := .ctxFunc 1
def mwB : HVal Nat := .ctxFunc 2
def mwC : HVal Nat := .ctxFunc 3
def okH : HVal Nat := .ctxFunc 10
def otherH : HVal Nat := .ctxFunc 11

/-- the middleware arrays are written to again and used twice, one array serves two routes, and the first `Use` leaves room for the second -/
def sliceProg : List (SOp Nat) :=
  [.newRouter, .alloc [mwA, mwB], .use 0 ⟨0, 0, 1, 2⟩, .use 0 ⟨0, 1, 1, 1⟩, .poke 0 0 mwC, .before 0 ⟨0, 0, 2, 2⟩,
   .group 0 b!"/v1", .use 1 ⟨0, 0, 1, 2⟩, .poke 0 1 mwC, .alloc [okH], .handle 1 b!"GET" b!"/a" ⟨1, 0, 1, 1⟩, .handle 1 b!"POST" b!"/a" ⟨1, 0, 1, 1⟩]

/-- room for more than what is needed, as the runtime leaves it -/
def double (c n : Nat) : Nat := max (2 * c) (n + 3)

theorem sliceProg_sounds : Sounds [] sliceProg := by
  refine ⟨trivial, trivial, ⟨_, rfl, ?_, ?_⟩, ⟨_, rfl, ?_, ?_⟩, ⟨_, rfl, ?_⟩, ⟨_, rfl, ?_, ?_⟩, trivial, ⟨_, rfl, ?_, ?_⟩, ⟨_, rfl, ?_⟩, trivial,
    ⟨_, rfl, ?_, ?_⟩, ⟨_, rfl, ?_, ?_⟩, trivial⟩ <;> decide +kernel

theorem sliceProg_undisturbed : sliceProg.Pairwise (fun a b => ¬ Disturbs a b) := by
  have h : sliceProg.Pairwise (fun a b => match a, b with | .handle _ _ _ s, .poke k _ _ => s.arr ≠ k | _, _ => True) := by
    simp [sliceProg]
  refine h.imp ?_
  rintro a b hab ⟨r, m, p, s, i, v, rfl, rfl⟩
  exact hab rfl

/-- the routers it makes: Before C B, Use A B on the router, Use C on the group -/
example : (match runS double .start sliceProg with
    | .ok st => (view st).map (fun n => (n.gbefores, n.befores, n.handlers)) ==
        [([mwC, mwB], [mwA, mwB], []), ([], [mwC], []), ([], [], [okH]), ([], [], [okH])] && st.mem.length == 5
    | .error _ => false) = true := by decide +kernel

example : ∃ st, runS double .start sliceProg = .ok st ∧ runOps [] (callsOf [] sliceProg) = .ok (view st) := by
  cases h : runS double .start sliceProg with
  | error x => exact absurd h (by intro h; have : (match runS double .start sliceProg with | .ok _ => true | .error _ => false) = true := by decide +kernel
                                  rw [h] at this; exact (nomatch this))
  | ok st => exact ⟨st, rfl, C110_handed_partial double sliceProg_sounds sliceProg_undisturbed h⟩

/-- `hs := []interface{}{ok}; r.GET("/", hs...); hs[0] = other` -/
def reused : List (SOp Nat) :=
  [.newRouter, .alloc [okH], .handle 0 b!"GET" b!"/" ⟨0, 0, 1, 1⟩, .poke 0 0 otherH]

theorem reused_sounds : Sounds [] reused := by
  refine ⟨trivial, trivial, ⟨_, rfl, ?_, ?_⟩, ⟨_, rfl, ?_⟩, trivial⟩ <;> decide +kernel

end Demo

/-- **C110** is false without the condition: the slice of a route is kept, not copied (router.go:162-167), so that assigning to it afterwards
changes the route. -/
theorem C110_handed_refuted : ¬ ∀ (grow : Nat → Nat → Nat) (ops : List (SOp Nat)) (st : SState Nat), Sounds [] ops →
    runS grow .start ops = .ok st → runOps [] (callsOf [] ops) = .ok (view st) := by
  intro h
  have hr : (match runS Demo.double .start Demo.reused with | .ok st => (view st).map (·.handlers) == [[], [Demo.otherH]] | .error _ => false) = true := by
    decide +kernel
  have hc : (match runOps [] (callsOf [] Demo.reused) with | .ok heap => heap.map (·.handlers) == [[], [Demo.okH]] | .error _ => false) = true := by
    decide +kernel
  cases hs : runS Demo.double .start Demo.reused with
  | error x => rw [hs] at hr; exact (nomatch hr)
  | ok st =>
    rw [hs] at hr
    rw [h Demo.double Demo.reused st Demo.reused_sounds hs] at hc
    have h1 := eq_of_beq hr
    have h2 := eq_of_beq hc
    rw [h1] at h2
    exact absurd h2 (by decide)

/-- an insertion in the middle of a list with room, in place -/
example : (insertS Demo.double 0 [[1, 2, 4, 0], [9]] ⟨0, 0, 3, 4⟩ 2 3).1 = ⟨0, 0, 4, 4⟩ ∧
    (insertS Demo.double 0 [[1, 2, 4, 0], [9]] ⟨0, 0, 3, 4⟩ 2 3).2.take 2 = [[1, 2, 3, 4], [9]] := by decide +kernel

end Water
