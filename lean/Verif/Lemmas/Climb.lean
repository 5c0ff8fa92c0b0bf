import Verif.Lemmas.Heap
/- Helper lemmas: `getRoute` computes the route of the specification. -/
namespace Water
open Spec
variable {α : Type}

theorem reverseLoop_get (f : Nat) (s : List Str) (i j : Nat) (hj : j < s.length) (hf : j ≤ i + 2 * f) :
    (reverseLoop f s i j).length = s.length ∧
      ∀ k : Nat, (reverseLoop f s i j)[k]? = if i ≤ k ∧ k ≤ j then s[i + j - k]? else s[k]? := by
  induction f generalizing s i j with
  | zero =>
    unfold reverseLoop
    refine ⟨rfl, fun k => ?_⟩
    split
    · congr 1; omega
    · rfl
  | succ f ih =>
    unfold reverseLoop
    by_cases hij : i < j
    · simp only [hij, if_true]
      have hl : ((s.set i (s.getD j [])).set j (s.getD i [])).length = s.length := by simp
      obtain ⟨h1, h2⟩ := ih ((s.set i (s.getD j [])).set j (s.getD i [])) (i + 1) (j - 1) (by rw [hl]; omega) (by omega)
      refine ⟨by rw [h1, hl], fun k => ?_⟩
      rw [h2 k]
      have hi : i < s.length := by omega
      by_cases hk1 : i + 1 ≤ k ∧ k ≤ j - 1
      · rw [if_pos hk1, if_pos (by omega)]
        rw [List.getElem?_set_ne (by omega), List.getElem?_set_ne (by omega)]
        congr 1; omega
      · rw [if_neg hk1]
        by_cases hki : k = i
        · subst hki
          rw [if_pos (by omega), List.getElem?_set_ne (by omega), List.getElem?_set_self (by simpa using hi)]
          rw [show k + j - k = j by omega, List.getElem?_eq_getElem hj]
          simp [List.getD, hj]
        · by_cases hkj : k = j
          · subst hkj
            rw [if_pos (by omega), List.getElem?_set_self (by simpa using hj)]
            rw [show i + k - k = i by omega, List.getElem?_eq_getElem hi]
            simp [List.getD, hi]
          · rw [if_neg (by omega), List.getElem?_set_ne (by omega), List.getElem?_set_ne (by omega)]
    · rw [if_neg hij]
      refine ⟨rfl, fun k => ?_⟩
      split
      · congr 1; omega
      · rfl

theorem reverseStrings_eq (s : List Str) : reverseStrings s = s.reverse := by
  unfold reverseStrings
  cases s with
  | nil => rfl
  | cons x xs =>
    obtain ⟨h1, h2⟩ := reverseLoop_get (x :: xs).length (x :: xs) 0 ((x :: xs).length - 1) (by simp) (by omega)
    apply List.ext_getElem?
    intro k
    rw [h2 k]
    by_cases hk : k < (x :: xs).length
    · rw [if_pos (by simp at hk ⊢; omega), List.getElem?_reverse hk]
      congr 1; omega
    · rw [if_neg (by simp at hk ⊢; omega), List.getElem?_eq_none (by omega), List.getElem?_eq_none (by rw [List.length_reverse]; omega)]

theorem join_nil (l : List Str) : join [] l = l.flatten := by
  induction l with
  | nil => rfl
  | cons x xs ih =>
    cases xs with
    | nil => simp [join]
    | cons y ys => rw [join, ih]; simp

theorem newHandlers_eq (hs : List (HVal α)) :
    newHandlers hs = if (∀ h ∈ hs, (payload h).isSome) then .ok (hs.filterMap payload) else .error .unsupported := by
  induction hs with
  | nil => simp [newHandlers]
  | cons h hs ih =>
    have key : ∀ a, payload h = some a → newHandler h = .ok a := by
      intro a ha; cases h <;> simp_all [payload, newHandler]
    have key2 : payload h = none → newHandler h = .error .unsupported := by
      intro ha; cases h <;> simp_all [payload, newHandler]
    unfold newHandlers
    cases hp : payload h with
    | none =>
      rw [key2 hp, if_neg (by intro hall; have := hall h (by simp); rw [hp] at this; cases this)]
      rfl
    | some a =>
      rw [key a hp, ih]
      simp only [bind, Except.bind, pure, Except.pure]
      by_cases hall : ∀ x ∈ hs, (payload x).isSome
      · rw [if_pos hall, if_pos (by simpa [hp] using hall)]
        simp [hp]
      · rw [if_neg hall, if_neg (by simpa [hp] using hall)]

theorem getElem_handlersOf {ops : List (Op α)} {i : Nat} {c : Made α} (h : (made ops)[i]? = some c) :
    methodOf ops i = c.method ∧ patternOf ops i = c.pattern ∧ handlersOf ops i = c.handlers := by
  unfold methodOf patternOf handlersOf; rw [h]; simp

theorem Spec.Lineage.lt {ms : List (Made α)} {i : Nat} {l : List Nat} (h : Lineage ms i l) : i < ms.length := by
  cases h with
  | root h _ => exact (List.getElem?_eq_some_iff.1 h).1
  | child h _ _ => exact (List.getElem?_eq_some_iff.1 h).1

theorem Spec.Lineage.ne_nil {ms : List (Made α)} {i : Nat} {l : List Nat} (h : Lineage ms i l) : l ≠ [] := by
  cases h <;> simp

theorem Spec.Lineage.last {ms : List (Made α)} {i : Nat} {l : List Nat} (h : Lineage ms i l) : l.getLast? = some i := by
  cases h <;> simp

theorem Spec.Lineage.unique {ms : List (Made α)} {i : Nat} {l l' : List Nat} (h : Lineage ms i l)
    (h' : Lineage ms i l') : l = l' := by
  induction h generalizing l' with
  | root h1 h2 =>
    cases h' with
    | root _ _ => rfl
    | child h3 h4 _ => rw [h1] at h3; cases h3; rw [h2] at h4; cases h4
  | child h1 h2 h3 ih =>
    cases h' with
    | root h4 h5 => rw [h1] at h4; cases h4; rw [h2] at h5; cases h5
    | child h4 h5 h6 => rw [h1] at h4; cases h4; rw [h2] at h5; cases h5; rw [ih h6]

theorem nodeAt {ops : List (Op α)} {heap : Heap α} (h : Reflects ops heap) {i : Nat} {c : Made α}
    (hc : (made ops)[i]? = some c) : ∃ n, heap[i]? = some n ∧ NodeOk ops i n c := by
  have h1 := (List.getElem?_eq_some_iff.1 hc).1
  rw [← h.1] at h1
  exact ⟨heap[i], by simp [h1], h.2 i _ c (by simp [h1]) hc⟩

theorem lineage_exists {ops : List (Op α)} {heap : Heap α} (h : Reflects ops heap) (i : Nat) (hi : i < (made ops).length) :
    ∃ l, Lineage (made ops) i l ∧ l.length ≤ i + 1 := by
  induction i using Nat.strongRecOn with
  | _ i ih =>
    have hc : (made ops)[i]? = some (made ops)[i] := by simp [hi]
    obtain ⟨n, _, hn⟩ := nodeAt h hc
    cases hp : (made ops)[i].parent with
    | none => exact ⟨[i], .root hc hp, by simp⟩
    | some p =>
      obtain ⟨l, h1, h2⟩ := ih p (hn.parentOk p hp).1 (by have := (hn.parentOk p hp).1; omega)
      refine ⟨l ++ [i], .child hc hp h1, ?_⟩
      have := (hn.parentOk p hp).1
      simp; omega

theorem lineage_length {ops : List (Op α)} {heap : Heap α} (h : Reflects ops heap) {i : Nat} {l : List Nat}
    (hl : Lineage (made ops) i l) : l.length ≤ heap.length := by
  obtain ⟨l', h1, h2⟩ := lineage_exists h i hl.lt
  rw [hl.unique h1]
  have := hl.lt
  rw [h.1]; omega

/-- the elements of a lineage are made earlier than its last element -/
theorem lineage_lt {ops : List (Op α)} {heap : Heap α} (h : Reflects ops heap) {i : Nat} {l : List Nat}
    (hl : Lineage (made ops) i l) : ∀ j ∈ l, j ≤ i := by
  induction hl with
  | root => simp
  | child h1 h2 _ ih =>
    obtain ⟨n, _, hn⟩ := nodeAt h h1
    intro j hj
    rcases List.mem_append.1 hj with hj | hj
    · have := ih j hj; have := (hn.parentOk _ h2).1; omega
    · simp at hj; omega

theorem climb_spec {ops : List (Op α)} {heap : Heap α} (h : Reflects ops heap) {i : Nat} {l : List Nat}
    (hl : Lineage (made ops) i l) {r : Nat} (hr : l.head? = some r) (fuel : Nat) (hf : l.length ≤ fuel) (ps : List Str)
    (hs : List (HVal α)) :
    climb heap fuel i ps hs = some (ps ++ l.reverse.map (fun j => trimSpace (patternOf ops j)),
      beforesOf ops r ++ l.flatMap (usesOf ops) ++ (hs ++ handlersOf ops i)) := by
  have hif : ∀ (a b : List (HVal α)), (if a.length > 0 then a ++ b else b) = a ++ b := by
    intro a b; cases a <;> simp
  have hif' : ∀ (a b : List (HVal α)), (if a.length > 0 then b ++ a else b) = b ++ a := by
    intro a b; cases a <;> simp
  induction hl generalizing fuel ps hs with
  | @root i c h1 h2 =>
    obtain ⟨n, hn, ho⟩ := nodeAt h h1
    obtain ⟨e1, e2, e3⟩ := getElem_handlersOf h1
    cases fuel with
    | zero => simp at hf
    | succ fuel =>
      simp only [List.head?_cons, Option.some.injEq] at hr
      subst hr
      unfold climb
      simp only [hn, hif, hif', ho.parent, h2, ho.pattern, ho.befores, ho.gbefores, ho.handlers, e3]
      simp [e2]
  | @child i p c l h1 h2 h3 ih =>
    obtain ⟨n, hn, ho⟩ := nodeAt h h1
    obtain ⟨e1, e2, e3⟩ := getElem_handlersOf h1
    have hr' : l.head? = some r := by
      cases l with
      | nil => exact absurd rfl h3.ne_nil
      | cons x xs => simpa using hr
    cases fuel with
    | zero => simp at hf
    | succ fuel =>
      unfold climb
      simp only [hn, hif, hif', ho.parent, h2, ho.pattern, ho.befores, ho.gbefores, ho.handlers,
        ho.gb (by rw [h2]; simp), List.nil_append]
      rw [ih hr' fuel (by simp at hf; omega)]
      obtain ⟨p1, p2⟩ := ho.parentOk p h2
      have hpl := h3.lt
      have hp : (made ops)[p]? = some (made ops)[p] := by simp [hpl]
      obtain ⟨q, hq, hqo⟩ := nodeAt h hp
      obtain ⟨f1, f2, f3⟩ := getElem_handlersOf hp
      have : handlersOf ops p = [] := by rw [f3]; exact hqo.group (by rw [← f1, p2])
      rw [this, e3]
      simp [e2]

/-- `getRoute` on anything below root `r` -/
theorem getRoute_spec {ops : List (Op α)} {heap : Heap α} (h : Reflects ops heap) {r i : Nat} {l : List Nat}
    (hu : Under ops r i l) :
    getRoute heap i =
      if (∀ x ∈ chainOf ops r i l, (payload x).isSome) then
        (if chainOf ops r i l = [] then .error .emptyHandlers else .ok (routeFor ops r (i, l)))
      else .error .unsupported := by
  obtain ⟨hl, hr⟩ := hu
  have hlt := hl.lt
  have hc : (made ops)[i]? = some (made ops)[i] := by simp [hlt]
  obtain ⟨n, hn, ho⟩ := nodeAt h hc
  unfold getRoute
  rw [hn]
  simp only []
  rw [climb_spec h hl hr _ (lineage_length h hl)]
  simp only [List.nil_append]
  rw [newHandlers_eq]
  have hch : beforesOf ops r ++ l.flatMap (usesOf ops) ++ handlersOf ops i = chainOf ops r i l := rfl
  rw [hch]
  by_cases hall : ∀ x ∈ chainOf ops r i l, (payload x).isSome
  · rw [if_pos hall, if_pos hall]
    simp only [bind, Except.bind]
    by_cases hnil : chainOf ops r i l = []
    · simp [hnil]
    · rw [if_neg hnil, if_neg ?_]
      · unfold routeFor
        simp only [Except.ok.injEq, Route.mk.injEq, and_true]
        refine ⟨by rw [(getElem_handlersOf hc).1]; exact ho.method, ?_⟩
        rw [reverseStrings_eq, join_nil, ← List.map_reverse, List.reverse_reverse]
        rfl
      · intro hlen
        cases hx : chainOf ops r i l with
        | nil => exact hnil hx
        | cons y ys =>
          rw [hx] at hlen hall
          have := hall y (by simp)
          cases hp : payload y with
          | none => rw [hp] at this; cases this
          | some a => simp [hp] at hlen
  · rw [if_neg hall, if_neg hall]
    rfl

end Water
