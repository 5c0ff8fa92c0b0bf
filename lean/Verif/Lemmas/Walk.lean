import Verif.Lemmas.Files
/- Where cleaned and joined paths lead. -/
namespace Water
open Spec

/-- an element of a cleaned path that is not `.` -/
def RealElem (e : Str) : Prop := e ≠ [] ∧ slash ∉ e ∧ e ≠ b!"."

theorem cleanStep_real {rooted : Bool} {out : List Str} {e : Str} (h : ∀ x ∈ out, RealElem x) (he : slash ∉ e) :
    ∀ x ∈ cleanStep rooted out e, RealElem x := by
  have happ : ¬ (e = [] ∨ e = b!".") → ∀ x ∈ out ++ [e], RealElem x := by
    intro hne x hx
    rw [List.mem_append] at hx
    rcases hx with hx | hx
    · exact h x hx
    · simp only [List.mem_singleton] at hx
      subst hx
      exact ⟨fun h1 => hne (.inl h1), he, fun h1 => hne (.inr h1)⟩
  unfold cleanStep
  split
  · exact h
  · rename_i h1
    split
    · split
      · split
        · exact h
        · exact happ h1
      · split
        · exact happ h1
        · exact fun x hx => h x ((List.dropLast_sublist _).subset hx)
    · exact happ h1

theorem clean_real (rooted : Bool) (l out : List Str) (h : ∀ x ∈ out, RealElem x) (hl : ∀ x ∈ l, slash ∉ x) :
    ∀ x ∈ l.foldl (cleanStep rooted) out, RealElem x := by
  induction l generalizing out with
  | nil => exact h
  | cons e l ih =>
    rw [List.foldl_cons]
    exact ih _ (cleanStep_real h (hl e (by simp))) (fun x hx => hl x (by simp [hx]))

/-- cleaning a step does not change where the elements lead -/
theorem walk_cleanStep {rooted : Bool} {out : List Str} {e : Str} {st : List Str} (hst : rooted = true → st = [])
    (h : ∀ x ∈ out, RealElem x) :
    (cleanStep rooted out e).foldl walkStep st = walkStep (out.foldl walkStep st) e := by
  unfold cleanStep
  split
  · rename_i h1; rw [walkStep, if_pos h1]
  · rename_i h1
    split
    · rename_i h2
      split
      · rename_i h3
        rw [List.getLast?_eq_none_iff] at h3
        subst h3
        split
        · rename_i h4
          rw [hst h4, walkStep, if_neg h1, if_pos h2]
          rfl
        · rfl
      · rename_i l h3
        split
        · rw [List.foldl_append]; rfl
        · rename_i h4
          obtain ⟨ys, hy⟩ := List.getLast?_eq_some_iff.1 h3
          have hl := h l (List.mem_of_getLast? h3)
          rw [hy, List.dropLast_concat, List.foldl_append]
          simp only [List.foldl_cons, List.foldl_nil]
          rw [show walkStep (ys.foldl walkStep st) l = ys.foldl walkStep st ++ [l] by
            rw [walkStep, if_neg (fun hh => hh.elim hl.1 hl.2.2), if_neg h4], walkStep, if_neg h1, if_pos h2,
            List.dropLast_concat]
    · rw [List.foldl_append]; rfl

theorem walk_cleanSteps {rooted : Bool} {st : List Str} (hst : rooted = true → st = []) (l out : List Str)
    (h : ∀ x ∈ out, RealElem x) (hl : ∀ x ∈ l, slash ∉ x) :
    (l.foldl (cleanStep rooted) out).foldl walkStep st = l.foldl walkStep (out.foldl walkStep st) := by
  induction l generalizing out with
  | nil => rfl
  | cons e l ih =>
    rw [List.foldl_cons, ih _ (cleanStep_real h (hl e (by simp))) (fun x hx => hl x (by simp [hx])),
      walk_cleanStep hst h, List.foldl_cons]

/-- `path.Clean` does not change where a path leads. -/
theorem walk_clean (cwd : List Str) (p : Str) : walk cwd (pathClean p) = walk cwd p := by
  unfold pathClean
  split
  · rename_i h; subst h; rfl
  · rename_i hp
    have hreal := clean_real (p.head? == some slash) (splitB slash p) [] (by simp) (fun x hx => not_mem_of_mem_splitB hx)
    simp only []
    have hw := walk_cleanSteps (rooted := p.head? == some slash) (st := if p.head? = some slash then [] else cwd)
      (by intro h; rw [if_pos (by simpa using h)]) (splitB slash p) [] (by simp) (fun x hx => not_mem_of_mem_splitB hx)
    generalize (splitB slash p).foldl (cleanStep (p.head? == some slash)) [] = es at hreal hw ⊢
    have hwp : walk cwd p = es.foldl walkStep (if p.head? = some slash then [] else cwd) := by
      rw [hw]; rfl
    rw [hwp]
    split
    · rename_i hr
      have hr' : p.head? = some slash := by simpa using hr
      rw [if_pos hr']
      unfold walk
      rw [List.head?_cons, if_pos rfl, splitB_cons_slash, List.foldl_cons]
      rw [show walkStep [] [] = [] from rfl]
      cases hes : es with
      | nil => rfl
      | cons x r => rw [← hes, splitB_join (by simp [hes]) (fun y hy => (hreal y hy).2.1)]
    · rename_i hr
      have hr' : ¬ p.head? = some slash := by simpa using hr
      rw [if_neg hr']
      split
      · rename_i he; subst he; rfl
      · rename_i hne
        unfold walk
        rw [splitB_join hne (fun y hy => (hreal y hy).2.1)]
        rw [if_neg]
        intro hh
        cases hes : es with
        | nil => exact hne hes
        | cons x r =>
          have hx := hreal x (by simp [hes])
          rw [hes] at hh
          have : (join [slash] (x :: r)).head? = x.head? := by
            cases r with
            | nil => rfl
            | cons y r =>
              rw [join_cons_ne (by simp)]
              cases x with
              | nil => exact absurd rfl hx.1
              | cons c t => rfl
          rw [this] at hh
          exact hx.2.1 (List.mem_of_head? hh)

theorem walk_append {a b : Str} (cwd : List Str) (ha : a ≠ []) :
    walk cwd (a ++ slash :: b) = (splitB slash b).foldl walkStep (walk cwd a) := by
  unfold walk
  rw [splitB_append_any, List.foldl_append]
  cases a with
  | nil => exact absurd rfl ha
  | cons c t => rfl

/-- no `..` is left at the root -/
theorem cleanStep_down {out : List Str} {e : Str} (h : b!".." ∉ out) : b!".." ∉ cleanStep true out e := by
  unfold cleanStep
  split
  · exact h
  · split
    · split
      · simpa using h
      · rename_i l h3
        split
        · rename_i h4; rw [h4] at h3; exact absurd (List.mem_of_getLast? h3) h
        · exact fun hx => h ((List.dropLast_sublist _).subset hx)
    · rename_i h2
      simp only [List.mem_append, List.mem_singleton, not_or]
      exact ⟨h, fun hh => h2 hh.symm⟩

theorem clean_down (l out : List Str) (h : b!".." ∉ out) : b!".." ∉ l.foldl (cleanStep true) out := by
  induction l generalizing out with
  | nil => exact h
  | cons e l ih => rw [List.foldl_cons]; exact ih _ (cleanStep_down h)

theorem walk_down {l : List Str} (h : b!".." ∉ l) (st : List Str) :
    l.foldl walkStep st = st ++ l.foldl walkStep [] := by
  induction l generalizing st with
  | nil => simp
  | cons e l ih =>
    rw [List.foldl_cons, List.foldl_cons]
    have h1 : e ≠ b!".." := fun hh => h (by simp [hh])
    have h2 : b!".." ∉ l := fun hh => h (by simp [hh])
    rw [ih h2, ih h2 (walkStep [] e)]
    unfold walkStep
    split
    · simp
    · simp

/-- the elements of a cleaned rooted path -/
theorem splitB_clean_rooted (name : Str) : b!".." ∉ splitB slash (pathClean (slash :: name)) := by
  unfold pathClean
  rw [if_neg (by simp)]
  simp only [List.head?_cons, beq_self_eq_true, if_true]
  have hreal := clean_real true (splitB slash (slash :: name)) [] (by simp) (fun x hx => not_mem_of_mem_splitB hx)
  have hdown := clean_down (splitB slash (slash :: name)) [] (by simp)
  generalize (splitB slash (slash :: name)).foldl (cleanStep true) [] = es at hreal hdown ⊢
  rw [splitB_cons_slash]
  cases hes : es with
  | nil => decide
  | cons x r =>
    rw [← hes, splitB_join (by simp [hes]) (fun y hy => (hreal y hy).2.1)]
    simp only [List.mem_cons, not_or]
    exact ⟨by decide, hdown⟩

theorem walk_dirPath (cwd : List Str) (root name : Str) :
    walk cwd (dirPath root name) = walk cwd root ++ walk [] (slash :: name) := by
  unfold dirPath pathJoin
  have hne : (if root = [] then b!"." else root) ≠ [] := by
    split
    · decide
    · assumption
  rw [if_pos hne, walk_clean, List.append_assoc]
  show walk cwd (_ ++ slash :: pathClean (slash :: name)) = _
  rw [walk_append cwd hne, walk_down (splitB_clean_rooted name)]
  congr 1
  · split
    · rename_i h; subst h; rfl
    · rfl
  · rw [← walk_clean [] (slash :: name)]
    unfold walk
    simp

end Water
