import Verif.Lemmas.Binding
/-
The bound on the depth of the recursion in the model of `_mapForm` does not matter once it is large enough.
-/
namespace Water
open Spec

section
variable {o : BOracle} {E : TyEnv} {form : Form} {files : FormFiles} {tag : Str}

/-- what follows a walk in `mapField`, for a field that was not allocated -/
def afterWalk (o : BOracle) (form : Form) (files : FormFiles) (tag : Str) (fd : Field) : BOut × Val → BOut × Val
  | (.ok, x) => tryToSetValue2 o form files tag fd fd.ty x
  | (out, x) => (out, x)

/-- what follows a walk in `mapField`, for a field that was allocated -/
def afterAlloc (o : BOracle) (form : Form) (files : FormFiles) (tag : Str) (fd : Field) (t : Ty) : BOut × Val → BOut × Val
  | (.ok, x) => ((tryToSetValue2 o form files tag fd t x).1, .ptr (tryToSetValue2 o form files tag fd t x).2)
  | (out, x) => (out, .ptr x)

theorem mapField_eq (walk : Ty → Val → BOut × Val) (fd : Field) (x : Val) :
    mapField o form files tag walk fd x =
      if !fd.exported && !fd.anonymous then (.ok, x)
      else match allocates fd x with
        | some t =>
          if !fd.exported then (.panic, x)
          else afterAlloc o form files tag fd t (if descends fd t then walk t .zero else (.ok, .zero))
        | none => afterWalk o form files tag fd (if descends fd fd.ty then walk fd.ty x else (.ok, x)) := rfl

theorem mapField_mono {w1 w2 : Ty → Val → BOut × Val} (hw : ∀ t y, (w1 t y).1 ≠ .fuel → w2 t y = w1 t y) {fd : Field} {x : Val}
    (h : (mapField o form files tag w1 fd x).1 ≠ .fuel) :
    mapField o form files tag w2 fd x = mapField o form files tag w1 fd x := by
  rw [mapField_eq] at h ⊢
  rw [mapField_eq]
  split
  · rfl
  · rename_i hv
    rw [if_neg hv] at h
    cases ha : allocates fd x with
    | none =>
      rw [ha] at h
      simp only at h ⊢
      by_cases hd : descends fd fd.ty = true
      · simp only [hd, if_true] at h ⊢
        rw [hw]
        intro hf
        rcases hr : w1 fd.ty x with ⟨o1, z⟩
        rw [hr] at h hf
        simp only at hf
        subst hf
        exact h rfl
      · simp only [hd, Bool.false_eq_true, if_false]
    | some t =>
      rw [ha] at h
      simp only at h ⊢
      split
      · rfl
      · rename_i hx
        rw [if_neg hx] at h
        by_cases hd : descends fd t = true
        · simp only [hd, if_true] at h ⊢
          rw [hw]
          intro hf
          rcases hr : w1 t .zero with ⟨o1, z⟩
          rw [hr] at h hf
          simp only at hf
          subst hf
          exact h rfl
        · simp only [hd, Bool.false_eq_true, if_false]

theorem mapFields_mono {s1 s2 : Field → Val → BOut × Val} (hs : ∀ fd x, (s1 fd x).1 ≠ .fuel → s2 fd x = s1 fd x)
    (fds : List Field) (vs : List Val) (h : (mapFields s1 fds vs).1 ≠ .fuel) : mapFields s2 fds vs = mapFields s1 fds vs := by
  induction fds generalizing vs with
  | nil => rfl
  | cons fd fds ih =>
    cases vs with
    | nil => rfl
    | cons v vs =>
      unfold mapFields at h ⊢
      have hne : (s1 fd v).1 ≠ .fuel := by
        intro hf
        rcases hr : s1 fd v with ⟨o1, z⟩
        rw [hr] at h hf
        simp only at hf
        subst hf
        exact h rfl
      rw [hs fd v hne]
      rcases hr : s1 fd v with ⟨o1, z⟩
      rw [hr] at h
      cases o1 with
      | ok => simp only at h ⊢; rw [ih vs h]
      | _ => rfl

theorem mapForm_succ (f : Nat) (t : Ty) (v : Val) (h : (mapForm o E form files tag f t v).1 ≠ .fuel) :
    mapForm o E form files tag (f + 1) t v = mapForm o E form files tag f t v := by
  induction f generalizing t v with
  | zero => exact absurd rfl h
  | succ f ih =>
    have key : ∀ n v, (mapForm o E form files tag (f + 1) (.struct n) v).1 ≠ .fuel →
        mapForm o E form files tag (f + 1 + 1) (.struct n) v = mapForm o E form files tag (f + 1) (.struct n) v := by
      intro n v h
      rw [mapForm_struct] at h
      rw [mapForm_struct, mapForm_struct, mapFields_mono (s1 := mapField o form files tag (mapForm o E form files tag f)) _ _ _ h]
      intro fd x hx
      exact mapField_mono (fun t y ht => ih t y ht) hx
    cases t with
    | struct n => exact key n v h
    | ptr t =>
      cases t with
      | struct n =>
        cases v with
        | ptr y =>
          rw [through_mapForm] at h
          rw [through_mapForm, through_mapForm, key n y h]
        | _ => rfl
      | _ => cases v <;> rfl
    | _ => rfl

/-- Two depths that suffice give the same. -/
theorem mapForm_mono {f g : Nat} (hfg : f ≤ g) (t : Ty) (v : Val) (h : (mapForm o E form files tag f t v).1 ≠ .fuel) :
    mapForm o E form files tag g t v = mapForm o E form files tag f t v := by
  induction hfg with
  | refl => rfl
  | step _ ih => rw [mapForm_succ _ _ _ (by rw [ih]; exact h), ih]

/-- A struct type with a nil pointer to itself, behind fields the form does not name, exhausts every depth. -/
theorem endless {n i : Nat} {fd : Field} (hi : (E n)[i]? = some fd) (hx : fd.exported = true) (ht : fd.ty = .ptr (.struct n))
    (hq : ∀ (j : Nat) fd', j < i → (E n)[j]? = some fd' → (Scalar fd' ∧ Quiet form files tag fd') ∨ ¬ Visible fd') (f : Nat) :
    (mapForm o E form files tag f (.struct n) .zero).1 = .fuel := by
  induction f with
  | zero => rfl
  | succ f ih =>
    rw [mapForm_struct]
    simp only
    have hlen : i < (E n).length := (List.getElem?_eq_some_iff.1 hi).1
    have hv : (fieldVals (E n).length .zero)[i]? = some .zero := by simp [fieldVals, hlen]
    obtain ⟨wrap, _, _, w3, _, _⟩ := mapField_enters (o := o) (form := form) (files := files) (tag := tag)
      (through_mapForm (o := o) (E := E) (form := form) (files := files) (tag := tag) f) (.alloc hx ht)
    have hstep := w3 (by rw [ih]; simp)
    rw [ih] at hstep
    rcases (mapFields_spec (mapField o form files tag (mapForm o E form files tag f)) (E n) (fieldVals (E n).length .zero)).2 with
      ⟨_, h⟩ | ⟨k, fd', x, y, k1, k2, k3, k4, k5, k6, k7⟩
    · obtain ⟨y, hy, _⟩ := h i fd .zero hi hv
      rw [hstep] at hy
      simp at hy
    · have hx0 : x = .zero := by
        simp only [fieldVals, List.getElem?_replicate] at k2
        split at k2
        · cases k2; rfl
        · cases k2
      rcases Nat.lt_trichotomy k i with hk | hk | hk
      · exfalso
        rcases hq k fd' hk k1 with ⟨hp, hqu⟩ | hnv
        · rw [mapField_plain hp, trySet_quiet hqu] at k3
          simp only [Prod.mk.injEq] at k3
          exact k4 k3.1.symm
        · rw [mapField_hidden hnv] at k3
          simp only [Prod.mk.injEq] at k3
          exact k4 k3.1.symm
      · subst hk
        rw [hi] at k1
        cases k1
        subst hx0
        rw [hstep] at k3
        simp only [Prod.mk.injEq] at k3
        exact k3.1.symm
      · obtain ⟨y, hy, _⟩ := k6 i fd .zero hk hi hv
        rw [hstep] at hy
        simp at hy

end

end Water
