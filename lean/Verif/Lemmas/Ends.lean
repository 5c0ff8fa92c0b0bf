import Verif.Lemmas.BindingDepth
import Verif.Lemmas.Mapping
import Verif.Spec.Ends
/-
When binding a struct comes to an end.
-/
namespace Water
open Spec

/-! ### Bind -/

section
variable {o : BOracle} {E : TyEnv} {form : Form} {files : FormFiles} {tag : Str}

theorem allocates_ptr {fd : Field} {x : Val} {t : Ty} (h : allocates fd x = some t) : fd.ty = .ptr t ∧ ∀ w, x ≠ .ptr w := by
  unfold allocates at h
  split at h
  · cases h
  · cases h
  · rename_i hx
    split at h
    · cases h; exact ⟨by assumption, fun w e => hx w e⟩
    · cases h
  · cases h

/-- A field that exhausts a depth is walked into, and what is in it exhausts the depth below. -/
theorem mapField_deep {f : Nat} {fd : Field} {x : Val} (ht : HasTy E fd.ty x)
    (h : (mapField o form files tag (mapForm o E form files tag (f + 1)) fd x).1 = .fuel) :
    ∃ m y, Enters fd x m y ∧ (mapForm o E form files tag (f + 1) (.struct m) y).1 = .fuel := by
  have hv : Visible fd := by
    apply Classical.byContradiction
    intro hv
    rw [mapField_hidden hv] at h
    cases h
  have hvis : (!fd.exported && !fd.anonymous) = false := by
    rcases hv with h | h <;> simp [h]
  rw [mapField_eq, hvis] at h
  simp only [Bool.false_eq_true, if_false] at h
  cases ha : allocates fd x with
  | none =>
    rw [ha] at h
    simp only at h
    by_cases hd : descends fd fd.ty = true
    · rw [if_pos hd] at h
      rcases hr : mapForm o E form files tag (f + 1) fd.ty x with ⟨out, z⟩
      rw [hr] at h
      have hout : out = .fuel := by
        cases out with
        | ok => exact absurd h trySet_fuel
        | _ => exact h
      subst hout
      cases hty : fd.ty with
      | struct m =>
        rw [hty] at hr ht
        exact ⟨m, x, .value hv hty (hasTy_notPtr ht), by rw [hr]⟩
      | ptr t =>
        rw [hty] at hr ht
        have hp : ∃ m y, t = .struct m ∧ x = .ptr y := by
          cases t <;> cases x <;> first | exact ⟨_, _, rfl, rfl⟩ | (simp [mapForm] at hr)
        obtain ⟨m, y, rfl, rfl⟩ := hp
        have hy : HasTy E (.struct m) y := by
          cases ht with
          | ptr h => exact h
          | plain _ h => exact absurd rfl (h _)
        have han : fd.anonymous = true := by
          unfold descends at hd
          rw [hty] at hd
          simpa [Ty.isStruct] using hd
        refine ⟨m, y, .embedded han hty (hasTy_notPtr hy), ?_⟩
        rw [through_mapForm] at hr
        exact congrArg Prod.fst hr
      | _ => rw [hty] at hr; cases x <;> simp [mapForm] at hr
    · rw [if_neg hd] at h
      exact absurd h trySet_fuel
  | some t =>
    obtain ⟨hty, hx⟩ := allocates_ptr ha
    rw [ha] at h
    simp only at h
    have hx0 : x = .zero := by
      rw [hty] at ht
      cases ht with
      | zero => rfl
      | ptr => exact absurd rfl (hx _)
      | plain _ h => exact absurd rfl (h _)
    subst hx0
    by_cases hex : fd.exported = true
    · rw [hex] at h
      simp only [Bool.not_true, Bool.false_eq_true, if_false] at h
      by_cases hd : descends fd t = true
      · rw [if_pos hd] at h
        rcases hr : mapForm o E form files tag (f + 1) t .zero with ⟨out, z⟩
        rw [hr] at h
        have hout : out = .fuel := by
          cases out with
          | ok => exact absurd h trySet_fuel
          | _ => exact h
        subst hout
        have ht' : ∃ m, t = .struct m := by
          cases t with
          | struct m => exact ⟨m, rfl⟩
          | ptr t => cases t <;> simp [mapForm] at hr
          | _ => simp [mapForm] at hr
        obtain ⟨m, rfl⟩ := ht'
        exact ⟨m, .zero, .alloc hex hty, by rw [hr]⟩
      · rw [if_neg hd] at h
        exact absurd h trySet_fuel
    · rw [Bool.eq_false_iff.2 hex] at h
      cases h

theorem list_bound {α : Type} (l : List α) (P : α → Nat → Prop) (h : ∀ a ∈ l, ∃ F, ∀ f, F ≤ f → P a f) :
    ∃ F, ∀ a ∈ l, ∀ f, F ≤ f → P a f := by
  induction l with
  | nil => exact ⟨0, by simp⟩
  | cons a l ih =>
    obtain ⟨F1, h1⟩ := h a (by simp)
    obtain ⟨F2, h2⟩ := ih (fun b hb => h b (by simp [hb]))
    refine ⟨max F1 F2, fun b hb f hf => ?_⟩
    rcases List.mem_cons.1 hb with rfl | hb
    · exact h1 f (by omega)
    · exact h2 b hb f (by omega)

theorem down_ends {a : Nat × Val} (h : Acc (Down E) a) (hv : HasTy E (.struct a.1) a.2) :
    ∃ F, ∀ f, F ≤ f → (mapForm o E form files tag f (.struct a.1) a.2).1 ≠ .fuel := by
  induction h with
  | intro a _ ih =>
    have each : ∀ p ∈ (E a.1).zip (fieldVals (E a.1).length a.2), ∃ F, ∀ f, F ≤ f →
        (mapField o form files tag (mapForm o E form files tag f) p.1 p.2).1 ≠ .fuel := by
      intro p hp
      obtain ⟨i, hi⟩ := List.getElem?_of_mem hp
      obtain ⟨h1, h2⟩ : (E a.1)[i]? = some p.1 ∧ (fieldVals (E a.1).length a.2)[i]? = some p.2 := by
        rw [List.getElem?_zip_eq_some] at hi
        exact hi
      have ht := hasTy_field hv h1 h2
      by_cases he : ∃ m y, Enters p.1 p.2 m y
      · obtain ⟨m, y, he⟩ := he
        obtain ⟨F, hF⟩ := ih (m, y) ⟨i, p.1, p.2, h1, h2, he⟩ (hasTy_enters ht he)
        refine ⟨F + 1, fun f hf hfuel => ?_⟩
        obtain ⟨f, rfl⟩ : ∃ g, f = g + 1 := ⟨f - 1, by omega⟩
        obtain ⟨m', y', he', hd⟩ := mapField_deep ht hfuel
        obtain ⟨rfl, rfl⟩ := enters_unique he' he
        exact hF (f + 1) (by omega) hd
      · refine ⟨1, fun f hf hfuel => ?_⟩
        obtain ⟨f, rfl⟩ : ∃ g, f = g + 1 := ⟨f - 1, by omega⟩
        obtain ⟨m, y, he', _⟩ := mapField_deep ht hfuel
        exact he ⟨m, y, he'⟩
    obtain ⟨F, hF⟩ := list_bound _ _ each
    refine ⟨F + 1, fun f hf => ?_⟩
    obtain ⟨f, rfl⟩ : ∃ g, f = g + 1 := ⟨f - 1, by omega⟩
    rw [mapForm_struct]
    simp only
    rcases (mapFields_spec (mapField o form files tag (mapForm o E form files tag f)) (E a.1) (fieldVals (E a.1).length a.2)).2 with
      ⟨h, _⟩ | ⟨k, fd, x, y, k1, k2, k3, k4, _⟩
    · rw [h]; simp
    · intro hfuel
      rw [hfuel] at k3
      refine hF (fd, x) ?_ f (by omega) (by rw [k3])
      exact List.mem_of_getElem? (i := k) (List.getElem?_zip_eq_some.2 ⟨k1, k2⟩)

theorem ok_down {f n : Nat} {v : Val} (h : (mapForm o E form files tag f (.struct n) v).1 = .ok) : Acc (Down E) (n, v) := by
  induction f generalizing n v with
  | zero => cases h
  | succ f ih =>
    refine ⟨_, fun b hb => ?_⟩
    obtain ⟨i, fd, x, h1, h2, he⟩ := hb
    obtain ⟨m, y⟩ := b
    rw [mapForm_struct] at h
    simp only at h
    rcases (mapFields_spec (mapField o form files tag (mapForm o E form files tag f)) (E n) (fieldVals (E n).length v)).2 with
      ⟨_, hok⟩ | ⟨k, fd', x', y', _, _, _, k4, _⟩
    · obtain ⟨z, hz, _⟩ := hok i fd x h1 h2
      obtain ⟨_, _, _, w3, _⟩ := mapField_enters (o := o) (form := form) (files := files) (tag := tag)
        (through_mapForm (o := o) (E := E) (form := form) (files := files) (tag := tag) f) he
      apply ih
      apply Classical.byContradiction
      intro hne
      have := w3 hne
      rw [hz] at this
      exact hne (congrArg Prod.fst this).symm
    · exact absurd h k4

/-- If nothing is said about any field, binding comes to its end or goes on, but does not fail. -/
theorem quiet_calm {n : Nat} (hq : ∀ m, Within E n m → ∀ fd ∈ E m, Visible fd → Quiet form files tag fd ∧ Sound fd)
    (f : Nat) : ∀ m v, Within E n m → HasTy E (.struct m) v →
      (mapForm o E form files tag f (.struct m) v).1 = .ok ∨ (mapForm o E form files tag f (.struct m) v).1 = .fuel := by
  induction f with
  | zero => intro m v _ _; exact Or.inr rfl
  | succ f ih =>
    intro m v hw hv
    rw [mapForm_struct]
    simp only
    rcases (mapFields_spec (mapField o form files tag (mapForm o E form files tag f)) (E m) (fieldVals (E m).length v)).2 with
      ⟨h, _⟩ | ⟨k, fd, x, y, k1, k2, k3, k4, _⟩
    · exact Or.inl h
    · right
      have ht := hasTy_field hv k1 k2
      have hmem := List.mem_of_getElem? k1
      by_cases hvis : Visible fd
      · obtain ⟨hqu, hso⟩ := hq m hw fd hmem hvis
        by_cases he : ∃ m' y, Enters fd x m' y
        · obtain ⟨m', y', he⟩ := he
          have hw' : Within E n m' := by
            refine .field hw hmem hvis ?_
            cases he with
            | value _ h => exact Or.inl h
            | alloc _ h => exact Or.inr h
            | embedded _ h => exact Or.inr h
          obtain ⟨_, _, _, w3, w4, _⟩ := mapField_enters (o := o) (form := form) (files := files) (tag := tag)
            (through_mapForm (o := o) (E := E) (form := form) (files := files) (tag := tag) f) he
          rcases ih m' y' hw' (hasTy_enters ht he) with h | h
          · rw [w4 h hqu] at k3
            exact absurd (congrArg Prod.fst k3).symm k4
          · rw [w3 (by rw [h]; simp), h] at k3
            exact (congrArg Prod.fst k3).symm
        · have hok : (mapField o form files tag (mapForm o E form files tag f) fd x).1 = .ok ∨
              (mapField o form files tag (mapForm o E form files tag f) fd x).1 = .fuel := by
            rw [mapField_eq]
            have hvis' : (!fd.exported && !fd.anonymous) = false := by
              rcases hvis with h | h <;> simp [h]
            rw [hvis']
            simp only [Bool.false_eq_true, if_false]
            cases ha : allocates fd x with
            | none =>
              simp only
              have : (if descends fd fd.ty then mapForm o E form files tag f fd.ty x else (.ok, x)).1 = .ok ∨
                  (if descends fd fd.ty then mapForm o E form files tag f fd.ty x else (.ok, x)).1 = .fuel := by
                by_cases hd : descends fd fd.ty = true
                · rw [if_pos hd]
                  cases f with
                  | zero => exact Or.inr rfl
                  | succ f =>
                    by_cases han : fd.anonymous = true
                    · exfalso
                      rcases hso han with ⟨m', hm⟩ | ⟨hex, m', hm⟩
                      · exact he ⟨m', x, .value hvis hm (by rw [hm] at ht; exact hasTy_notPtr ht)⟩
                      · rw [hm] at ht
                        cases ht with
                        | zero => simp [allocates, hm, han] at ha
                        | ptr hy => exact he ⟨m', _, .embedded han hm (hasTy_notPtr hy)⟩
                        | plain _ h => exact absurd rfl (h _)
                    · unfold descends at hd
                      cases hty : fd.ty with
                      | struct m' => exact absurd ⟨m', x, .value hvis hty (by rw [hty] at ht; exact hasTy_notPtr ht)⟩ he
                      | file => left; cases x <;> rfl
                      | time => left; cases x <;> rfl
                      | _ => rw [hty] at hd; simp [Ty.isStruct, han] at hd
                · rw [if_neg hd]; exact Or.inl rfl
              generalize (if descends fd fd.ty then mapForm o E form files tag f fd.ty x else (.ok, x)) = r at this
              obtain ⟨out, z⟩ := r
              simp only at this
              rcases this with rfl | rfl
              · left
                show (tryToSetValue2 o form files tag fd fd.ty z).1 = _
                rw [trySet_quiet hqu]
              · exact Or.inr rfl
            | some t =>
              obtain ⟨hty, hx⟩ := allocates_ptr ha
              have hx0 : x = .zero := by
                rw [hty] at ht
                cases ht with
                | zero => rfl
                | ptr => exact absurd rfl (hx _)
                | plain _ h => exact absurd rfl (h _)
              subst hx0
              have hex : fd.exported = true := by
                rcases hvis with h | h
                · exact h
                · rcases hso h with ⟨m', hm⟩ | ⟨h, _⟩
                  · rw [hm] at hty; cases hty
                  · exact h
              have hnot : descends fd t = false := by
                apply Bool.eq_false_iff.2
                intro hd
                by_cases han : fd.anonymous = true
                · rcases hso han with ⟨m', hm⟩ | ⟨_, m', hm⟩
                  · rw [hm] at hty; cases hty
                  · exact he ⟨m', .zero, .alloc hex hm⟩
                · unfold descends at hd
                  cases t with
                  | struct m' => exact he ⟨m', .zero, .alloc hex hty⟩
                  | file => simp [allocates, hty] at ha
                  | _ => simp [Ty.isStruct, han] at hd
              left
              simp only [hex, hnot, Bool.not_true, Bool.false_eq_true, if_false]
              show (tryToSetValue2 o form files tag fd t .zero).1 = _
              rw [trySet_quiet hqu]
          rw [k3] at hok
          rcases hok with hok | hok
          · exact absurd hok k4
          · exact hok
      · rw [mapField_hidden hvis] at k3
        exact absurd (congrArg Prod.fst k3).symm k4

end

/-! ### Bind2 -/

section
variable {o : BOracle} {E : TyEnv} {src : Source} {tag : Str}

theorem leads_ends {n : Nat} (h : Acc (Leads E src tag) n) : ∃ F, ∀ f, F ≤ f → ∀ v, (walkAll o E src tag f n v).1 ≠ .fuel := by
  induction h with
  | intro n _ ih =>
    obtain ⟨F, hF⟩ := loop_enough (P := fun fd v f => mapping o E src tag f fd.ty fd v) (E n)
      (fun fd hm hv => field_enough fd fd.ty (fun m hb hd hs => ih m ⟨fd, hm, hv, hd, hb, hs⟩))
    exact ⟨F, fun f hf v => hF f hf _⟩

theorem fieldVals_length {n : Nat} {v : Val} (hv : HasTy E (.struct n) v) : (fieldVals (E n).length v).length = (E n).length := by
  cases hv with
  | zero => simp [fieldVals]
  | struct h => exact h
  | plain h => exact absurd rfl (h n)

theorem ok_leads (f : Nat) : ∀ {n : Nat} {v : Val}, HasTy E (.struct n) v → (walkAll o E src tag f n v).1 = .ok → Acc (Leads E src tag) n := by
  induction f using Nat.strongRecOn with
  | _ f ih =>
    intro n v hv h
    refine ⟨_, fun m hm => ?_⟩
    obtain ⟨fd, hmem, hvis, hd, hb, hs⟩ := hm
    obtain ⟨i, hi⟩ := List.getElem?_of_mem hmem
    have hlen : i < (fieldVals (E n).length v).length := by
      rw [fieldVals_length hv]; exact (List.getElem?_eq_some_iff.1 hi).1
    have hx := List.getElem?_eq_getElem hlen
    generalize (fieldVals (E n).length v)[i] = x at hx
    have hty := hasTy_field hv hi hx
    obtain ⟨_, _, ⟨_, hok, _⟩ | ⟨_, _, _, _, _, _, _, _, _, k, _⟩⟩ :=
      mapLoop_spec (fun fd x => mapping o E src tag f fd.ty fd x) (E n) (fieldVals (E n).length v)
    · obtain ⟨s, y, hst, _⟩ := hok i fd x hi hx hvis
      rcases through (o := o) hd hs f hb hty with ⟨t1, _⟩ | ⟨g, t0, t1, _⟩
      · rw [hst] at t1; cases t1
      · refine ih g t0 (hasTy_inside hty hb) ?_
        rcases t1 with t1 | ⟨t1, _⟩
        · rw [← t1, hst]
        · exact t1
    · exact absurd h k

end

end Water
