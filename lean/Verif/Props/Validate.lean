import Verif.Spec.Validate
import Verif.Props.Binding
/-
C63, C65: map targets and validation.
-/
namespace Water
open Spec

/-! ### C63 -/

theorem form_at_cons (k k' : Str) (vs : List Str) (form : Form) :
    Form.at ((k', vs) :: form) k = if k' = k then some vs else form.at k := by
  unfold Form.at
  rw [List.find?_cons]
  by_cases h : k' = k
  · simp [h]
  · have : (k' == k) = false := by simpa using h
    simp [h, this]

theorem form_at_none {form : Form} {k : Str} (h : k ∉ form.map Prod.fst) : form.at k = none := by
  unfold Form.at
  rw [Option.map_eq_none_iff, List.find?_eq_none]
  intro e he
  simp only [beq_iff_eq]
  intro hk
  exact h (hk ▸ List.mem_map_of_mem he)

theorem form_at_mem {form : Form} (hn : Names form) {k : Str} {vs : List Str} : form.at k = some vs ↔ (k, vs) ∈ form := by
  induction form with
  | nil => simp [Form.at]
  | cons e form ih =>
    obtain ⟨k', ws⟩ := e
    unfold Names at hn
    simp only [List.map_cons, List.nodup_cons] at hn
    rw [form_at_cons, List.mem_cons, Prod.mk.injEq]
    by_cases h : k' = k
    · subst h
      rw [if_pos rfl]
      constructor
      · intro h; cases h; exact Or.inl ⟨rfl, rfl⟩
      · rintro (h | h)
        · rw [h.2]
        · exact absurd (List.mem_map_of_mem (f := Prod.fst) h) hn.1
    · rw [if_neg h, ih hn.2]
      constructor
      · exact Or.inr
      · rintro (h' | h')
        · exact absurd h'.1.symm h
        · exact h'

theorem form_at_perm {form form' : Form} (hn : Names form) (hp : form.Perm form') (k : Str) : form'.at k = form.at k := by
  have hn' : Names form' := by unfold Names at hn ⊢; exact (hp.map Prod.fst).nodup_iff.1 hn
  cases h : form.at k with
  | some vs => rw [form_at_mem hn'] ; exact hp.mem_iff.1 ((form_at_mem hn).1 h)
  | none =>
    cases h' : form'.at k with
    | none => rfl
    | some vs =>
      have := (form_at_mem hn).2 (hp.mem_iff.2 ((form_at_mem hn').1 h'))
      rw [h] at this; cases this

theorem mapSlices_at (form : Form) (hn : Names form) (m : Map Str (List Str)) (k : Str) :
    mapSlices m form k = (form.at k).or (m k) := by
  induction form generalizing m with
  | nil => rfl
  | cons e form ih =>
    obtain ⟨k', vs⟩ := e
    unfold Names at hn
    simp only [List.map_cons, List.nodup_cons] at hn
    have : mapSlices m ((k', vs) :: form) = mapSlices (Map.set m k' vs) form := rfl
    rw [this, ih hn.2, form_at_cons]
    by_cases h : k' = k
    · subst h
      rw [if_pos rfl, form_at_none hn.1]
      simp [Map.set]
    · rw [if_neg h]
      simp [Map.set, Ne.symm h]

theorem mapStrings_at (form : Form) (hn : Names form) (hv : ∀ e ∈ form, e.2 ≠ []) (m : Map Str Str) :
    ∃ m', mapStrings m form = some m' ∧ ∀ k, m' k = ((form.at k).bind List.getLast?).or (m k) := by
  induction form generalizing m with
  | nil => exact ⟨m, rfl, fun k => rfl⟩
  | cons e form ih =>
    obtain ⟨k', vs⟩ := e
    unfold Names at hn
    simp only [List.map_cons, List.nodup_cons] at hn
    have hne : vs ≠ [] := hv _ List.mem_cons_self
    obtain ⟨x, hx⟩ : ∃ x, vs.getLast? = some x := ⟨vs.getLast hne, List.getLast?_eq_some_getLast hne⟩
    obtain ⟨m', h1, h2⟩ := ih hn.2 (fun e he => hv e (List.mem_cons_of_mem _ he)) (Map.set m k' x)
    refine ⟨m', ?_, ?_⟩
    · unfold mapStrings
      rw [hx]
      exact h1
    · intro k
      rw [h2, form_at_cons]
      by_cases h : k' = k
      · subst h
        rw [if_pos rfl, form_at_none hn.1]
        simp [Map.set, hx]
      · rw [if_neg h]
        simp [Map.set, Ne.symm h]

/-- C63: binding to `*map[string][]string` succeeds; afterwards the map (allocated if it was nil) holds, for every name, the
values of the form if it has the name, and otherwise what it held before. -/
theorem C63_slices (o : BOracle) (E : TyEnv) (f : Nat) (m : Option (Map Str (List Str))) (form : Form) (hn : Names form)
    (files : FormFiles) (tag : Str) :
    ∃ m', MapForm o E f (.slices m) form files tag = (.ok, .slices (some m')) ∧
      ∀ k, m' k = (form.at k).or ((m.getD Map.empty) k) :=
  ⟨_, rfl, fun k => mapSlices_at form hn _ k⟩

/-- C63: binding to `*map[string]string` a form in which every name has a value succeeds; afterwards the map (allocated if it
was nil) holds, for every name of the form, its last value, and otherwise what it held before. -/
theorem C63_strings (o : BOracle) (E : TyEnv) (f : Nat) (m : Option (Map Str Str)) (form : Form) (hn : Names form)
    (hv : ∀ e ∈ form, e.2 ≠ []) (files : FormFiles) (tag : Str) :
    ∃ m', MapForm o E f (.strings m) form files tag = (.ok, .strings (some m')) ∧
      ∀ k, m' k = ((form.at k).bind List.getLast?).or ((m.getD Map.empty) k) := by
  obtain ⟨m', h1, h2⟩ := mapStrings_at form hn hv (m.getD Map.empty)
  refine ⟨m', ?_, h2⟩
  unfold MapForm
  simp only
  rw [h1]

/-- C63: the order in which Go runs through the form does not matter. -/
theorem C63_order (o : BOracle) (E : TyEnv) (f : Nat) (form form' : Form) (hn : Names form) (hp : form.Perm form')
    (files : FormFiles) (tag : Str) :
    (∀ m, MapForm o E f (.slices m) form' files tag = MapForm o E f (.slices m) form files tag) ∧
    (∀ m, (∀ e ∈ form, e.2 ≠ []) → MapForm o E f (.strings m) form' files tag = MapForm o E f (.strings m) form files tag) ∧
    ∀ m, (∃ e ∈ form, e.2 = []) → (MapForm o E f (.strings m) form files tag).1 = .panic ∧
      (MapForm o E f (.strings m) form' files tag).1 = .panic := by
  have hn' : Names form' := by unfold Names at hn ⊢; exact (hp.map Prod.fst).nodup_iff.1 hn
  refine ⟨?_, ?_, ?_⟩
  · intro m
    obtain ⟨m1, h1, h2⟩ := C63_slices o E f m form hn files tag
    obtain ⟨m2, h3, h4⟩ := C63_slices o E f m form' hn' files tag
    rw [h1, h3]
    have : m1 = m2 := by
      funext k
      rw [h2, h4, form_at_perm hn hp]
    rw [this]
  · intro m hv
    obtain ⟨m1, h1, h2⟩ := C63_strings o E f m form hn hv files tag
    obtain ⟨m2, h3, h4⟩ := C63_strings o E f m form' hn' (fun e he => hv e (hp.mem_iff.2 he)) files tag
    rw [h1, h3]
    have : m1 = m2 := by
      funext k
      rw [h2, h4, form_at_perm hn hp]
    rw [this]
  · have key : ∀ (form : Form) (m : Map Str Str), (∃ e ∈ form, e.2 = []) → mapStrings m form = none := by
      intro form
      induction form with
      | nil => rintro m ⟨e, he, _⟩; cases he
      | cons e form ih =>
        obtain ⟨k, vs⟩ := e
        rintro m ⟨e, he, hx⟩
        unfold mapStrings
        cases hl : vs.getLast? with
        | none => rfl
        | some x =>
          simp only
          rcases List.mem_cons.1 he with rfl | he
          · simp only at hx; subst hx; simp at hl
          · exact ih _ ⟨e, he, hx⟩
    intro m hx
    refine ⟨?_, ?_⟩
    · unfold MapForm; simp only; rw [key form _ hx]
    · unfold MapForm
      simp only
      obtain ⟨e, he, h⟩ := hx
      rw [key form' _ ⟨e, hp.mem_iff.1 he, h⟩]

example : Names [(b!"a", [b!"1", b!"2"]), (b!"b", [b!"3"])] := by unfold Names; decide

/-- C63: a name without values makes the binding to `*map[string]string` panic (no request has one). -/
example : (MapForm Demo.bindO Demo.bindEnv 0 (.strings none) [(b!"a", [])] [] b!"form").1 = .panic := by decide

/-! ### C65 -/

theorem validate_both (check : Nat → Option Nat) :
    (∀ v, NoNil v → ∃ e, validateObj check v = some e ∧ (e = none ↔ Valid check v)) ∧
    ∀ vs, NoNils vs → ∃ es, validateElems check vs = some es ∧ (es = [] ↔ AllValid check vs) := by
  have hcons : ∀ v vs, (NoNil v → ∃ e, validateObj check v = some e ∧ (e = none ↔ Valid check v)) →
      (NoNils vs → ∃ es, validateElems check vs = some es ∧ (es = [] ↔ AllValid check vs)) →
      NoNils (v :: vs) → ∃ es, validateElems check (v :: vs) = some es ∧ (es = [] ↔ AllValid check (v :: vs)) := by
    intro v vs h1 h2 hn
    obtain ⟨e, he, hv⟩ := h1 hn.1
    obtain ⟨es, hes, hvs⟩ := h2 hn.2
    refine ⟨e.toList ++ es, ?_, ?_⟩
    · unfold validateElems; rw [he]; simp only; rw [hes]
    · unfold AllValid
      rw [← hv, ← hvs]
      cases e <;> simp
  have main : ∀ v, NoNil v → ∃ e, validateObj check v = some e ∧ (e = none ↔ Valid check v) := by
    intro v
    refine VObj.rec (motive_1 := fun v => NoNil v → ∃ e, validateObj check v = some e ∧ (e = none ↔ Valid check v))
      (motive_2 := fun vs => NoNils vs → ∃ es, validateElems check vs = some es ∧ (es = [] ↔ AllValid check vs))
      ?_ ?_ ?_ ?_ ?_ ?_ ?_ ?_ v
    · intro _; exact ⟨_, rfl, by simp [Valid]⟩
    · intro h; exact h.elim
    · intro v ih h; exact ih h
    · intro id _; exact ⟨_, rfl, by simp [Valid]⟩
    · intro vs ih h
      obtain ⟨es, h1, h2⟩ := ih h
      unfold validateObj
      rw [h1]
      cases es with
      | nil => exact ⟨none, rfl, by simp only [Valid]; rw [← h2]; simp⟩
      | cons e es => exact ⟨_, rfl, by simp only [Valid]; rw [← h2]; simp⟩
    · intro _; exact ⟨none, rfl, by simp [Valid]⟩
    · intro _; exact ⟨[], rfl, by simp [AllValid]⟩
    · intro v vs h1 h2 h; exact hcons v vs h1 h2 h
  refine ⟨main, ?_⟩
  intro vs
  induction vs with
  | nil => intro _; exact ⟨[], rfl, by simp [AllValid]⟩
  | cons v vs ih => exact hcons v vs (main v) ih

/-- C65: a value without nil pointers passes validation if and only if all structs in it, at any depth of slices and pointers,
are valid (and there is no nil interface). -/
theorem C65_accepts (check : Nat → Option Nat) (v : VObj) (hn : NoNil v) : validateObj check v = some none ↔ Valid check v := by
  obtain ⟨e, he, hv⟩ := (validate_both check).1 v hn
  rw [he, ← hv]
  simp

/-- C65: a slice passes if and only if every element passes on its own. -/
theorem C65_elements (check : Nat → Option Nat) (vs : List VObj) (hn : NoNil (.list vs)) :
    validateObj check (.list vs) = some none ↔ ∀ v ∈ vs, validateObj check v = some none := by
  rw [C65_accepts check _ hn]
  simp only [Valid]
  have hn' : NoNils vs := hn
  clear hn
  induction vs with
  | nil => simp [AllValid]
  | cons v vs ih =>
    unfold AllValid
    rw [← C65_accepts check v hn'.1]
    simp only [List.mem_cons, forall_eq_or_imp]
    exact and_congr_right fun _ => ih hn'.2

/-- C65: otherwise the error has one entry for each element that fails, in order: the error of that element. -/
theorem C65_entries (check : Nat → Option Nat) (vs : List VObj) (hn : NoNil (.list vs)) (e : VErr)
    (h : validateObj check (.list vs) = some (some e)) :
    ∃ es, e = .slice es ∧ es = vs.filterMap (fun v => (validateObj check v).join) := by
  have key : ∀ vs, NoNils vs → validateElems check vs = some (vs.filterMap (fun v => (validateObj check v).join)) := by
    intro vs
    induction vs with
    | nil => intro _; rfl
    | cons v vs ih =>
      intro hn
      obtain ⟨e, he, _⟩ := (validate_both check).1 v hn.1
      unfold validateElems
      rw [he]
      simp only
      rw [ih hn.2]
      cases e <;> simp [he]
  unfold validateObj at h
  rw [key vs hn] at h
  generalize vs.filterMap (fun v => (validateObj check v).join) = es at h
  cases es with
  | nil => simp at h
  | cons e' es => simp only [Option.some.injEq] at h; exact ⟨_, h.symm, rfl⟩

theorem texts_eq (text : Nat → Str) (es : List VErr) (i : Nat) :
    VErr.texts text i es = es.mapIdx (fun j e => line (i + j) (VErr.text text e)) := by
  induction es generalizing i with
  | nil => rfl
  | cons e es ih =>
    unfold VErr.texts
    rw [ih, List.mapIdx_cons]
    simp only [line, Nat.add_zero]
    congr 2
    funext j e
    rw [show i + 1 + j = i + (j + 1) by omega]

/-- C65: the text of the error has one line for each failing element, with a number in brackets: its position among the
failing ones. -/
theorem C65_text (text : Nat → Str) (es : List VErr) :
    VErr.text text (.slice es) = join b!"\n" (es.mapIdx (fun j e => line j (VErr.text text e))) := by
  conv => lhs; unfold VErr.text
  rw [texts_eq]
  simp only [Nat.zero_add]

/-- C65, partial: the number is the index of the element if no valid element comes before an invalid one. Missing: in general
it is not (`C65_refuted`). -/
theorem C65_label_partial (check : Nat → Option Nat) (text : Nat → Str) (bad good : List VObj) (hn : NoNil (.list (bad ++ good)))
    (hb : ∀ v ∈ bad, ¬ Valid check v) (hg : ∀ v ∈ good, Valid check v) (hne : bad ≠ []) :
    ∃ es : List VErr, validateObj check (.list (bad ++ good)) = some (some (.slice es)) ∧ es.length = bad.length ∧
      VErr.text text (.slice es) = join b!"\n" (es.mapIdx (fun j e => line j (VErr.text text e))) ∧
      ∀ (i : Nat) v, (bad ++ good)[i]? = some v → (validateObj check v).join = es[i]? := by
  have hnn : ∀ vs, NoNils vs → ∀ v ∈ vs, NoNil v := by
    intro vs
    induction vs with
    | nil => intro _ v hv; cases hv
    | cons a vs ih =>
      intro h v hv
      rcases List.mem_cons.1 hv with rfl | hv
      · exact h.1
      · exact ih h.2 v hv
  have hall := hnn _ hn
  have hgood : ∀ v ∈ good, (validateObj check v).join = none := by
    intro v hv
    rw [(C65_accepts check v (hall v (List.mem_append_right _ hv))).2 (hg v hv)]
    rfl
  have hbad : ∀ v ∈ bad, ∃ e, validateObj check v = some (some e) := by
    intro v hv
    obtain ⟨e, he, hval⟩ := (validate_both check).1 v (hall v (List.mem_append_left _ hv))
    cases e with
    | none => exact absurd (hval.1 rfl) (hb v hv)
    | some e => exact ⟨e, he⟩
  have hfm : (bad ++ good).filterMap (fun v => (validateObj check v).join) = bad.filterMap (fun v => (validateObj check v).join) := by
    rw [List.filterMap_append, List.filterMap_eq_nil_iff.2 hgood, List.append_nil]
  have hlen : ∀ l : List VObj, (∀ v ∈ l, ∃ e, validateObj check v = some (some e)) →
      (l.filterMap (fun v => (validateObj check v).join)).length = l.length ∧
      ∀ (i : Nat) v, l[i]? = some v → (validateObj check v).join = (l.filterMap (fun v => (validateObj check v).join))[i]? := by
    intro l
    induction l with
    | nil => intro _; exact ⟨rfl, by simp⟩
    | cons a l ih =>
      intro h
      obtain ⟨e, he⟩ := h a List.mem_cons_self
      obtain ⟨h1, h2⟩ := ih (fun v hv => h v (List.mem_cons_of_mem _ hv))
      have hj : (validateObj check a).join = some e := by rw [he]; rfl
      rw [List.filterMap_cons, hj]
      refine ⟨by simp [h1], ?_⟩
      intro i v hi
      cases i with
      | zero => simp at hi; subst hi; simp [hj]
      | succ i => simpa using h2 i v (by simpa using hi)
  obtain ⟨h1, h2⟩ := hlen bad hbad
  have hnv : validateObj check (.list (bad ++ good)) ≠ some none := by
    intro hc
    rw [C65_elements check _ hn] at hc
    obtain ⟨a, ha⟩ := List.exists_mem_of_ne_nil bad hne
    obtain ⟨e, he⟩ := hbad a ha
    have := hc a (List.mem_append_left _ ha)
    rw [he] at this; cases this
  obtain ⟨e, he, _⟩ := (validate_both check).1 (.list (bad ++ good)) hn
  cases e with
  | none => exact absurd he hnv
  | some e =>
    obtain ⟨es, rfl, hes⟩ := C65_entries check _ hn e he
    rw [hfm] at hes
    subst hes
    refine ⟨_, he, h1, C65_text text _, ?_⟩
    intro i v hi
    by_cases hlt : i < bad.length
    · exact h2 i v (by rw [List.getElem?_append_left hlt] at hi; exact hi)
    · rw [List.getElem?_append_right (by omega)] at hi
      rw [hgood v (List.mem_of_getElem? hi)]
      rw [List.getElem?_eq_none (by omega)]

/-- C65 does not hold for the labels: in a slice of a valid and an invalid struct, the error of element 1 is labelled 0. -/
theorem C65_refuted : ∃ e, validateObj (fun id => if id = 0 then none else some 7) (.list [.struct 0, .struct 1]) = some (some e) ∧
    VErr.text (fun _ => b!"bad") e = b!"[0]: bad" :=
  ⟨_, rfl, by decide⟩

/-- C65: a nil pointer in a slice makes validation panic. -/
theorem C65_refuted_nil (check : Nat → Option Nat) : validateObj check (.list [.nilPtr]) = none := rfl

example : NoNil (.list [.struct 1, .ptr (.struct 0), .list [.struct 0, .struct 1]]) := by simp [NoNil, NoNils]

end Water
