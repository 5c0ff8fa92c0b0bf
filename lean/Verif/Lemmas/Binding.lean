import Verif.Spec.Binding
import Verif.Lemmas.Strconv
import Verif.Lemmas.Str
import Verif.Lemmas.Text
/-
Lemmas on form binding: tags, the loop over fields, and what happens to a field deep inside a struct.
-/
namespace Water
open Spec

/-! ### tags -/

theorem takeWhile_all {p : UInt8 → Bool} {s : Str} (h : ∀ x ∈ s, p x = true) : s.takeWhile p = s ∧ s.dropWhile p = [] := by
  have h1 := List.takeWhile_append_of_pos (l₂ := []) h
  have h2 := List.dropWhile_append_of_pos (l₂ := []) h
  simp at h1 h2
  exact ⟨h1, h2⟩

theorem ne_all {s : Str} {c : UInt8} (h : c ∉ s) : ∀ x ∈ s, (x != c) = true := by
  intro x hx
  simp only [bne_iff_ne]
  exact fun h' => h (h' ▸ hx)

theorem head_eq (s : Str) (c : UInt8) : head s c = (s.takeWhile (· != c), (s.dropWhile (· != c)).drop 1) := by
  unfold head
  cases h : indexByte s c with
  | none =>
    have hn := indexByte_none.1 h
    rw [(takeWhile_all (ne_all hn)).1, (takeWhile_all (ne_all hn)).2]; rfl
  | some i =>
    dsimp only
    rw [takeWhile_index h, dropWhile_index h]
    simp

theorem splitB_head (c : UInt8) (s : Str) :
    (splitB c s).headD [] = s.takeWhile (· != c) ∧
    (splitB c s).tail = (if c ∈ s then splitB c ((s.dropWhile (· != c)).drop 1) else []) := by
  by_cases h : c ∈ s
  · obtain ⟨i, hi⟩ := exists_indexByte h
    rw [splitB_index_some hi, if_pos h]
    have := dropWhile_index hi
    rw [takeWhile_index hi]
    simp [this]
  · rw [splitB_of_not_mem h, if_neg h]
    exact ⟨(takeWhile_all (ne_all h)).1.symm, rfl⟩

theorem defaultLoop_eq (f : Nat) : ∀ (tail d : Str), tail.length < f →
    defaultLoop f tail d = (((splitB 44 tail).filterMap defaultPart).getLast?).getD d := by
  induction f with
  | zero => intro tail d h; omega
  | succ f ih =>
    intro tail d h
    cases tail with
    | nil => rfl
    | cons c cs =>
      generalize ht : c :: cs = tail at *
      obtain ⟨h1, h2⟩ := splitB_head 44 tail
      have hl : ((tail.dropWhile (· != 44)).drop 1).length < f := by
        have h3 : ((tail.dropWhile (· != 44)).drop 1).length ≤ tail.length - 1 := by
          rw [List.length_drop]
          have := (List.dropWhile_sublist (l := tail) (· != 44)).length_le
          omega
        have : 0 < tail.length := by rw [← ht]; simp
        omega
      have hd : defaultLoop (f + 1) tail d =
          defaultLoop f ((tail.dropWhile (· != 44)).drop 1) ((defaultPart (tail.takeWhile (· != 44))).getD d) := by
        rw [← ht]
        conv => lhs; unfold defaultLoop
        simp only [head_eq]
        congr 1
        unfold defaultPart
        split <;> rfl
      rw [hd, ih _ _ hl]
      have hs : splitB 44 tail = tail.takeWhile (· != 44) :: (splitB 44 tail).tail := by
        rw [← h1]
        cases hsb : splitB 44 tail with
        | nil => exact absurd hsb (splitB_ne_nil _ _)
        | cons x xs => rfl
      have key : ∀ l : List Str, ((l.filterMap defaultPart).getLast?).getD ((defaultPart (tail.takeWhile (· != 44))).getD d) =
          (((tail.takeWhile (· != 44) :: l).filterMap defaultPart).getLast?).getD d := by
        intro l
        cases hp : defaultPart (tail.takeWhile (· != 44)) with
        | none => simp [hp]
        | some x =>
          rw [List.filterMap_cons, hp]
          cases hl : l.filterMap defaultPart with
          | nil => simp
          | cons y ys =>
            simp only [List.getLast?_cons_cons]
            cases hg : (y :: ys).getLast? with
            | none => simp at hg
            | some z => simp
      rw [hs, ← key, h2]
      split
      · rfl
      · rename_i hm
        have : tail.dropWhile (· != 44) = [] := (takeWhile_all (ne_all hm)).2
        rw [this]; rfl

theorem canonLoop_dash {up : Bool} {s : Str} (h : canonLoop up s = [45]) : s = [45] := by
  cases s with
  | nil => simp [canonLoop] at h
  | cons c cs =>
    unfold canonLoop at h
    simp only [List.cons.injEq] at h
    obtain ⟨h1, h2⟩ := h
    have hc : c = 45 := by
      split at h1
      · rename_i hu
        simp only [Bool.and_eq_true, decide_eq_true_eq] at hu
        have e : c = 77 := by
          have : c - 32 + 32 = 45 + 32 := by rw [h1]
          simpa using this
        subst e
        exact absurd hu.1.2 (by decide)
      · split at h1
        · rename_i hu
          simp only [Bool.and_eq_true, decide_eq_true_eq] at hu
          have e : c = 13 := by
            have : c + 32 - 32 = 45 - 32 := by rw [h1]
            simpa using this
          subst e
          exact absurd hu.1.2 (by decide)
        · exact h1
    cases cs with
    | nil => rw [hc]
    | cons d ds => simp [canonLoop] at h2

theorem canonKey_dash {s : Str} (h : canonKey s = b!"-") : s = b!"-" := by
  unfold canonKey at h
  split at h
  · exact canonLoop_dash h
  · exact h

/-- what `parseFormName` returns, in the words of the specification -/
theorem parseFormName_eq (fd : Field) (tag : Str) :
    (parseFormName fd tag).1 = (bindName fd tag).getD b!"-" ∧ bindName fd tag ≠ some b!"-" ∧
    (parseFormName fd tag).2.defaultValue = (bindDefault fd tag).getD [] ∧ bindDefault fd tag ≠ some [] := by
  obtain ⟨h1, h2⟩ := splitB_head 44 (fd.tag tag)
  have hn : (parseFormName fd tag).1 = (bindName fd tag).getD b!"-" ∧ bindName fd tag ≠ some b!"-" := by
    unfold parseFormName bindName tagParts
    simp only [head_eq, h1]
    by_cases he : (fd.tag tag).takeWhile (· != 44) = []
    · simp [he]
    · by_cases hd : (fd.tag tag).takeWhile (· != 44) = b!"-"
      · simp [hd]
      · by_cases ht : tag = b!"header"
        · subst ht
          rw [if_neg he, if_pos ⟨rfl, hd⟩, if_neg (by simp [he, hd]), if_pos rfl]
          exact ⟨rfl, fun h => hd (canonKey_dash (Option.some.inj h))⟩
        · simp [he, hd, ht]
  refine ⟨hn.1, hn.2, ?_, ?_⟩
  · unfold parseFormName bindDefault tagParts
    simp only [head_eq]
    rw [defaultLoop_eq _ _ _ (Nat.lt_succ_self _), h2]
    by_cases hm : (44 : UInt8) ∈ fd.tag tag
    · rw [if_pos hm]
      split
      · rename_i h; rw [h]; rfl
      · rfl
    · rw [if_neg hm]
      have : (fd.tag tag).dropWhile (· != 44) = [] := (takeWhile_all (ne_all hm)).2
      rw [this]; rfl
  · unfold bindDefault
    split
    · simp
    · rename_i h
      intro h'
      exact h (Option.some.inj h')

/-! ### the loop over the fields -/

theorem mapFields_spec (step : Field → Val → BOut × Val) (fds : List Field) (vs : List Val) :
    (mapFields step fds vs).2.length = vs.length ∧
    (((mapFields step fds vs).1 = .ok ∧
      ∀ (i : Nat) fd x, fds[i]? = some fd → vs[i]? = some x → ∃ y, step fd x = (.ok, y) ∧ (mapFields step fds vs).2[i]? = some y) ∨
    (∃ (k : Nat) (fd : Field) (x y : Val), fds[k]? = some fd ∧ vs[k]? = some x ∧ step fd x = ((mapFields step fds vs).1, y) ∧
      (mapFields step fds vs).1 ≠ .ok ∧ (mapFields step fds vs).2[k]? = some y ∧
      (∀ (i : Nat) fd x, i < k → fds[i]? = some fd → vs[i]? = some x →
        ∃ y, step fd x = (.ok, y) ∧ (mapFields step fds vs).2[i]? = some y) ∧
      (∀ i : Nat, k < i → (mapFields step fds vs).2[i]? = vs[i]?))) := by
  induction fds generalizing vs with
  | nil =>
    refine ⟨by simp [mapFields], Or.inl ⟨by simp [mapFields], by simp⟩⟩
  | cons fd fds ih =>
    cases vs with
    | nil => exact ⟨rfl, Or.inl ⟨rfl, by simp⟩⟩
    | cons v vs =>
      obtain ⟨ihl, ih⟩ := ih vs
      rcases hs : step fd v with ⟨out, x⟩
      by_cases ho : out = .ok
      · subst ho
        have e1 : (mapFields step (fd :: fds) (v :: vs)).1 = (mapFields step fds vs).1 := by
          conv => lhs; unfold mapFields
          simp only [hs]
        have e2 : (mapFields step (fd :: fds) (v :: vs)).2 = x :: (mapFields step fds vs).2 := by
          conv => lhs; unfold mapFields
          simp only [hs]
        rw [e1, e2]
        refine ⟨by simp [ihl], ?_⟩
        rcases ih with ⟨h1, h2⟩ | ⟨k, fd', x', y', h1, h2, h3, h4, h5, h6, h7⟩
        · left
          refine ⟨h1, ?_⟩
          intro i fd' x' hi hv
          cases i with
          | zero => simp at hi hv; subst hi; subst hv; exact ⟨x, hs, rfl⟩
          | succ i => exact h2 i fd' x' (by simpa using hi) (by simpa using hv)
        · right
          refine ⟨k + 1, fd', x', y', by simpa using h1, by simpa using h2, h3, h4, by simpa using h5, ?_, ?_⟩
          · intro i fd'' x'' hik hi hv
            cases i with
            | zero => simp at hi hv; subst hi; subst hv; exact ⟨x, hs, rfl⟩
            | succ i => exact h6 i fd'' x'' (by omega) (by simpa using hi) (by simpa using hv)
          · intro i hik
            cases i with
            | zero => omega
            | succ i => simpa using h7 i (by omega)
      · have e : mapFields step (fd :: fds) (v :: vs) = (out, x :: vs) := by
          unfold mapFields
          rw [hs]
          cases out <;> simp at ho ⊢
        rw [e]
        refine ⟨rfl, Or.inr ⟨0, fd, v, x, rfl, rfl, hs, ho, rfl, by intros; omega, ?_⟩⟩
        intro i hi
        cases i with
        | zero => omega
        | succ i => rfl

section
variable {o : BOracle} {E : TyEnv} {form : Form} {files : FormFiles} {tag : Str}

theorem mapForm_struct (f n : Nat) (v : Val) :
    mapForm o E form files tag (f + 1) (.struct n) v =
      ((mapFields (mapField o form files tag (mapForm o E form files tag f)) (E n) (fieldVals (E n).length v)).1,
        .struct (mapFields (mapField o form files tag (mapForm o E form files tag f)) (E n) (fieldVals (E n).length v)).2) := rfl

/-- a walk treats a pointer to a struct as the struct -/
def Walked (walk : Ty → Val → BOut × Val) : Prop :=
  ∀ m y, walk (.ptr (.struct m)) (.ptr y) = ((walk (.struct m) y).1, .ptr (walk (.struct m) y).2)

theorem through_mapForm (f : Nat) : Walked (mapForm o E form files tag f) := by
  intro m y
  cases f <;> rfl

/-! ### one field -/

theorem trySet_quiet {fd : Field} {t : Ty} {v : Val} (h : Quiet form files tag fd) :
    tryToSetValue2 o form files tag fd t v = (.ok, v) := by
  obtain ⟨hn, hd, hdef, hde⟩ := parseFormName_eq fd tag
  obtain ⟨h1, h2⟩ := h
  unfold tryToSetValue2
  rcases hp : parseFormName fd tag with ⟨name, opt⟩
  rw [hp] at hn hdef
  simp only at hn hdef ⊢
  cases hb : bindName fd tag with
  | none => rw [hb] at hn; simp at hn; rw [if_pos hn]
  | some n =>
    rw [hb] at hn hd
    simp only [Option.getD_some] at hn
    subst hn
    rw [if_neg (fun h => hd (by rw [h]))]
    unfold input at h1
    rw [hb] at h1
    simp only [Option.bind_some] at h1
    have : formValues form name opt = none := by
      unfold formValues
      cases hf : form.at name with
      | some vs => rw [hf] at h1; cases h1
      | none =>
        rw [hf] at h1
        simp only [Option.map_eq_none_iff] at h1
        rw [h1] at hdef
        simp only [Option.getD_none] at hdef
        simp [hdef]
    rw [this, h2 name hb]

theorem mapField_hidden {walk : Ty → Val → BOut × Val} {fd : Field} {x : Val} (h : ¬ Visible fd) :
    mapField o form files tag walk fd x = (.ok, x) := by
  unfold Visible at h
  simp only [not_or, Bool.not_eq_true] at h
  unfold mapField
  rw [h.1, h.2]
  rfl

theorem mapField_plain {walk : Ty → Val → BOut × Val} {fd : Field} {x : Val} (h : Scalar fd) :
    mapField o form files tag walk fd x = tryToSetValue2 o form files tag fd fd.ty x := by
  obtain ⟨h1, h2, h3⟩ := h
  unfold mapField
  rw [h1, h2]
  have ha : allocates fd x = none := by
    unfold allocates
    rw [h2]
    cases ht : fd.ty with
    | ptr t => cases t <;> cases x <;> simp [ht] at h3 <;> rfl
    | _ => rfl
  have hd : descends fd fd.ty = false := by
    unfold descends
    rw [h2]
    cases ht : fd.ty <;> simp [ht] at h3 <;> simp [Ty.isStruct]
  rw [ha, hd]
  rfl

/-- How a field that binding walks through is treated: if the walk fails, so does the field, and it holds what the walk left;
otherwise the field itself is set, which does nothing if it is quiet. -/
theorem mapField_enters {walk : Ty → Val → BOut × Val} (hw : Walked walk) {fd : Field} {x y : Val} {m : Nat}
    (h : Enters fd x m y) :
    ∃ wrap : Val → Val, (∀ w, (∀ w', w ≠ .ptr w') → ∀ i p, get (wrap w) (i :: p) = get w (i :: p)) ∧
      (∀ i p, get x (i :: p) = get y (i :: p)) ∧
      ((walk (.struct m) y).1 ≠ .ok → mapField o form files tag walk fd x = ((walk (.struct m) y).1, wrap (walk (.struct m) y).2)) ∧
      ((walk (.struct m) y).1 = .ok → Quiet form files tag fd →
        mapField o form files tag walk fd x = (.ok, wrap (walk (.struct m) y).2)) ∧
      ((walk (.struct m) y).1 = .ok → ∃ t z, (mapField o form files tag walk fd x).1 = (tryToSetValue2 o form files tag fd t z).1) := by
  rcases hr : walk (.struct m) y with ⟨out, w⟩
  cases h with
  | value hv ht hp =>
    refine ⟨id, fun _ _ _ _ => rfl, fun _ _ => rfl, ?_⟩
    have hvis : (!fd.exported && !fd.anonymous) = false := by
      rcases hv with h | h <;> simp [h]
    have ha : allocates fd x = none := by simp [allocates, ht]
    have hd : descends fd fd.ty = true := by simp [descends, ht, Ty.isStruct]
    have e : mapField o form files tag walk fd x =
        match (out, w) with
        | (.ok, x) => tryToSetValue2 o form files tag fd fd.ty x
        | (out, x) => (out, x) := by
      unfold mapField
      rw [hvis, ha, hd]
      simp only [if_true, ht, hr]
      rfl
    rw [e]
    refine ⟨?_, ?_, ?_⟩
    · intro ho; cases out <;> simp at ho ⊢
    · intro ho hq; simp only at ho; subst ho; exact trySet_quiet hq
    · intro ho; simp only at ho; subst ho; exact ⟨_, _, rfl⟩
  | alloc he ht =>
    refine ⟨.ptr, ?_, fun _ _ => rfl, ?_⟩
    · intro w hw' i p
      cases w <;> first | rfl | exact absurd rfl (hw' _)
    have hvis : (!fd.exported && !fd.anonymous) = false := by simp [he]
    have ha : allocates fd .zero = some (.struct m) := by simp [allocates, ht, Ty.isStruct]
    have hd : descends fd (.struct m) = true := by simp [descends, Ty.isStruct]
    have e : mapField o form files tag walk fd .zero =
        match (out, w) with
        | (.ok, x) => ((tryToSetValue2 o form files tag fd (.struct m) x).1, .ptr (tryToSetValue2 o form files tag fd (.struct m) x).2)
        | (out, x) => (out, .ptr x) := by
      unfold mapField
      rw [hvis, ha]
      simp only [he, hd, if_true, hr, Bool.not_true, Bool.false_eq_true, if_false]
      rfl
    rw [e]
    refine ⟨?_, ?_, ?_⟩
    · intro ho; cases out <;> simp at ho ⊢
    · intro ho hq; simp only at ho; subst ho; simp only [trySet_quiet hq]
    · intro ho; simp only at ho; subst ho; exact ⟨_, _, rfl⟩
  | embedded han ht hy =>
    refine ⟨.ptr, ?_, ?_, ?_⟩
    · intro w hw' i p
      cases w <;> first | rfl | exact absurd rfl (hw' _)
    · intro i p
      cases y <;> first | rfl | exact absurd rfl (hy _)
    have hvis : (!fd.exported && !fd.anonymous) = false := by simp [han]
    have ha : allocates fd (.ptr y) = none := by simp [allocates, ht]
    have hd : descends fd fd.ty = true := by simp [descends, han]
    have hw2 : walk (.ptr (.struct m)) (.ptr y) = (out, .ptr w) := by rw [hw m y, hr]
    have e : mapField o form files tag walk fd (.ptr y) =
        match (out, Val.ptr w) with
        | (.ok, x) => tryToSetValue2 o form files tag fd fd.ty x
        | (out, x) => (out, x) := by
      unfold mapField
      rw [hvis, ha, hd]
      simp only [if_true, ht, hw2]
      rfl
    rw [e]
    refine ⟨?_, ?_, ?_⟩
    · intro ho; cases out <;> simp at ho ⊢
    · intro ho hq; simp only at ho; subst ho; exact trySet_quiet hq
    · intro ho; simp only at ho; subst ho; exact ⟨_, _, rfl⟩

theorem mapForm_notPtr {f n : Nat} {v : Val} (hv : ∀ w, v ≠ .ptr w) (w : Val) :
    (mapForm o E form files tag f (.struct n) v).2 ≠ .ptr w := by
  cases f with
  | zero => exact hv w
  | succ f => rw [mapForm_struct]; simp

theorem get_nil (v : Val) : get v [] = v := by
  cases v <;> rfl

theorem enters_notPtr {fd : Field} {x y : Val} {m : Nat} (h : Enters fd x m y) (w : Val) : y ≠ .ptr w := by
  cases h with
  | value _ _ h => exact h w
  | alloc _ _ => simp
  | embedded _ _ h => exact h w

theorem enters_get {fd : Field} {x y : Val} {m : Nat} (h : Enters fd x m y) (i : Nat) (p : List Nat) :
    get x (i :: p) = get y (i :: p) := by
  cases h with
  | value _ _ h => rfl
  | alloc _ _ => rfl
  | embedded _ _ h => cases y <;> first | rfl | exact absurd rfl (h _)

theorem occurs_path {Q : Field → Prop} {n : Nat} {v : Val} {p : List Nat} {fd : Field} {x : Val} (h : Occurs E Q n v p fd x) :
    ∃ i q, p = i :: q := by
  cases h <;> exact ⟨_, _, rfl⟩

theorem get_field {n i : Nat} {v x : Val} (hv : ∀ w, v ≠ .ptr w) (h : (fieldVals n v)[i]? = some x) (p : List Nat) :
    get v (i :: p) = get x p := by
  have hz : ∀ p, get .zero p = .zero := by intro p; cases p <;> rfl
  cases v with
  | struct vs => simp only [fieldVals] at h; simp [Spec.get, deref, h]
  | ptr w => exact absurd rfl (hv w)
  | _ =>
    simp only [fieldVals, List.getElem?_replicate] at h
    split at h
    · simp only [Option.some.injEq] at h
      subst h
      rw [hz p]; rfl
    · cases h

theorem occurs_get {Q : Field → Prop} {n : Nat} {v : Val} {p : List Nat} {fd : Field} {x : Val} (h : Occurs E Q n v p fd x)
    (hv : ∀ w, v ≠ .ptr w) : get v p = x := by
  induction h with
  | here h1 h2 => rw [get_field hv h2, get_nil]
  | inside h1 h2 _ he ho ih =>
    rw [get_field hv h2]
    obtain ⟨j, q, rfl⟩ := occurs_path ho
    rw [enters_get he]
    exact ih (enters_notPtr he)

theorem occurs_mono {Q R : Field → Prop} (hQ : ∀ fd, Q fd → R fd) {n : Nat} {v : Val} {p : List Nat} {fd : Field} {x : Val}
    (h : Occurs E Q n v p fd x) : Occurs E R n v p fd x := by
  induction h with
  | here h1 h2 => exact .here h1 h2
  | inside h1 h2 h3 he _ ih => exact .inside h1 h2 (hQ _ h3) he ih

/-- What happened to a field whose own treatment has the result `r`. -/
def Fate (form : Form) (files : FormFiles) (tag : Str) (Q : Field → Prop) (p : List Nat) (x : Val) (r : BOut × Val)
    (out : BOut) (v' : Val) : Prop :=
  (out ≠ .ok ∧ get v' p = x) ∨
  (out ≠ .ok ∧ out = r.1 ∧ get v' p = r.2) ∨
  (r.1 = .ok ∧
    ((∀ fd, Q fd → Quiet form files tag fd) → get v' p = r.2))

theorem get_at {vs : List Val} {i : Nat} {x : Val} (h : vs[i]? = some x) (p : List Nat) : get (.struct vs) (i :: p) = get x p := by
  simp [Spec.get, deref, h]

theorem fate {Q : Field → Prop} {p : List Nat} {fd : Field} {x : Val} {r : BOut × Val}
    (hp : ∀ walk, mapField o form files tag walk fd x = r) (f : Nat) {n : Nat} {v : Val}
    (hv : ∀ w, v ≠ .ptr w) (h : Occurs E Q n v p fd x) :
    Fate form files tag Q p x r (mapForm o E form files tag f (.struct n) v).1 (mapForm o E form files tag f (.struct n) v).2 := by
  induction f generalizing n v p with
  | zero => exact Or.inl ⟨by simp [mapForm], occurs_get h hv⟩
  | succ f ih =>
    rw [mapForm_struct]
    have hspec := (mapFields_spec (mapField o form files tag (mapForm o E form files tag f)) (E n) (fieldVals (E n).length v)).2
    generalize hr' : mapFields (mapField o form files tag (mapForm o E form files tag f)) (E n) (fieldVals (E n).length v) = r' at hspec ⊢
    obtain ⟨out, vs⟩ := r'
    simp only at hspec ⊢
    cases h with
    | here h1 h2 =>
      rename_i i
      have hok : ∀ y, mapField o form files tag (mapForm o E form files tag f) fd x = (.ok, y) → vs[i]? = some y →
          Fate form files tag Q [i] x r out (.struct vs) := by
        intro y hy hi
        rw [hp] at hy
        right; right
        rw [hy]
        exact ⟨rfl, fun _ => by rw [get_at hi, get_nil]⟩
      rcases hspec with ⟨ho, hall⟩ | ⟨k, fd', x', y', k1, k2, k3, k4, k5, k6, k7⟩
      · obtain ⟨y, hy, hi⟩ := hall i fd x h1 h2
        exact hok y hy hi
      · rcases Nat.lt_trichotomy i k with hik | hik | hik
        · obtain ⟨y, hy, hi⟩ := k6 i fd x hik h1 h2
          exact hok y hy hi
        · subst hik
          rw [h1] at k1; rw [h2] at k2
          cases k1; cases k2
          rw [hp] at k3
          right; left
          rw [k3]
          exact ⟨k4, rfl, by rw [get_at k5, get_nil]⟩
        · left
          exact ⟨k4, by rw [get_at ((k7 i hik).trans h2), get_nil]⟩
    | inside h1 h2 hq he ho' =>
      rename_i i fd' x' m y' p
      obtain ⟨j, q, rfl⟩ := occurs_path ho'
      have IH := ih (enters_notPtr he) ho'
      obtain ⟨wrap, w1, w2, w3, w4, w5⟩ := mapField_enters (o := o) (form := form) (files := files) (tag := tag)
        (through_mapForm (o := o) (E := E) (form := form) (files := files) (tag := tag) f) he
      have w1' := w1 (mapForm o E form files tag f (.struct m) y').2 (fun w => mapForm_notPtr (enters_notPtr he) w)
      generalize hm : mapForm o E form files tag f (.struct m) y' = r' at IH w1' w3 w4 w5
      obtain ⟨o1, w⟩ := r'
      simp only at IH w1' w3 w4 w5
      have hnest : ∀ y, mapField o form files tag (mapForm o E form files tag f) fd' x' = (out, y) → vs[i]? = some y →
          Fate form files tag Q (i :: j :: q) x r out (.struct vs) := by
        intro y hy hi
        by_cases h1' : o1 = .ok
        · subst h1'
          rcases IH with h | h | h
          · exact absurd rfl h.1
          · exact absurd rfl h.1
          · right; right
            refine ⟨h.1, fun hQ => ?_⟩
            have := w4 rfl (hQ _ hq)
            rw [this] at hy
            cases hy
            rw [get_at hi, w1', h.2 hQ]
        · have := w3 h1'
          rw [this] at hy
          cases hy
          unfold Fate
          rw [get_at hi, w1']
          exact IH
      have hokay : ∀ y, mapField o form files tag (mapForm o E form files tag f) fd' x' = (.ok, y) → vs[i]? = some y →
          Fate form files tag Q (i :: j :: q) x r out (.struct vs) := by
        intro y hy hi
        by_cases h1' : o1 = .ok
        · subst h1'
          rcases IH with h | h | h
          · exact absurd rfl h.1
          · exact absurd rfl h.1
          · right; right
            refine ⟨h.1, fun hQ => ?_⟩
            have := w4 rfl (hQ _ hq)
            rw [this] at hy
            cases hy
            rw [get_at hi, w1', h.2 hQ]
        · have := w3 h1'
          rw [this] at hy
          cases hy
          exact absurd rfl h1'
      rcases hspec with ⟨ho, hall⟩ | ⟨k, fd'', x'', y'', k1, k2, k3, k4, k5, k6, k7⟩
      · obtain ⟨y, hy, hi⟩ := hall i fd' x' h1 h2
        exact hokay y hy hi
      · rcases Nat.lt_trichotomy i k with hik | hik | hik
        · obtain ⟨y, hy, hi⟩ := k6 i fd' x' hik h1 h2
          exact hokay y hy hi
        · subst hik
          rw [h1] at k1; rw [h2] at k2
          cases k1; cases k2
          exact hnest y'' k3 k5
        · left
          refine ⟨k4, ?_⟩
          rw [get_at ((k7 i hik).trans h2), enters_get he]
          exact occurs_get ho' (enters_notPtr he)

/-! ### setting one field -/

theorem wrapInt_fits {bits : Nat} (hb : 1 ≤ bits) (i : Int) : FitsInt bits (wrapInt bits i) ∧ (2 ^ bits : Int) ∣ i - wrapInt bits i := by
  have h2 : (2 ^ bits : Int) = 2 * 2 ^ (bits - 1) := by
    have := two_pow_half hb
    exact_mod_cast this
  have hpos : (0 : Int) < 2 ^ (bits - 1) := by exact_mod_cast Nat.two_pow_pos (bits - 1)
  unfold FitsInt wrapInt
  have h3 := Int.emod_nonneg (i + 2 ^ (bits - 1)) (show (2 ^ bits : Int) ≠ 0 by omega)
  have h4 := Int.emod_lt_of_pos (i + 2 ^ (bits - 1)) (show (0 : Int) < 2 ^ bits by omega)
  refine ⟨⟨by omega, by omega⟩, ?_⟩
  have h5 := Int.mul_ediv_add_emod (i + 2 ^ (bits - 1)) (2 ^ bits)
  refine ⟨(i + 2 ^ (bits - 1)) / 2 ^ bits, ?_⟩
  omega

theorem fits_unique {bits : Nat} (hb : 1 ≤ bits) {i j k : Int} (hj : FitsInt bits j) (hk : FitsInt bits k)
    (dj : (2 ^ bits : Int) ∣ i - j) (dk : (2 ^ bits : Int) ∣ i - k) : j = k := by
  have h2 : (2 ^ bits : Int) = 2 * 2 ^ (bits - 1) := by
    have := two_pow_half hb
    exact_mod_cast this
  unfold FitsInt at hj hk
  have d : (2 ^ bits : Int) ∣ j - k := by
    have := Int.dvd_sub dk dj
    have e : i - k - (i - j) = j - k := by omega
    rwa [e] at this
  obtain ⟨c, hc⟩ := d
  rcases Int.lt_trichotomy c 0 with h | h | h
  · have : (2 ^ bits : Int) * c ≤ 2 ^ bits * (-1) := Int.mul_le_mul_of_nonneg_left (by omega) (by omega)
    omega
  · subst h; omega
  · have : (2 ^ bits : Int) * 1 ≤ 2 ^ bits * c := Int.mul_le_mul_of_nonneg_left (by omega) (by omega)
    omega

theorem numberOf_parse {s : Str} {i : Int} :
    parseInt 64 (if s = [] then b!"0" else s) = (i, none) ↔ NumberOf s i ∧ FitsInt 64 i := by
  have hz : Signed b!"0" 0 := .plain ⟨by decide, by decide⟩
  by_cases hs : s = []
  · subst hs
    simp only [if_true]
    have e : parseInt 64 b!"0" = (0, none) := by decide
    rw [e]
    constructor
    · intro h; cases h; exact ⟨Or.inr ⟨rfl, rfl⟩, by unfold FitsInt; decide⟩
    · rintro ⟨h | h, _⟩
      · rw [signed_iff] at h; exact absurd rfl h.1.1
      · rw [h.2]
  · rw [if_neg hs, parseInt_ok (by decide) (by decide)]
    unfold NumberOf FitsInt
    constructor
    · rintro ⟨h1, h2, h3⟩
      exact ⟨Or.inl h1, by simpa using h2, by simpa using h3⟩
    · rintro ⟨h1, h2, h3⟩
      rcases h1 with h1 | h1
      · exact ⟨h1, by simpa using h2, by simpa using h3⟩
      · exact absurd h1.1 hs

theorem naturalOf_parse {s : Str} {n : Nat} :
    parseUint 64 (if s = [] then b!"0" else s) = (n, none) ↔ NaturalOf s n ∧ n < 2 ^ 64 := by
  by_cases hs : s = []
  · subst hs
    simp only [if_true]
    have e : parseUint 64 b!"0" = (0, none) := by decide
    rw [e]
    constructor
    · intro h; cases h; exact ⟨Or.inr ⟨rfl, rfl⟩, by decide⟩
    · rintro ⟨h | h, _⟩
      · exact absurd rfl h.1.1
      · rw [h.2]
  · rw [if_neg hs, parseUint_ok (by decide)]
    unfold NaturalOf
    constructor
    · rintro ⟨h1, h2, h3⟩
      exact ⟨Or.inl ⟨h1, h2⟩, h3⟩
    · rintro ⟨h1, h3⟩
      rcases h1 with h1 | h1
      · exact ⟨h1.1, h1.2, h3⟩
      · exact absurd h1.1 hs

theorem boolOf_parse {s : Str} {b : Bool} : parseBool (if s = [] then b!"false" else s) = (b, none) ↔ BoolOf s b := by
  by_cases hs : s = []
  · subst hs
    cases b <;> unfold BoolOf <;> decide
  · rw [if_neg hs]
    unfold parseBool BoolOf
    simp only [List.mem_cons, List.not_mem_nil, or_false]
    split
    · rename_i h
      cases b
      · simp only [Prod.mk.injEq, reduceCtorEq, false_and, true_and, false_or, false_iff, not_or]
        rcases h with h | h | h | h | h | h <;> subst h <;> decide
      · simp [h]
    · rename_i h
      split
      · rename_i h'
        cases b
        · simp only [true_and, true_iff]
          right
          simpa only [← or_assoc] using Or.inl h'
        · simp [h]
      · rename_i h'
        simp only [not_or] at h h'
        cases b <;> simp [h, h', hs]

theorem boolOf_true {s : Str} : (parseBool s).1 = true ↔ BoolOf s true := by
  unfold parseBool BoolOf
  simp only [List.mem_cons, List.not_mem_nil, or_false]
  split
  · rename_i h; simp [h]
  · rename_i h
    split <;> simp [h]

theorem tdiv_one (i : Int) : i.tdiv 1 = i ∧ i.tmod 1 = 0 := ⟨Int.tdiv_one i, Int.tmod_one i⟩

/-- the options of a field -/
def optOf (fd : Field) (tag : Str) : SetOptions := (parseFormName fd tag).2

theorem optOf_time (fd : Field) (tag : Str) : (optOf fd tag).timeFormat = fd.tag b!"time_format" ∧
    (optOf fd tag).timeUtc = fd.tag b!"time_utc" ∧ (optOf fd tag).timeLocation = fd.tag b!"time_location" := ⟨rfl, rfl, rfl⟩

theorem setTime_spec {fd : Field} {s : Str} {v w : Val} :
    setTimeField2 o s (optOf fd tag) v = (.ok, w) ↔ ∃ t, w = .time t ∧ TimeOf o fd s t := by
  obtain ⟨e1, e2, e3⟩ := optOf_time fd tag
  have hl : (if (optOf fd tag).timeFormat = [] then rfc3339 else (optOf fd tag).timeFormat) = layout fd := by
    rw [e1]; rfl
  have hint : ∀ i, parseInt 64 s = (i, none) ↔ Signed s i ∧ FitsInt 64 i := by
    intro i
    rw [parseInt_ok (by decide) (by decide)]
    unfold FitsInt
    constructor
    · rintro ⟨h1, h2, h3⟩; exact ⟨h1, by simpa using h2, by simpa using h3⟩
    · rintro ⟨h1, h2, h3⟩; exact ⟨h1, by simpa using h2, by simpa using h3⟩
  have low : ∀ w ∈ [b!"unix", b!"unixnano"], ∀ c ∈ w, smallByte c := by decide +kernel
  have r1 := toLower_iff (s := layout fd) (low b!"unix" (by simp))
  have r2 := toLower_iff (s := layout fd) (low b!"unixnano" (by simp))
  unfold setTimeField2
  simp only [hl, e2, e3]
  by_cases hu : toLower (layout fd) = b!"unix" ∨ toLower (layout fd) = b!"unixnano"
  · rw [if_pos hu]
    rcases hp : parseInt 64 s with ⟨i, e⟩
    cases e with
    | some e =>
      simp only [Prod.mk.injEq, reduceCtorEq, false_and, false_iff, not_exists, not_and]
      rintro t - ht
      have hno : ∀ i, ¬ (Signed s i ∧ FitsInt 64 i) := by
        intro i h
        rw [(hint i).2 h] at hp
        cases hp
      cases ht with
      | unix _ h1 h2 => exact hno _ ⟨h1, h2⟩
      | nano _ h1 h2 => exact hno _ ⟨h1, h2⟩
      | none h h' => exact hu.elim (fun x => h (r1.1 x)) (fun x => h' (r2.1 x))
      | parsed h h' => exact hu.elim (fun x => h (r1.1 x)) (fun x => h' (r2.1 x))
    | none =>
      obtain ⟨h1, h2⟩ := (hint i).1 hp
      have huniq : ∀ j, Signed s j → j = i := by
        intro j hj
        rw [signed_iff] at hj h1
        rw [hj.2, h1.2]
      simp only [Prod.mk.injEq, true_and]
      by_cases hn : toLower (layout fd) = b!"unixnano"
      · rw [if_pos hn]
        constructor
        · rintro rfl
          exact ⟨_, rfl, .nano (r2.1 hn) h1 h2⟩
        · rintro ⟨t, rfl, ht⟩
          cases ht with
          | unix h => rw [← r1, hn] at h; exact absurd h (by decide)
          | nano _ h3 h4 => rw [huniq _ h3]
          | none _ h => exact absurd (r2.1 hn) h
          | parsed _ h => exact absurd (r2.1 hn) h
      · rw [if_neg hn]
        have hx : toLower (layout fd) = b!"unix" := hu.resolve_right hn
        constructor
        · rintro rfl
          refine ⟨_, rfl, ?_⟩
          rw [(tdiv_one i).1, (tdiv_one i).2]
          exact .unix (r1.1 hx) h1 h2
        · rintro ⟨t, rfl, ht⟩
          cases ht with
          | unix _ h3 h4 => rw [huniq _ h3, (tdiv_one i).1, (tdiv_one i).2]
          | nano h => exact absurd (r2.2 h) hn
          | none h => exact absurd (r1.1 hx) h
          | parsed h => exact absurd (r1.1 hx) h
  · rw [if_neg hu]
    simp only [not_or] at hu
    rw [r1, r2] at hu
    by_cases hs : s = []
    · subst hs
      simp only [if_true, Prod.mk.injEq, true_and]
      constructor
      · rintro rfl; exact ⟨_, rfl, .none hu.1 hu.2⟩
      · rintro ⟨t, rfl, ht⟩
        cases ht with
        | unix h => exact absurd h hu.1
        | nano h => exact absurd h hu.2
        | none => rfl
        | parsed _ _ h => exact absurd rfl h
    · rw [if_neg hs]
      have hplace : ∀ l, Place fd l ↔
          l = (if fd.tag b!"time_location" ≠ [] then (none, fd.tag b!"time_location") else (some (parseBool (fd.tag b!"time_utc")).1, [])) := by
        intro l
        constructor
        · intro h
          cases h with
          | named h => rw [if_pos h]
          | utc h1 h2 => rw [if_neg (by simpa using h1), boolOf_true.2 h2]
          | «local» h1 h2 =>
            rw [if_neg (by simpa using h1)]
            have : (parseBool (fd.tag b!"time_utc")).1 = false := by
              rw [← Bool.not_eq_true]; exact fun h => h2 (boolOf_true.1 h)
            rw [this]
        · rintro rfl
          split
          · rename_i h; exact .named h
          · rename_i h
            cases hb : (parseBool (fd.tag b!"time_utc")).1 with
            | true => exact .utc (by simpa using h) (boolOf_true.1 hb)
            | false => exact .local (by simpa using h) (fun h => by rw [boolOf_true.2 h] at hb; cases hb)
      by_cases hloc : fd.tag b!"time_location" ≠ [] ∧ (!o.location (fd.tag b!"time_location")) = true
      · rw [if_pos hloc]
        simp only [Prod.mk.injEq, reduceCtorEq, false_and, false_iff, not_exists, not_and]
        rintro t - ht
        cases ht with
        | unix h => exact absurd h hu.1
        | nano h => exact absurd h hu.2
        | none => exact absurd rfl hs
        | parsed _ _ _ _ h => have := h hloc.1; rw [this] at hloc; simp at hloc
      · rw [if_neg hloc]
        have hloc' : fd.tag b!"time_location" ≠ [] → o.location (fd.tag b!"time_location") = true := by
          intro h
          simpa [h] using hloc
        generalize hgl : (if fd.tag b!"time_location" ≠ [] then ((none : Option Bool), fd.tag b!"time_location")
          else (some (parseBool (fd.tag b!"time_utc")).1, [])) = l at hplace
        constructor
        · intro h
          cases hpt : o.parseTime (layout fd) s l with
          | none => rw [hpt] at h; cases h
          | some id =>
            rw [hpt] at h
            cases h
            exact ⟨_, rfl, .parsed hu.1 hu.2 hs ((hplace l).2 rfl) hloc' hpt⟩
        · rintro ⟨t, rfl, ht⟩
          cases ht with
          | unix h => exact absurd h hu.1
          | nano h => exact absurd h hu.2
          | none => exact absurd rfl hs
          | parsed _ _ _ h1 _ h2 =>
            rw [(hplace _).1 h1] at h2
            rw [h2]

theorem setKind_spec {fd : Field} {t : Ty} (hz : Sized t) {s : Str} {v w : Val} {name : Str} :
    setKind o (optOf fd tag) t s v name = (.ok, w) ↔ Conv o fd t s v w := by
  cases t with
  | int bits =>
    unfold setKind
    simp only
    rcases hp : parseInt 64 (if s = [] then b!"0" else s) with ⟨i, e⟩
    cases e with
    | some e =>
      simp only [Prod.mk.injEq, reduceCtorEq, false_and, false_iff]
      rintro (⟨h1, h2, _, _⟩)
      · rw [numberOf_parse.2 ⟨h1, h2⟩] at hp; cases hp
      · rename_i h _; simp at h
    | none =>
      obtain ⟨h1, h2⟩ := numberOf_parse.1 hp
      simp only [Prod.mk.injEq, true_and]
      constructor
      · rintro rfl
        exact .int h1 h2 (wrapInt_fits hz i).1 (wrapInt_fits hz i).2
      · intro h
        cases h with
        | int h3 h4 h5 h6 =>
          have := numberOf_parse.2 ⟨h3, h4⟩
          rw [hp] at this
          cases this
          rw [fits_unique hz (wrapInt_fits hz i).1 h5 (wrapInt_fits hz i).2 h6]
        | json h => simp at h
  | uint bits =>
    unfold setKind
    simp only
    rcases hp : parseUint 64 (if s = [] then b!"0" else s) with ⟨n, e⟩
    cases e with
    | some e =>
      simp only [Prod.mk.injEq, reduceCtorEq, false_and, false_iff]
      intro h
      cases h with
      | uint h1 h2 => rw [naturalOf_parse.2 ⟨h1, h2⟩] at hp; cases hp
      | json h => simp at h
    | none =>
      obtain ⟨h1, h2⟩ := naturalOf_parse.1 hp
      simp only [Prod.mk.injEq, true_and]
      constructor
      · rintro rfl; exact .uint h1 h2
      · intro h
        cases h with
        | uint h3 h4 =>
          have := naturalOf_parse.2 ⟨h3, h4⟩
          rw [hp] at this
          cases this
          rfl
        | json h => simp at h
  | bool =>
    unfold setKind
    simp only
    rcases hp : parseBool (if s = [] then b!"false" else s) with ⟨b, e⟩
    cases e with
    | some e =>
      simp only [Prod.mk.injEq, reduceCtorEq, false_and, false_iff]
      intro h
      cases h with
      | yes h => rw [boolOf_parse.2 h] at hp; cases hp
      | no h => rw [boolOf_parse.2 h] at hp; cases hp
      | json h => simp at h
    | none =>
      have hb := boolOf_parse.1 hp
      simp only [Prod.mk.injEq, true_and]
      constructor
      · rintro rfl
        cases b
        · exact .no hb
        · exact .yes hb
      · intro h
        cases h with
        | yes h => have := boolOf_parse.2 h; rw [hp] at this; cases this; rfl
        | no h => have := boolOf_parse.2 h; rw [hp] at this; cases this; rfl
        | json h => simp at h
  | float bits =>
    unfold setKind
    simp only
    cases hp : o.float bits (if s = [] then b!"0.0" else s) with
    | none =>
      simp only [Prod.mk.injEq, reduceCtorEq, false_and, false_iff]
      intro h
      cases h with
      | float h => rw [hp] at h; cases h
      | json h => simp at h
    | some id =>
      simp only [Prod.mk.injEq, true_and]
      constructor
      · rintro rfl; exact .float hp
      · intro h
        cases h with
        | float h => rw [hp] at h; cases h; rfl
        | json h => simp at h
  | duration =>
    unfold setKind
    simp only
    rcases hp : parseInt 64 (if s = [] then b!"0" else s) with ⟨i, e⟩
    cases e with
    | some e =>
      simp only [Prod.mk.injEq, reduceCtorEq, false_and, false_iff]
      intro h
      cases h with
      | duration h1 h2 => rw [numberOf_parse.2 ⟨h1, h2⟩] at hp; cases hp
      | json h => simp at h
    | none =>
      obtain ⟨h1, h2⟩ := numberOf_parse.1 hp
      have hw : wrapInt 64 i = i := fits_unique (by omega) (wrapInt_fits (by omega) i).1 h2 (wrapInt_fits (by omega) i).2 ⟨0, by omega⟩
      simp only [Prod.mk.injEq, true_and, hw]
      constructor
      · rintro rfl; exact .duration h1 h2
      · intro h
        cases h with
        | duration h3 h4 =>
          have := numberOf_parse.2 ⟨h3, h4⟩
          rw [hp] at this
          cases this
          rfl
        | json h => simp at h
  | string =>
    unfold setKind
    simp only [Prod.mk.injEq, true_and]
    constructor
    · rintro rfl; exact .string
    · intro h
      cases h with
      | string => rfl
      | json h => simp at h
  | time =>
    unfold setKind
    simp only
    rw [setTime_spec]
    constructor
    · rintro ⟨t, rfl, h⟩; exact .time h
    · intro h
      cases h with
      | time h => exact ⟨_, rfl, h⟩
      | json h => simp at h
  | file =>
    unfold setKind
    simp only
    rcases hp : o.json .file s v with ⟨e, x⟩
    constructor
    · intro h
      cases e with
      | some e => simp at h
      | none => simp at h; subst h; exact .json (Or.inl rfl) hp
    · intro h
      cases h with
      | json _ h => rw [hp] at h; cases h; rfl
  | struct n =>
    unfold setKind
    simp only
    rcases hp : o.json (.struct n) s v with ⟨e, x⟩
    constructor
    · intro h
      cases e with
      | some e => simp at h
      | none => simp at h; subst h; exact .json (Or.inr (Or.inl ⟨_, rfl⟩)) hp
    · intro h
      cases h with
      | json _ h => rw [hp] at h; cases h; rfl
  | map k e =>
    unfold setKind
    simp only
    rcases hp : o.json (.map k e) s v with ⟨er, x⟩
    constructor
    · intro h
      cases er with
      | some e => simp at h
      | none => simp at h; subst h; exact .json (Or.inr (Or.inr ⟨_, _, rfl⟩)) hp
    · intro h
      cases h with
      | json _ h => rw [hp] at h; cases h; rfl
  | ptr t =>
    simp only [setKind, Prod.mk.injEq, reduceCtorEq, false_and, false_iff]
    intro h
    cases h with
    | json h => simp at h
  | slice t =>
    simp only [setKind, Prod.mk.injEq, reduceCtorEq, false_and, false_iff]
    intro h
    cases h with
    | json h => simp at h
  | array n t =>
    simp only [setKind, Prod.mk.injEq, reduceCtorEq, false_and, false_iff]
    intro h
    cases h with
    | json h => simp at h
  | other n =>
    simp only [setKind, Prod.mk.injEq, reduceCtorEq, false_and, false_iff]
    intro h
    cases h with
    | json h => simp at h

theorem setWith_spec {fd : Field} {t : Ty} (hz : Sized t) {s : Str} {v w : Val} {name : Str} :
    setWithProperType2 o (optOf fd tag) t s v name = (.ok, w) ↔ ConvP o fd t s v w := by
  by_cases ht : ∃ t', t = .ptr t'
  · obtain ⟨t', rfl⟩ := ht
    have hz' : Sized t' := hz
    unfold setWithProperType2
    simp only
    rcases hk : setKind o (optOf fd tag) t' s (pointee v) name with ⟨out, x⟩
    simp only [Prod.mk.injEq]
    constructor
    · rintro ⟨rfl, rfl⟩
      have := (setKind_spec hz').1 hk
      cases v with
      | ptr v => exact .ptr this
      | _ => exact .alloc (by simp) this
    · intro h
      cases h with
      | value h => exact absurd rfl (h _)
      | ptr h =>
        have := (setKind_spec (tag := tag) (name := name) hz').2 h
        simp only [pointee, this] at hk
        cases hk; exact ⟨rfl, rfl⟩
      | alloc hv h =>
        have hp : pointee v = .zero := by
          cases v <;> first | rfl | exact absurd rfl (hv _)
        have := (setKind_spec (tag := tag) (name := name) hz').2 h
        rw [hp, this] at hk
        cases hk; exact ⟨rfl, rfl⟩
  · have hne : ∀ t', t ≠ .ptr t' := fun t' h => ht ⟨t', h⟩
    have e : setWithProperType2 o (optOf fd tag) t s v name = setKind o (optOf fd tag) t s v name := by
      cases t <;> first | rfl | exact absurd rfl (hne _)
    rw [e, setKind_spec hz]
    constructor
    · exact .value hne
    · intro h
      cases h with
      | value _ h => exact h
      | ptr => exact absurd rfl (hne _)
      | alloc => exact absurd rfl (hne _)

theorem setElems_spec {fd : Field} {t : Ty} (hz : Sized t) {name : Str} (ss : List Str) (ws : List Val) :
    setElems o (optOf fd tag) t name ss = (.ok, ws) ↔
      ws.length = ss.length ∧ ∀ (i : Nat) s w, ss[i]? = some s → ws[i]? = some w → ConvP o fd t s .zero w := by
  induction ss generalizing ws with
  | nil =>
    simp only [setElems, Prod.mk.injEq, true_and, List.length_nil]
    constructor
    · rintro rfl; exact ⟨rfl, by simp⟩
    · intro h; exact (List.length_eq_zero_iff.1 h.1).symm
  | cons s ss ih =>
    unfold setElems
    rcases hs : setWithProperType2 o (optOf fd tag) t s .zero name with ⟨out, w⟩
    by_cases ho : out = .ok
    · subst ho
      have hc := (setWith_spec hz).1 hs
      rcases hr : setElems o (optOf fd tag) t name ss with ⟨out', ws'⟩
      simp only [Prod.mk.injEq]
      constructor
      · rintro ⟨rfl, rfl⟩
        obtain ⟨h1, h2⟩ := (ih ws').1 hr
        refine ⟨by simp [h1], ?_⟩
        intro i s' w' hi hw
        cases i with
        | zero => simp at hi hw; subst hi; subst hw; exact hc
        | succ i => exact h2 i s' w' (by simpa using hi) (by simpa using hw)
      · rintro ⟨h1, h2⟩
        cases ws with
        | nil => simp at h1
        | cons x xs =>
          have hx := h2 0 s x rfl rfl
          rw [(setWith_spec hz).2 hx] at hs
          cases hs
          have := (ih xs).2 ⟨by simpa using h1, fun i s' w' hi hw => h2 (i + 1) s' w' (by simpa using hi) (by simpa using hw)⟩
          rw [this] at hr
          cases hr
          exact ⟨rfl, rfl⟩
    · constructor
      · intro h
        cases out <;> first | exact absurd rfl ho | cases h
      · rintro ⟨h1, h2⟩
        cases ws with
        | nil => simp at h1
        | cons x xs =>
          have hx := h2 0 s x rfl rfl
          rw [(setWith_spec hz).2 hx] at hs
          cases hs
          exact absurd rfl ho

/-- Setting one field succeeds exactly as the specification says. -/
theorem trySet_spec {fd : Field} (hx : fd.exported = true) {t : Ty} (hz : Sized t) {v w : Val} :
    tryToSetValue2 o form files tag fd t v = (.ok, w) ↔ Sets o form files tag fd t v w := by
  obtain ⟨hn, hd, hdef, hde⟩ := parseFormName_eq fd tag
  cases hb : bindName fd tag with
  | none =>
    have hq : Quiet form files tag fd := ⟨by simp [input, hb], by simp [hb]⟩
    have hi : input form tag fd = none := hq.1
    rw [trySet_quiet hq]
    constructor
    · rintro ⟨⟩; exact .quiet hq
    · intro h
      cases h with
      | quiet => rfl
      | value h => rw [hi] at h; cases h
      | slice h => rw [hi] at h; cases h
      | files _ h => rw [hb] at h; cases h
      | file _ h => rw [hb] at h; cases h
  | some n =>
    rw [hb] at hn hd
    simp only [Option.getD_some] at hn
    have hd' : n ≠ b!"-" := fun h => hd (by rw [h])
    have hin : formValues form n (optOf fd tag) = input form tag fd := by
      unfold input formValues
      rw [hb]
      simp only [Option.bind_some]
      cases form.at n with
      | some vs => rfl
      | none =>
        have : (optOf fd tag).defaultValue = (bindDefault fd tag).getD [] := hdef
        rw [this]
        simp only
        cases hdf : bindDefault fd tag with
        | none => simp
        | some d =>
          rw [hdf] at hde
          have : d ≠ [] := fun h => hde (by rw [h])
          simp [this]
    have e : tryToSetValue2 o form files tag fd t v =
        match input form tag fd with
        | some vs => setFromValues o (optOf fd tag) n t vs v
        | none =>
          match files.at n with
          | none => (.ok, v)
          | some fs => setFromFiles n t fs v := by
      unfold tryToSetValue2
      have hpf : parseFormName fd tag = (n, optOf fd tag) := by rw [← hn]; rfl
      rw [hpf]
      simp only
      rw [if_neg hd', hin, hx]
      rfl
    rw [e]
    cases hi : input form tag fd with
    | some vs =>
      simp only
      cases vs with
      | nil =>
        have e2 : setFromValues o (optOf fd tag) n t [] v = (.panic, v) := by cases t <;> rfl
        rw [e2]
        constructor
        · intro h; cases h
        · intro h
          cases h with
          | quiet h => have := h.1; rw [hi] at this; cases this
          | value h => rw [hi] at h; cases h
          | slice h h' => rw [hi] at h; cases h; exact absurd rfl h'
          | files h => rw [hi] at h; cases h
          | file h => rw [hi] at h; cases h
      | cons s ss =>
        by_cases ht : ∃ el, t = .slice el
        · obtain ⟨el, rfl⟩ := ht
          have hz' : Sized el := hz
          unfold setFromValues
          simp only
          rcases hr : setElems o (optOf fd tag) el n (s :: ss) with ⟨out, xs⟩
          constructor
          · intro h
            have : out = .ok ∧ w = .slice xs := by
              cases out <;> simp at h ⊢
              exact h.symm
            obtain ⟨rfl, rfl⟩ := this
            obtain ⟨h1, h2⟩ := (setElems_spec hz' _ _).1 hr
            exact .slice hi (by simp) h1 h2
          · intro h
            cases h with
            | quiet h => have := h.1; rw [hi] at this; cases this
            | value _ h => exact absurd rfl (h _)
            | slice h1 h2 h3 h4 =>
              rw [hi] at h1
              cases h1
              rw [(setElems_spec hz' _ _).2 ⟨h3, h4⟩] at hr
              cases hr
              rfl
            | files h => rw [hi] at h; cases h
        · have hne : ∀ el, t ≠ .slice el := fun el h => ht ⟨el, h⟩
          have e2 : setFromValues o (optOf fd tag) n t (s :: ss) v = setWithProperType2 o (optOf fd tag) t s v n := by
            cases t <;> first | rfl | exact absurd rfl (hne _)
          rw [e2, setWith_spec hz]
          constructor
          · intro h; exact .value hi hne h
          · intro h
            cases h with
            | quiet h => have := h.1; rw [hi] at this; cases this
            | value h _ h' => rw [hi] at h; cases h; exact h'
            | slice => exact absurd rfl (hne _)
            | files => exact absurd rfl (hne _)
            | file h => rw [hi] at h; cases h
    | none =>
      simp only
      cases hf : files.at n with
      | none =>
        have hq : Quiet form files tag fd := ⟨hi, fun m hm => by rw [hb] at hm; cases hm; exact hf⟩
        simp only [Prod.mk.injEq, true_and]
        constructor
        · rintro rfl; exact .quiet hq
        · intro h
          cases h with
          | quiet => rfl
          | value h => rw [hi] at h; cases h
          | slice h => rw [hi] at h; cases h
          | files _ h h' => rw [hb] at h; cases h; rw [hf] at h'; cases h'
          | file _ h h' => rw [hb] at h; cases h; rw [hf] at h'; cases h'
      | some fs =>
        simp only
        constructor
        · intro h
          unfold setFromFiles at h
          split at h
          · cases h; exact .files hi hb hf (by simp)
          · cases h; exact .file hi hb hf
          · cases h
          · cases h
        · intro h
          cases h with
          | quiet h => have := h.2 n hb; rw [hf] at this; cases this
          | value h => rw [hi] at h; cases h
          | slice h => rw [hi] at h; cases h
          | files _ h h' h'' =>
            rw [hb] at h; cases h; rw [hf] at h'; cases h'
            cases fs with
            | nil => exact absurd rfl h''
            | cons f fs => rfl
          | file _ h h' => rw [hb] at h; cases h; rw [hf] at h'; cases h'; rfl

/-! ### the first bad field -/

theorem enters_unique {fd : Field} {x y y' : Val} {m m' : Nat} (h : Enters fd x m y) (h' : Enters fd x m' y') : m = m' ∧ y = y' := by
  cases h with
  | value _ h1 h2 =>
    cases h' with
    | value _ h3 => rw [h1] at h3; cases h3; exact ⟨rfl, rfl⟩
    | alloc _ h3 => rw [h1] at h3; cases h3
    | embedded _ h3 => rw [h1] at h3; cases h3
  | alloc _ h1 =>
    cases h' with
    | value _ h3 => rw [h1] at h3; cases h3
    | alloc _ h3 => rw [h1] at h3; cases h3; exact ⟨rfl, rfl⟩
  | embedded _ h1 =>
    cases h' with
    | value _ h3 => rw [h1] at h3; cases h3
    | embedded _ h3 => rw [h1] at h3; cases h3; exact ⟨rfl, rfl⟩

theorem mapForm_err {f : Nat} {t : Ty} {v : Val} {e : BErr} (h : (mapForm o E form files tag f t v).1 = .err e) :
    (∃ m, t = .struct m) ∨ ∃ m y, t = .ptr (.struct m) ∧ v = .ptr y := by
  cases f with
  | zero => simp [mapForm] at h
  | succ f =>
    cases t with
    | struct m => exact Or.inl ⟨m, rfl⟩
    | ptr t =>
      cases t <;> cases v <;> first | exact Or.inr ⟨_, _, rfl, rfl⟩ | (simp [mapForm] at h)
    | _ => cases v <;> simp [mapForm] at h

theorem hasTy_notPtr {n : Nat} {v : Val} (h : HasTy E (.struct n) v) (w : Val) : v ≠ .ptr w := by
  cases h with
  | zero => simp
  | struct => simp
  | plain h => exact absurd rfl (h n)

theorem hasTy_field {n i : Nat} {v : Val} (h : HasTy E (.struct n) v) {fd : Field} {x : Val} (h1 : (E n)[i]? = some fd)
    (h2 : (fieldVals (E n).length v)[i]? = some x) : HasTy E fd.ty x := by
  cases h with
  | zero =>
    simp only [fieldVals, List.getElem?_replicate] at h2
    split at h2
    · cases h2; exact .zero
    · cases h2
  | struct _ h => exact h i fd x h1 h2
  | plain h => exact absurd rfl (h n)

theorem hasTy_enters {fd : Field} {x y : Val} {m : Nat} (h : HasTy E fd.ty x) (he : Enters fd x m y) : HasTy E (.struct m) y := by
  cases he with
  | value _ h1 h2 => rw [← h1]; exact h
  | alloc => exact .zero
  | embedded _ h1 h2 =>
    rw [h1] at h
    cases h with
    | ptr h => exact h
    | plain _ h => exact absurd rfl (h _)

/-- A field that is looked at and does not fail has been set. -/
theorem mapField_ok {walk : Ty → Val → BOut × Val} {fd : Field} {x y : Val} (hv : Visible fd)
    (h : mapField o form files tag walk fd x = (.ok, y)) :
    ∃ t z w, tryToSetValue2 o form files tag fd t z = (.ok, w) ∧ (t = fd.ty ∨ fd.ty = .ptr t) := by
  have hvis : (!fd.exported && !fd.anonymous) = false := by
    rcases hv with h | h <;> simp [h]
  unfold mapField at h
  rw [hvis] at h
  simp only [Bool.false_eq_true, if_false] at h
  cases ha : allocates fd x with
  | none =>
    rw [ha] at h
    simp only at h
    generalize (if descends fd fd.ty = true then walk fd.ty x else (BOut.ok, x)) = r at h
    obtain ⟨o1, z⟩ := r
    cases o1 <;> simp at h
    exact ⟨fd.ty, z, y, h, Or.inl rfl⟩
  | some t =>
    rw [ha] at h
    simp only at h
    have ht : fd.ty = .ptr t := by
      unfold allocates at ha
      split at ha
      · cases ha
      · cases ha
      · rename_i t' _ hne _ heq
        split at ha
        · cases ha; assumption
        · cases ha
      · cases ha
    split at h
    · cases h
    · generalize (if descends fd t = true then walk t .zero else (BOut.ok, Val.zero)) = r at h
      obtain ⟨o1, z⟩ := r
      cases o1 <;> simp at h
      exact ⟨t, z, _, Prod.ext h.1 rfl, Or.inr ht⟩

/-- Where the error of a field comes from. -/
theorem mapField_err {f : Nat} {fd : Field} {x y : Val} {e : BErr} (hty : HasTy E fd.ty x)
    (h : mapField o form files tag (mapForm o E form files tag f) fd x = (.err e, y)) :
    (∃ m y0, Enters fd x m y0 ∧ (mapForm o E form files tag f (.struct m) y0).1 = .err e) ∨
    (Visible fd ∧ (∃ t z, (tryToSetValue2 o form files tag fd t z).1 = .err e ∧ (t = fd.ty ∨ fd.ty = .ptr t) ∧ (Scalar fd → t = fd.ty ∧ z = x)) ∧
      ∀ m y0, Enters fd x m y0 → (mapForm o E form files tag f (.struct m) y0).1 = .ok) := by
  have hvis : Visible fd := by
    by_cases hv : Visible fd
    · exact hv
    · rw [mapField_hidden hv] at h; cases h
  by_cases hp : Scalar fd
  · right
    refine ⟨hvis, ⟨fd.ty, x, ?_, Or.inl rfl, fun _ => ⟨rfl, rfl⟩⟩, ?_⟩
    · rw [mapField_plain hp] at h; rw [h]
    · intro m y0 he
      obtain ⟨h1, h2, h3⟩ := hp
      cases he with
      | value _ ht => rw [ht] at h3; exact h3.elim
      | alloc _ ht => rw [ht] at h3; exact h3.elim
      | embedded ha => rw [h2] at ha; cases ha
  · have hvis' : (!fd.exported && !fd.anonymous) = false := by
      rcases hvis with h | h <;> simp [h]
    by_cases hent : ∃ m y0, Enters fd x m y0
    · obtain ⟨m, y0, he⟩ := hent
      obtain ⟨wrap, _, _, w3, _, _⟩ := mapField_enters (o := o) (form := form) (files := files) (tag := tag)
        (through_mapForm (o := o) (E := E) (form := form) (files := files) (tag := tag) f) he
      by_cases hok : (mapForm o E form files tag f (.struct m) y0).1 = .ok
      · right
        refine ⟨hvis, ?_, ?_⟩
        · unfold mapField at h
          rw [hvis'] at h
          simp only [Bool.false_eq_true, if_false] at h
          cases he with
          | value _ ht hn =>
            have ha : allocates fd x = none := by simp [allocates, ht]
            have hd : descends fd fd.ty = true := by simp [descends, ht, Ty.isStruct]
            rw [ha, hd] at h
            simp only [if_true] at h
            rw [← ht] at hok
            rcases hr : mapForm o E form files tag f fd.ty x with ⟨o1, z⟩
            rw [hr] at h hok
            simp only at hok
            subst hok
            simp only at h
            exact ⟨fd.ty, z, by rw [h], Or.inl rfl, fun h => absurd h hp⟩
          | alloc hx ht =>
            have ha : allocates fd .zero = some (.struct m) := by simp [allocates, ht, Ty.isStruct]
            have hd : descends fd (.struct m) = true := by simp [descends, Ty.isStruct]
            rw [ha] at h
            simp only [hx, hd, if_true, Bool.not_true, Bool.false_eq_true, if_false] at h
            rcases hr : mapForm o E form files tag f (.struct m) .zero with ⟨o1, z⟩
            rw [hr] at h hok
            simp only at hok
            subst hok
            simp only [Prod.mk.injEq] at h
            exact ⟨.struct m, z, h.1, Or.inr ht, fun h => absurd h hp⟩
          | embedded han ht hn =>
            have ha : allocates fd (.ptr y0) = none := by simp [allocates, ht]
            have hd : descends fd fd.ty = true := by simp [descends, han]
            rw [ha, hd] at h
            simp only [if_true] at h
            have hw := through_mapForm (o := o) (E := E) (form := form) (files := files) (tag := tag) f m y0
            rw [← ht] at hw
            rw [hw, hok] at h
            simp only at h
            exact ⟨fd.ty, _, by rw [h], Or.inl rfl, fun h => absurd h hp⟩
        · intro m' y0' he'
          obtain ⟨rfl, rfl⟩ := enters_unique he he'
          exact hok
      · left
        have := w3 hok
        rw [this] at h
        simp only [Prod.mk.injEq] at h
        exact ⟨m, y0, he, h.1⟩
    · right
      refine ⟨hvis, ?_, fun m y0 he => absurd ⟨m, y0, he⟩ hent⟩
      unfold mapField at h
      rw [hvis'] at h
      simp only [Bool.false_eq_true, if_false] at h
      cases ha : allocates fd x with
      | none =>
        rw [ha] at h
        simp only at h
        by_cases hd : descends fd fd.ty = true
        · rw [if_pos hd] at h
          rcases hr : mapForm o E form files tag f fd.ty x with ⟨o1, z⟩
          rw [hr] at h
          cases o1 with
          | ok => simp only at h; exact ⟨fd.ty, z, by rw [h], Or.inl rfl, fun h => absurd h hp⟩
          | err e' =>
            rcases mapForm_err (f := f) (t := fd.ty) (v := x) (e := e') (by rw [hr]) with ⟨m, ht⟩ | ⟨m, y0, ht, hx⟩
            · refine absurd ⟨m, x, .value hvis ht ?_⟩ hent
              intro w
              rw [ht] at hty
              exact hasTy_notPtr hty w
            · subst hx
              rw [ht] at hty
              have hy : ∀ w, y0 ≠ .ptr w := by
                intro w
                cases hty with
                | ptr h => exact hasTy_notPtr h w
                | plain _ h => exact absurd rfl (h _)
              have han : fd.anonymous = true := by
                simpa [descends, ht, Ty.isStruct] using hd
              exact absurd ⟨m, y0, .embedded han ht hy⟩ hent
          | panic => simp at h
          | fuel => simp at h
        · rw [if_neg hd] at h
          simp only at h
          exact ⟨fd.ty, x, by rw [h], Or.inl rfl, fun _ => ⟨rfl, rfl⟩⟩
      | some t =>
        rw [ha] at h
        simp only at h
        have ht : fd.ty = .ptr t := by
          unfold allocates at ha
          split at ha
          · cases ha
          · cases ha
          · split at ha
            · cases ha; assumption
            · cases ha
          · cases ha
        have hx0 : x = .zero := by
          rw [ht] at hty
          cases hty with
          | zero => rfl
          | ptr => simp only [allocates, ht] at ha; split at ha <;> first | cases ha | simp_all
          | plain _ h => exact absurd rfl (h _)
        split at h
        · cases h
        · rename_i hx
          simp only [Bool.not_eq_true, Bool.not_eq_false'] at hx
          by_cases hd : descends fd t = true
          · rw [if_pos hd] at h
            rcases hr : mapForm o E form files tag f t .zero with ⟨o1, z⟩
            rw [hr] at h
            cases o1 with
            | ok =>
              simp only [Prod.mk.injEq] at h
              exact ⟨t, z, h.1, Or.inr ht, fun h => absurd h hp⟩
            | err e' =>
              rcases mapForm_err (f := f) (t := t) (v := .zero) (e := e') (by rw [hr]) with ⟨m, hm⟩ | ⟨m, y0, hm, hz⟩
              · subst hm; subst hx0
                exact absurd ⟨m, .zero, .alloc hx ht⟩ hent
              · cases hz
            | panic => simp at h
            | fuel => simp at h
          · rw [if_neg hd] at h
            simp only [Prod.mk.injEq] at h
            exact ⟨t, .zero, h.1, Or.inr ht, fun h => absurd h hp⟩

theorem precedes_cons {i : Nat} {p q : List Nat} (h : Sooner p q) : Sooner (i :: p) (i :: q) := by
  obtain ⟨c, a, b, p', q', rfl, rfl, hab⟩ := h
  exact ⟨i :: c, a, b, p', q', rfl, rfl, hab⟩

theorem precedes_cons_iff {i j : Nat} {p q : List Nat} : Sooner (i :: p) (j :: q) ↔ i < j ∨ (i = j ∧ Sooner p q) := by
  constructor
  · rintro ⟨c, a, b, p', q', h1, h2, hab⟩
    cases c with
    | nil => simp at h1 h2; left; omega
    | cons d c =>
      simp at h1 h2
      right
      exact ⟨by omega, c, a, b, p', q', h1.2, h2.2, hab⟩
  · rintro (h | ⟨rfl, h⟩)
    · exact ⟨[], i, j, p, q, rfl, rfl, h⟩
    · exact precedes_cons h

/-- Binding that fails with an error fails at one field; those before are set, those after are untouched. -/
theorem first_bad (f : Nat) {n : Nat} {v : Val} {e : BErr} (hty : HasTy E (.struct n) v)
    (h : (mapForm o E form files tag f (.struct n) v).1 = .err e) :
    ∃ p fd x t z, Occurs E (fun _ => True) n v p fd x ∧ Visible fd ∧ (tryToSetValue2 o form files tag fd t z).1 = .err e ∧
      (t = fd.ty ∨ fd.ty = .ptr t) ∧ (Scalar fd → t = fd.ty ∧ z = x) ∧
      (∀ q fd' x', Occurs E (fun _ => True) n v q fd' x' → Scalar fd' → Earlier q p →
        (tryToSetValue2 o form files tag fd' fd'.ty x').1 = .ok) ∧
      (∀ q fd' x', Occurs E (fun _ => True) n v q fd' x' → Sooner p q →
        get (mapForm o E form files tag f (.struct n) v).2 q = x') := by
  induction f generalizing n v with
  | zero => simp [mapForm] at h
  | succ f ih =>
    rw [mapForm_struct] at h ⊢
    have hspec := (mapFields_spec (mapField o form files tag (mapForm o E form files tag f)) (E n) (fieldVals (E n).length v)).2
    generalize hr : mapFields (mapField o form files tag (mapForm o E form files tag f)) (E n) (fieldVals (E n).length v) = r at hspec h ⊢
    obtain ⟨out, vs⟩ := r
    simp only at hspec h ⊢
    subst h
    rcases hspec with ⟨h, _⟩ | ⟨k, fd, x, y, k1, k2, k3, k4, k5, k6, k7⟩
    · cases h
    -- fields of a later entry are untouched
    have hlate : ∀ (i : Nat) q fd' x', k < i → Occurs E (fun _ => True) n v (i :: q) fd' x' → get (.struct vs) (i :: q) = x' := by
      intro i q fd' x' hki ho
      cases ho with
      | here h1 h2 => rw [get_at ((k7 i hki).trans h2), get_nil]
      | inside h1 h2 _ he ho =>
        obtain ⟨j, q', rfl⟩ := occurs_path ho
        rw [get_at ((k7 i hki).trans h2), enters_get he]
        exact occurs_get ho (enters_notPtr he)
    -- plain fields inside a walk that went well are settable
    have hinner : ∀ m y0, (∀ w, y0 ≠ .ptr w) → (mapForm o E form files tag f (.struct m) y0).1 = .ok →
        ∀ q fd' x', Occurs E (fun _ => True) m y0 q fd' x' → Scalar fd' → (tryToSetValue2 o form files tag fd' fd'.ty x').1 = .ok := by
      intro m y0 hn hok q fd' x' ho hp
      rcases fate (o := o) (form := form) (files := files) (tag := tag) (fun _ => mapField_plain hp) f hn ho with h | h | h
      · exact absurd hok h.1
      · exact absurd hok h.1
      · exact h.1
    have hearly : ∀ (i : Nat) q fd' x', i < k → Occurs E (fun _ => True) n v (i :: q) fd' x' → Scalar fd' →
        (tryToSetValue2 o form files tag fd' fd'.ty x').1 = .ok := by
      intro i q fd' x' hik ho hp
      cases ho with
      | here h1 h2 =>
        obtain ⟨y1, hy1, _⟩ := k6 i fd' x' hik h1 h2
        rw [mapField_plain hp] at hy1
        rw [hy1]
      | inside h1 h2 hq he ho =>
        rename_i fd1 x1 m y0
        obtain ⟨y1, hy1, _⟩ := k6 i fd1 x1 hik h1 h2
        obtain ⟨_, _, _, w3, _, _⟩ := mapField_enters (o := o) (form := form) (files := files) (tag := tag)
          (through_mapForm (o := o) (E := E) (form := form) (files := files) (tag := tag) f) he
        by_cases hok : (mapForm o E form files tag f (.struct m) y0).1 = .ok
        · exact hinner m y0 (enters_notPtr he) hok q fd' x' ho hp
        · have := w3 hok
          rw [this] at hy1
          simp only [Prod.mk.injEq] at hy1
          exact absurd hy1.1 hok
    have hfty := hasTy_field hty k1 k2
    rcases mapField_err hfty k3 with ⟨m, y0, he, herr⟩ | ⟨hvis, ⟨t, z, h1, h2, h3⟩, hall⟩
    · obtain ⟨p, fd', x', t, z, i1, i2, i3, i4, i5, i6, i7⟩ := ih (hasTy_enters hfty he) herr
      refine ⟨k :: p, fd', x', t, z, .inside k1 k2 trivial he i1, i2, i3, i4, i5, ?_, ?_⟩
      · intro q fd1 x1 ho hp hearlier
        obtain ⟨i, q', rfl⟩ := occurs_path ho
        have hcase : i < k ∨ (i = k ∧ Earlier q' p) := by
          rcases hearlier with hpr | ⟨a, r, hr'⟩
          · rcases precedes_cons_iff.1 hpr with h | ⟨h, h'⟩
            · exact Or.inl h
            · exact Or.inr ⟨h, Or.inl h'⟩
          · simp at hr'
            exact Or.inr ⟨hr'.1, Or.inr ⟨a, r, hr'.2⟩⟩
        rcases hcase with hik | ⟨rfl, hq⟩
        · exact hearly i q' fd1 x1 hik ho hp
        · cases ho with
          | here h1 h2 =>
            obtain ⟨j, p', rfl⟩ := occurs_path i1
            rcases hq with ⟨c, a, b, p'', q'', hc, _, _⟩ | ⟨a, r, hc⟩ <;> simp at hc
          | inside h1 h2 _ he' ho =>
            rw [k1] at h1; cases h1
            rw [k2] at h2; cases h2
            obtain ⟨rfl, rfl⟩ := enters_unique he he'
            exact i6 q' fd1 x1 ho hp hq
      · intro q fd1 x1 ho hpr
        obtain ⟨i, q', rfl⟩ := occurs_path ho
        rcases precedes_cons_iff.1 hpr with hik | ⟨rfl, hq⟩
        · exact hlate i q' fd1 x1 hik ho
        · cases ho with
          | here h1 h2 =>
            obtain ⟨c, a, b, p'', q'', _, hc, _⟩ := hq
            simp at hc
          | inside h1 h2 _ he' ho =>
            rw [k1] at h1; cases h1
            rw [k2] at h2; cases h2
            obtain ⟨rfl, rfl⟩ := enters_unique he he'
            obtain ⟨wrap, w1, _, w3, _, _⟩ := mapField_enters (o := o) (form := form) (files := files) (tag := tag)
              (through_mapForm (o := o) (E := E) (form := form) (files := files) (tag := tag) f) he
            have := w3 (by rw [herr]; simp)
            rw [this] at k3
            simp only [Prod.mk.injEq] at k3
            rw [← k3.2] at k5
            obtain ⟨j, q'', rfl⟩ := occurs_path ho
            rw [get_at k5, w1 _ (fun w => mapForm_notPtr (enters_notPtr he) w)]
            exact i7 _ fd1 x1 ho hq
    · refine ⟨[k], fd, x, t, z, .here k1 k2, hvis, h1, h2, h3, ?_, ?_⟩
      · intro q fd1 x1 ho hp hearlier
        obtain ⟨i, q', rfl⟩ := occurs_path ho
        rcases hearlier with hpr | ⟨a, r, hr'⟩
        · rcases precedes_cons_iff.1 hpr with h | ⟨_, c, a, b, p'', q'', _, hc, _⟩
          · exact hearly i q' fd1 x1 h ho hp
          · simp at hc
        · simp at hr'
          obtain ⟨rfl, rfl⟩ := hr'
          cases ho with
          | inside g1 g2 _ he ho =>
            rw [k1] at g1; cases g1
            rw [k2] at g2; cases g2
            exact hinner _ _ (enters_notPtr he) (hall _ _ he) _ fd1 x1 ho hp
      · intro q fd1 x1 ho hpr
        obtain ⟨i, q', rfl⟩ := occurs_path ho
        rcases precedes_cons_iff.1 hpr with hik | ⟨_, c, a, b, p'', q'', hc, _, _⟩
        · exact hlate i q' fd1 x1 hik ho
        · simp at hc

/-- A successful binding has set every field it looked at. -/
theorem all_set (f : Nat) {n : Nat} {v : Val} {p : List Nat} {fd : Field} {x : Val}
    (hok : (mapForm o E form files tag f (.struct n) v).1 = .ok) (h : Occurs E (fun _ => True) n v p fd x) (hv : Visible fd) :
    ∃ t z w, tryToSetValue2 o form files tag fd t z = (.ok, w) ∧ (t = fd.ty ∨ fd.ty = .ptr t) := by
  induction f generalizing n v p with
  | zero => simp [mapForm] at hok
  | succ f ih =>
    rw [mapForm_struct] at hok
    have hspec := (mapFields_spec (mapField o form files tag (mapForm o E form files tag f)) (E n) (fieldVals (E n).length v)).2
    simp only at hok
    rcases hspec with ⟨_, hall⟩ | ⟨k, _, _, _, _, _, _, k4, _⟩
    · cases h with
      | here h1 h2 =>
        obtain ⟨y, hy, _⟩ := hall _ fd x h1 h2
        exact mapField_ok hv hy
      | inside h1 h2 hq he ho =>
        obtain ⟨y, hy, _⟩ := hall _ _ _ h1 h2
        refine ih ?_ ho
        obtain ⟨_, _, _, w3, _, _⟩ := mapField_enters (o := o) (form := form) (files := files) (tag := tag)
          (through_mapForm (o := o) (E := E) (form := form) (files := files) (tag := tag) f) he
        refine Classical.byContradiction fun hne => ?_
        have := w3 hne
        rw [this] at hy
        simp only [Prod.mk.injEq] at hy
        exact hne hy.1
    · exact absurd hok k4

/-! ### depth -/

theorem mapFields_fuel {step : Field → Val → BOut × Val} {fds : List Field} {vs : List Val}
    (h : ∀ fd ∈ fds, ∀ x, (step fd x).1 ≠ .fuel) : (mapFields step fds vs).1 ≠ .fuel := by
  intro hc
  rcases (mapFields_spec step fds vs).2 with ⟨h1, _⟩ | ⟨k, fd, x, y, k1, k2, k3, k4, _⟩
  · rw [h1] at hc; cases hc
  · rw [hc] at k3
    exact h fd (List.mem_of_getElem? k1) x (by rw [k3])

theorem setTime_fuel {opt : SetOptions} {s : Str} {v : Val} : (setTimeField2 o s opt v).1 ≠ .fuel := by
  unfold setTimeField2
  generalize (if opt.timeFormat = [] then rfc3339 else opt.timeFormat) = tf
  generalize (if opt.timeLocation ≠ [] then ((none : Option Bool), opt.timeLocation) else (some (parseBool opt.timeUtc).1, [])) = l
  simp only
  split
  · rcases parseInt 64 s with ⟨i, _ | e⟩ <;> simp
  · split
    · simp
    · split
      · simp
      · split <;> simp

theorem setKind_fuel {opt : SetOptions} {t : Ty} {s : Str} {v : Val} {name : Str} : (setKind o opt t s v name).1 ≠ .fuel := by
  cases t with
  | int bits => simp only [setKind]; rcases parseInt 64 (if s = [] then b!"0" else s) with ⟨i, _ | e⟩ <;> simp
  | uint bits => simp only [setKind]; rcases parseUint 64 (if s = [] then b!"0" else s) with ⟨i, _ | e⟩ <;> simp
  | duration => simp only [setKind]; rcases parseInt 64 (if s = [] then b!"0" else s) with ⟨i, _ | e⟩ <;> simp
  | bool => simp only [setKind]; rcases parseBool (if s = [] then b!"false" else s) with ⟨i, _ | e⟩ <;> simp
  | float bits => simp only [setKind]; cases o.float bits (if s = [] then b!"0.0" else s) <;> simp
  | time => exact setTime_fuel
  | file => simp only [setKind]; rcases o.json .file s v with ⟨_ | e, i⟩ <;> simp
  | struct n => simp only [setKind]; rcases o.json (.struct n) s v with ⟨_ | e, i⟩ <;> simp
  | map k el => simp only [setKind]; rcases o.json (.map k el) s v with ⟨_ | e, i⟩ <;> simp
  | _ => simp [setKind]

theorem setWith_fuel {opt : SetOptions} {t : Ty} {s : Str} {v : Val} {name : Str} : (setWithProperType2 o opt t s v name).1 ≠ .fuel := by
  cases t <;> exact setKind_fuel

theorem setElems_fuel {opt : SetOptions} {t : Ty} {name : Str} (ss : List Str) : (setElems o opt t name ss).1 ≠ .fuel := by
  induction ss with
  | nil => simp [setElems]
  | cons s ss ih =>
    unfold setElems
    have := setWith_fuel (o := o) (opt := opt) (t := t) (s := s) (v := .zero) (name := name)
    rcases hr : setWithProperType2 o opt t s .zero name with ⟨out, w⟩
    rw [hr] at this
    cases out with
    | ok => exact ih
    | err e => simp
    | panic => simp
    | fuel => exact absurd rfl this

theorem trySet_fuel {fd : Field} {t : Ty} {v : Val} : (tryToSetValue2 o form files tag fd t v).1 ≠ .fuel := by
  unfold tryToSetValue2
  rcases parseFormName fd tag with ⟨n, opt⟩
  simp only
  split
  · simp
  · split
    · split
      · simp
      · unfold setFromValues
        split
        · rename_i el c cs _
          have := setElems_fuel (o := o) (opt := opt) (t := el) (name := n) (c :: cs)
          rcases hr : setElems o opt el n (c :: cs) with ⟨out, xs⟩
          rw [hr] at this
          cases out with
          | fuel => exact absurd rfl this
          | _ => simp
        · simp
        · exact setWith_fuel
    · split
      · simp
      · split
        · simp
        · unfold setFromFiles
          split <;> simp

/-- Running out of depth comes from the walk. -/
theorem mapField_fuel {walk : Ty → Val → BOut × Val} {fd : Field} {x : Val}
    (h : Visible fd → (∀ y, (walk fd.ty y).1 ≠ .fuel) ∧ ∀ t, fd.ty = .ptr t → (walk t .zero).1 ≠ .fuel) : (mapField o form files tag walk fd x).1 ≠ .fuel := by
  by_cases hv : Visible fd
  · have h := h hv
    have hvis : (!fd.exported && !fd.anonymous) = false := by
      rcases hv with h | h <;> simp [h]
    unfold mapField
    rw [hvis]
    simp only [Bool.false_eq_true, if_false]
    cases ha : allocates fd x with
    | none =>
      simp only
      have : (if descends fd fd.ty = true then walk fd.ty x else (BOut.ok, x)).1 ≠ .fuel := by
        split
        · exact h.1 _
        · simp
      generalize (if descends fd fd.ty = true then walk fd.ty x else (BOut.ok, x)) = r at this
      obtain ⟨o1, z⟩ := r
      cases o1 with
      | ok => exact trySet_fuel
      | err => simp
      | panic => simp
      | fuel => exact absurd rfl this
    | some t =>
      have ht : fd.ty = .ptr t := by
        unfold allocates at ha
        split at ha
        · cases ha
        · cases ha
        · split at ha
          · cases ha; assumption
          · cases ha
        · cases ha
      simp only
      split
      · simp
      · have : (if descends fd t = true then walk t .zero else (BOut.ok, Val.zero)).1 ≠ .fuel := by
          split
          · exact h.2 _ ht
          · simp
        generalize (if descends fd t = true then walk t .zero else (BOut.ok, Val.zero)) = r at this
        obtain ⟨o1, z⟩ := r
        cases o1 with
        | ok => exact trySet_fuel
        | err => simp
        | panic => simp
        | fuel => exact absurd rfl this
  · rw [mapField_hidden hv]; simp

/-- If every struct type ranks above those of its fields, a depth above the rank suffices. -/
theorem enough (rank : Nat → Nat)
    (hr : ∀ n fd m, fd ∈ E n → Visible fd → (fd.ty = .struct m ∨ fd.ty = .ptr (.struct m)) → rank m < rank n) (f : Nat) :
    (∀ n v, rank n + 1 < f → (mapForm o E form files tag f (.struct n) v).1 ≠ .fuel) ∧
    (∀ n v, rank n + 1 < f → (mapForm o E form files tag f (.ptr (.struct n)) v).1 ≠ .fuel) ∧
    (∀ t v, 0 < f → (∀ m, t ≠ .struct m ∧ t ≠ .ptr (.struct m)) → (mapForm o E form files tag f t v).1 ≠ .fuel) := by
  induction f with
  | zero => exact ⟨by intros; omega, by intros; omega, by intros; omega⟩
  | succ f ih =>
    obtain ⟨i1, i2, i3⟩ := ih
    have hs : ∀ n v, rank n + 1 < f + 1 → (mapForm o E form files tag (f + 1) (.struct n) v).1 ≠ .fuel := by
      intro n v hn
      rw [mapForm_struct]
      refine mapFields_fuel ?_
      intro fd hfd x
      refine mapField_fuel ?_
      intro hv
      refine ⟨?_, ?_⟩
      · intro y
        by_cases h1 : ∃ m, fd.ty = .struct m
        · obtain ⟨m, h1⟩ := h1
          have := hr n fd m hfd hv (Or.inl h1)
          rw [h1]
          exact i1 m y (by omega)
        · by_cases h2 : ∃ m, fd.ty = .ptr (.struct m)
          · obtain ⟨m, h2⟩ := h2
            have := hr n fd m hfd hv (Or.inr h2)
            rw [h2]
            exact i2 m y (by omega)
          · exact i3 _ y (by omega) (fun m => ⟨fun h => h1 ⟨m, h⟩, fun h => h2 ⟨m, h⟩⟩)
      · intro t ht
        by_cases h1 : ∃ m, t = .struct m
        · obtain ⟨m, rfl⟩ := h1
          have := hr n fd m hfd hv (Or.inr ht)
          exact i1 m _ (by omega)
        · by_cases h2 : ∃ m, t = .ptr (.struct m)
          · obtain ⟨m, rfl⟩ := h2
            obtain ⟨g, rfl⟩ : ∃ g, f = g + 1 := ⟨f - 1, by omega⟩
            simp [mapForm]
          · exact i3 _ _ (by omega) (fun m => ⟨fun h => h1 ⟨m, h⟩, fun h => h2 ⟨m, h⟩⟩)
    refine ⟨hs, ?_, ?_⟩
    · intro n v hn
      cases v with
      | ptr y =>
        rw [through_mapForm (f + 1) n y]
        exact hs n y hn
      | _ => simp [mapForm]
    · intro t v _ ht
      cases t with
      | struct m => exact absurd rfl (ht m).1
      | ptr t =>
        cases t with
        | struct m => exact absurd rfl (ht m).2
        | _ => cases v <;> simp [mapForm]
      | _ => simp [mapForm]

end

end Water
