import Verif.Spec.JsonBind
import Verif.Lemmas.Json
import Verif.Lemmas.Strconv
/- Sending a value as JSON and reading it back. -/
namespace Water
open Spec
variable {E : TyEnv}

theorem head_plain {s : Str} {c : UInt8} (h : c ∉ s) : head s c = (s, []) := by
  unfold head; rw [indexByte_none.2 h]

theorem head_cut {s r : Str} {c : UInt8} (h : c ∉ s) : head (s ++ c :: r) c = (s, r) := by
  unfold head; rw [indexByte_append h]; simp

theorem sentUnder_head {fd : Field} {k : Str} {opt : Bool} (h : SentUnder fd k opt) : jsonKey fd = some k ∧ omitsEmpty fd = opt := by
  obtain ⟨h1, h2, name, h3, h4, rfl⟩ := h
  have hh : head (fd.tag b!"json") 44 = (name, if opt then b!"omitempty" else []) := by
    rw [h4]
    cases opt with
    | true => exact head_cut h3
    | false => simp only [Bool.false_eq_true, if_false, List.append_nil]; exact head_plain h3
  constructor
  · unfold jsonKey
    rw [if_neg h2, h1, hh]
    by_cases hn : name = []
    · rw [if_pos hn, if_pos hn]; rfl
    · rw [if_neg hn, if_neg hn]; rfl
  · unfold omitsEmpty
    rw [hh]
    cases opt <;> rfl

theorem neverSent_key {fd : Field} (h : NeverSent fd) : jsonKey fd = none := by
  unfold jsonKey
  by_cases h1 : fd.tag b!"json" = b!"-"
  · rw [if_pos h1]
  · rw [if_neg h1, h.resolve_right h1]; rfl

theorem neverSent_not {fd : Field} {k : Str} {opt : Bool} (h : NeverSent fd) (h' : SentUnder fd k opt) : False := by
  have := neverSent_key h
  rw [(sentUnder_head h').1] at this
  cases this

theorem emptyVal_iff (v : Val) : emptyVal v = true ↔ EmptyV v := by
  unfold EmptyV
  cases v with
  | slice l => cases l <;> simp [emptyVal]
  | _ => simp [emptyVal]

theorem sentAs_none {fd : Field} {v : Val} (hp : NeverSent fd ∨ ∃ k opt, SentUnder fd k opt) :
    sentAs fd v = none ↔ (NeverSent fd ∨ ∃ k, SentUnder fd k true ∧ EmptyV v) := by
  unfold sentAs
  rcases hp with h | ⟨k, opt, h⟩
  · rw [neverSent_key h]
    simp only [ite_self, true_iff]
    exact .inl h
  · obtain ⟨h1, h2⟩ := sentUnder_head h
    rw [h1, h2]
    constructor
    · intro e
      split at e
      · rename_i hc
        rw [Bool.and_eq_true, emptyVal_iff] at hc
        exact .inr ⟨k, hc.1 ▸ h, hc.2⟩
      · cases e
    · rintro (h' | ⟨k', h', hv⟩)
      · exact (neverSent_not h' h).elim
      · rw [(sentUnder_head h').2.symm.trans h2 |>.symm, (emptyVal_iff v).2 hv]; rfl

theorem sentAs_some {fd : Field} {v : Val} {k : Str} (hp : NeverSent fd ∨ ∃ k opt, SentUnder fd k opt) (h : sentAs fd v = some k) :
    ∃ opt, SentUnder fd k opt ∧ (opt = true → ¬ EmptyV v) := by
  have hn : ¬ sentAs fd v = none := by rw [h]; simp
  rw [sentAs_none hp] at hn
  rcases hp with h' | ⟨k', opt, h'⟩
  · exact (hn (.inl h')).elim
  · have : k' = k := by
      unfold sentAs at h
      split at h
      · cases h
      · rw [(sentUnder_head h').1] at h; exact Option.some.inj h
    subst this
    refine ⟨opt, h', ?_⟩
    rintro rfl hv
    exact hn (.inr ⟨_, h', hv⟩)

theorem fieldFor_exact {fds : List Field} (hp : PlainFields fds) {i : Nat} {fd : Field} {k : Str} {opt : Bool} (hi : fds[i]? = some fd)
    (hk : SentUnder fd k opt) : fieldFor fds k = some i := by
  have : fds.findIdx? (fun fd => jsonKey fd == some k) = some i := by
    rw [List.findIdx?_eq_some_iff_getElem]
    obtain ⟨hlt, he⟩ := List.getElem?_eq_some_iff.1 hi
    refine ⟨hlt, by rw [he, (sentUnder_head hk).1]; simp, ?_⟩
    intro j hj
    rw [beq_iff_eq]
    intro e
    have hjl : j < fds.length := Nat.lt_trans hj hlt
    rcases (hp.1 _ (List.getElem_mem hjl)).2 with h | ⟨k', b, h⟩
    · rw [neverSent_key h] at e; cases e
    · rw [(sentUnder_head h).1] at e
      cases e
      have := hp.2 j i _ _ _ _ _ (List.getElem?_eq_getElem hjl) hi h hk
      omega
  unfold fieldFor
  rw [this]

theorem readJson_ptr (t : Ty) {j : JTree} (hj : j ≠ .null) (cur : Val) :
    readJson E (.ptr t) j cur = (readJson E t j (behindPtr t cur)).map .ptr := by
  cases j with
  | null => exact absurd rfl hj
  | _ => simp only [readJson, readThrough]

theorem toG_ptr (t : Ty) (v : Val) : toG E (.ptr t) (.ptr v) = toG E t v := by rw [toG]

/-- the elements of a slice -/
theorem elems_read (t : Ty) (vs : List Val) : ∀ old : List Val,
    (∀ (i : Nat) v, vs[i]? = some v → ∃ j, Shows (toG E t v) j ∧ readJson E t j (old[i]?.getD (blank t)) = some v) →
    ∃ js, Shows (.list (elemsG E t vs)) (.arr js) ∧ readElems E t js old = some vs := by
  induction vs with
  | nil => intro old _; exact ⟨[], by rw [elemsG]; exact .list0, by rw [readElems]⟩
  | cons v vs ih =>
    intro old h
    obtain ⟨j, h1, h2⟩ := h 0 v rfl
    obtain ⟨js, h3, h4⟩ := ih old.tail (by
      intro i w hw
      obtain ⟨j, a, b⟩ := h (i + 1) w (by simpa using hw)
      refine ⟨j, a, ?_⟩
      rw [← b]
      cases old <;> simp)
    refine ⟨j :: js, by rw [elemsG]; exact .list h1 h3, ?_⟩
    rw [readElems]
    have : old.headD (blank t) = old[0]?.getD (blank t) := by cases old <;> rfl
    rw [this, h2]
    simp only [h4, Option.map_some]

/-- the fields of a struct, from the `p`-th on -/
theorem fields_read {fds : List Field} (hp : PlainFields fds) {vs cur : List Val} (hv : vs.length = fds.length) (hc : cur.length = fds.length)
    (hun : ∀ (i : Nat) fd v, fds[i]? = some fd → vs[i]? = some v → (NeverSent fd ∨ ∃ k, SentUnder fd k true ∧ EmptyV v) → cur[i]? = some v)
    (hs : ∀ (i : Nat) fd v w k opt, fds[i]? = some fd → vs[i]? = some v → cur[i]? = some w → SentUnder fd k opt → (opt = true → ¬ EmptyV v) →
      ∃ j, Shows (toG E fd.ty v) j ∧ readJson E fd.ty j w = some v) :
    ∀ (m p : Nat), p + m = fds.length → ∀ now : List Val, now.length = fds.length → (∀ i, i < p → now[i]? = vs[i]?) →
      (∀ i, p ≤ i → now[i]? = cur[i]?) →
      ∃ js, Shows (.fields (fieldsG E (fds.drop p) (vs.drop p))) (.obj js) ∧ readMembers E fds js now = some vs := by
  intro m
  induction m with
  | zero =>
    intro p hpm now hn hlo hhi
    have : now = vs := by
      apply List.ext_getElem?
      intro i
      by_cases hi : i < p
      · exact hlo i hi
      · rw [List.getElem?_eq_none (by omega), List.getElem?_eq_none (by omega)]
    subst this
    refine ⟨[], ?_, by rw [readMembers]⟩
    rw [List.drop_eq_nil_of_le (by omega), fieldsG]
    · exact .fields0
    · simp
  | succ m ih =>
    intro p hpm now hn hlo hhi
    have hpf : p < fds.length := by omega
    have hpv : p < vs.length := by omega
    have hpc : p < cur.length := by omega
    rw [List.drop_eq_getElem_cons hpf, List.drop_eq_getElem_cons hpv, fieldsG]
    have e1 := List.getElem?_eq_getElem hpf
    have e2 := List.getElem?_eq_getElem hpv
    have e3 := List.getElem?_eq_getElem hpc
    have hpl := (hp.1 _ (List.getElem_mem hpf)).2
    cases hsa : sentAs fds[p] vs[p] with
    | none =>
      have hu := hun p _ _ e1 e2 ((sentAs_none hpl).1 hsa)
      obtain ⟨js, h1, h2⟩ := ih (p + 1) (by omega) now hn (by
        intro i hi
        by_cases h : i < p
        · exact hlo i h
        · have : i = p := by omega
          subst this
          rw [hhi i (Nat.le_refl _), hu, e2]) (fun i hi => hhi i (by omega))
      exact ⟨js, h1, h2⟩
    | some k =>
      obtain ⟨opt, hk, ho⟩ := sentAs_some hpl hsa
      obtain ⟨j, h1, h2⟩ := hs p _ _ _ k opt e1 e2 e3 hk ho
      obtain ⟨js, h3, h4⟩ := ih (p + 1) (by omega) (now.set p vs[p]) (by rw [List.length_set]; exact hn) (by
        intro i hi
        rw [List.getElem?_set]
        by_cases h : p = i
        · subst h
          rw [if_pos rfl, if_pos (by omega), e2]
        · rw [if_neg h]; exact hlo i (by omega)) (by
        intro i hi
        rw [List.getElem?_set, if_neg (by omega)]
        exact hhi i (by omega))
      refine ⟨(k, j) :: js, .fields h1 h3, ?_⟩
      rw [readMembers, fieldFor_exact hp e1 hk]
      have e4 : now[p]? = some cur[p] := by rw [hhi p (Nat.le_refl _), e3]
      simp only [e1, e4, h2, h4]

theorem readBack_reads {t : Ty} {cur v : Val} (h : ReadBack E t cur v) :
    ∃ j, Shows (toG E t v) j ∧ readJson E t j cur = some v ∧ (Solid v → j ≠ .null) := by
  induction h with
  | @int bits cur i h1 h2 h3 =>
    refine ⟨.num (itoa i), by rw [toG]; exact .int (itoa_digits i), ?_, by simp⟩
    have : parseInt bits (itoa i) = (i, none) := (parseInt_ok h1 h2).2 ⟨itoa_signed i, by
      have e : ((2 ^ (bits - 1) : Nat) : Int) = 2 ^ (bits - 1) := by push_cast; rfl
      rw [e]; exact h3⟩
    simp only [readJson, readThrough, readNum, this]
  | @uint bits cur n h1 h2 =>
    refine ⟨.num (itoa n), by rw [toG]; exact .int (itoa_digits n), ?_, by simp⟩
    have e : itoa (n : Int) = itoaNat n := by unfold itoa; simp
    have : parseUint bits (itoaNat n) = (n, none) := (parseUint_ok h1).2 ⟨(itoaNat_spec n).1, (itoaNat_spec n).2, h2⟩
    simp only [readJson, readThrough, readNum, e, this]
  | @bool cur b =>
    exact ⟨.bool b, by rw [toG]; exact .bool b, by simp only [readJson, readThrough], by simp⟩
  | @string cur s h =>
    exact ⟨.str s, by rw [toG]; exact .string (cleaned_valid h), by simp only [readJson, readThrough], by simp⟩
  | nilPtr => exact ⟨.null, by rw [toG] <;> first | exact .nil | simp, by simp only [readJson, readNull], fun h => h.elim⟩
  | @ptr t cur v hs _ ih =>
    obtain ⟨j, h1, h2, h3⟩ := ih
    exact ⟨j, by rw [toG_ptr]; exact h1, by rw [readJson_ptr t (h3 hs), h2]; rfl, fun _ => h3 hs⟩
  | nilSlice => exact ⟨.null, by rw [toG] <;> first | exact .nil | simp, by simp only [readJson, readNull], fun h => h.elim⟩
  | @slice t cur vs _ _ ih =>
    obtain ⟨js, h1, h2⟩ := elems_read t vs (oldElems cur) (fun i v hv => by
      obtain ⟨j, a, b, -⟩ := ih i v hv
      exact ⟨j, a, b⟩)
    exact ⟨.arr js, by rw [toG]; exact h1, by simp only [readJson, readThrough, h2, Option.map_some], by simp⟩
  | @struct n cur vs hp hv hc hun _ ih =>
    obtain ⟨js, h1, h2⟩ := fields_read (E := E) hp hv hc hun (fun i fd v w k opt a b c d e => by
      obtain ⟨j, x, y, -⟩ := ih i fd v w k opt a b c d e
      exact ⟨j, x, y⟩) (E n).length 0 (by omega) (oldFields (E n) cur) hc (by intro i hi; omega) (fun _ _ => rfl)
    exact ⟨.obj js, by rw [toG]; exact h1, by simp only [readJson, readThrough, h2, Option.map_some], by simp⟩

theorem blank_ofType (t : Ty) : OfType E t (blank t) := by
  cases t <;> first | exact .int | exact .uint | exact .bool | exact .string | exact .zero

theorem allSent_readBack {t : Ty} {v : Val} (h : AllSent E t v) : ∀ cur, OfType E t cur → ReadBack E t cur v := by
  induction h with
  | int h1 h2 h3 => intro cur _; exact .int h1 h2 h3
  | uint h1 h2 => intro cur _; exact .uint h1 h2
  | bool => intro cur _; exact .bool
  | string h => intro cur _; exact .string h
  | nilPtr => intro cur _; exact .nilPtr
  | @ptr t v hs _ ih =>
    intro cur hc
    refine .ptr hs (ih _ ?_)
    cases hc with
    | zero => exact blank_ofType t
    | ptr h => exact h
  | nilSlice => intro cur _; exact .nilSlice
  | @slice t vs ht _ ih =>
    intro cur hc
    refine .slice ht (fun i v hv => ih i v hv _ ?_)
    cases hc with
    | zero => exact blank_ofType t
    | @slice _ ws h =>
      simp only [oldElems]
      cases hw : ws[i]? with
      | none => exact blank_ofType t
      | some w => exact h i w hw
  | @struct n vs hp hv hall _ ih =>
    intro cur hc
    have hlen : (oldFields (E n) cur).length = (E n).length := by
      cases hc with
      | zero => simp [oldFields]
      | struct h _ => exact h
    refine .struct hp hv hlen ?_ ?_
    · intro i fd v hf hv h
      obtain ⟨h1, h2⟩ := hall i fd v hf hv
      rcases h with h | ⟨k, h, he⟩
      · exact (h1 h).elim
      · exact (h2 ⟨k, h⟩ he).elim
    · intro i fd v w k opt hf hv hw _ _
      refine ih i fd v hf hv w ?_
      cases hc with
      | zero =>
        simp only [oldFields, List.getElem?_map, hf, Option.map_some, Option.some.injEq] at hw
        rw [← hw]; exact blank_ofType _
      | struct _ h => exact h i fd w hf hw

/-! ### What is not read back -/

theorem shows_nil {j : JTree} (h : Shows .nil j) : j = .null := by cases h; rfl

theorem shows_arr {l : List GVal} {j : JTree} (h : Shows (.list l) j) : ∃ js, j = .arr js := by cases h <;> exact ⟨_, rfl⟩
theorem shows_obj {l : List (Str × GVal)} {j : JTree} (h : Shows (.fields l) j) : ∃ js, j = .obj js := by cases h <;> exact ⟨_, rfl⟩

theorem proper_solid {t : Ty} {v : Val} (h : ProperVal E t v) : ∀ {j}, Shows (toG E t v) j → j ≠ .null → Solid v := by
  induction h with
  | int => intro _ _ _; trivial
  | uint => intro _ _ _; trivial
  | bool => intro _ _ _; trivial
  | string => intro _ _ _; trivial
  | nilPtr =>
    intro j h hj
    rw [toG] at h <;> first | exact (hj (shows_nil h)).elim | simp
  | ptr _ ih =>
    intro j h hj
    rw [toG_ptr] at h
    exact ih h hj
  | nilSlice =>
    intro j h hj
    rw [toG] at h <;> first | exact (hj (shows_nil h)).elim | simp
  | slice => intro _ _ _; trivial
  | struct => intro _ _ _; trivial

theorem made_elems (t : Ty) (vs : List Val) (h : ∀ (i : Nat) v, vs[i]? = some v → GMade (fun _ => True) NumText (toG E t v)) :
    GMade (fun _ => True) NumText (.list (elemsG E t vs)) := by
  induction vs with
  | nil => rw [elemsG]; exact .list0
  | cons v vs ih =>
    rw [elemsG]
    exact .list (h 0 v rfl) (ih (fun i w hw => h (i + 1) w hw))

theorem made_fields (fds : List Field) : ∀ (vs : List Val), (∀ (i : Nat) fd v, fds[i]? = some fd → vs[i]? = some v →
    GMade (fun _ => True) NumText (toG E fd.ty v)) → GMade (fun _ => True) NumText (.fields (fieldsG E fds vs)) := by
  induction fds with
  | nil => intro vs _; rw [fieldsG]; exact .fields0; simp
  | cons fd fds ih =>
    intro vs h
    cases vs with
    | nil => rw [fieldsG]; exact .fields0; simp
    | cons v vs =>
      have h2 := ih vs (fun i fd w hf hw => h (i + 1) fd w hf hw)
      rw [fieldsG]
      cases sentAs fd v with
      | none => exact h2
      | some k => exact .fields trivial (h 0 fd v rfl rfl) h2

theorem proper_made {t : Ty} {v : Val} (h : ProperVal E t v) : GMade (fun _ => True) NumText (toG E t v) := by
  induction h with
  | int => rw [toG]; exact .int _
  | uint => rw [toG]; exact .int _
  | bool => rw [toG]; exact .bool _
  | string => rw [toG]; exact .string _
  | nilPtr => rw [toG] <;> first | exact .nil | simp
  | ptr _ ih => rw [toG_ptr]; exact ih
  | nilSlice => rw [toG] <;> first | exact .nil | simp
  | slice _ _ ih => rw [toG]; exact made_elems _ _ ih
  | struct _ _ _ ih => rw [toG]; exact made_fields _ _ ih

theorem elems_inv (t : Ty) (vs : List Val) : ∀ (old : List Val) (js : List JTree) (ws : List Val), Shows (.list (elemsG E t vs)) (.arr js) →
    readElems E t js old = some ws →
    ws.length = vs.length ∧ ∀ (i : Nat) v w, vs[i]? = some v → ws[i]? = some w →
      ∃ j, Shows (toG E t v) j ∧ readJson E t j (old[i]?.getD (blank t)) = some w := by
  induction vs with
  | nil =>
    intro old js ws h h'
    rw [elemsG] at h
    cases h
    rw [readElems] at h'
    cases h'
    exact ⟨rfl, by simp⟩
  | cons v vs ih =>
    intro old js ws h h'
    rw [elemsG] at h
    cases h with
    | @list _ j _ js h1 h2 =>
      rw [readElems] at h'
      cases hr : readJson E t j (old.headD (blank t)) with
      | none => rw [hr] at h'; cases h'
      | some w =>
        rw [hr] at h'
        simp only [] at h'
        cases hr' : readElems E t js old.tail with
        | none => rw [hr'] at h'; cases h'
        | some ws' =>
          rw [hr'] at h'
          cases h'
          obtain ⟨hl, hall⟩ := ih _ _ _ h2 hr'
          refine ⟨by simp [hl], ?_⟩
          intro i a b ha hb
          cases i with
          | zero =>
            cases ha; cases hb
            refine ⟨j, h1, ?_⟩
            rw [← hr]
            cases old <;> rfl
          | succ i =>
            obtain ⟨j', x, y⟩ := hall i a b ha hb
            refine ⟨j', x, ?_⟩
            rw [← y]
            cases old <;> simp

theorem fields_inv {fds : List Field} (hp : PlainFields fds) {vs : List Val} (hv : vs.length = fds.length) :
    ∀ (m p : Nat), p + m = fds.length → ∀ (now ws : List Val) (js : List (Str × JTree)), now.length = fds.length →
      Shows (.fields (fieldsG E (fds.drop p) (vs.drop p))) (.obj js) → readMembers E fds js now = some ws →
      (∀ i, i < p → ws[i]? = now[i]?) ∧
      ∀ (i : Nat) fd v w, p ≤ i → fds[i]? = some fd → vs[i]? = some v → now[i]? = some w →
        (sentAs fd v = none → ws[i]? = some w) ∧
        ∀ k, sentAs fd v = some k → ∃ j v', Shows (toG E fd.ty v) j ∧ readJson E fd.ty j w = some v' ∧ ws[i]? = some v' := by
  intro m
  induction m with
  | zero =>
    intro p hpm now ws js hn h h'
    rw [List.drop_eq_nil_of_le (by omega), fieldsG] at h
    · cases h
      rw [readMembers] at h'
      cases h'
      refine ⟨fun _ _ => rfl, ?_⟩
      intro i fd v w hi hf
      have := (List.getElem?_eq_some_iff.1 hf).1
      omega
    · simp
  | succ m ih =>
    intro p hpm now ws js hn h h'
    have hpf : p < fds.length := by omega
    have hpv : p < vs.length := by omega
    have hpn : p < now.length := by omega
    rw [List.drop_eq_getElem_cons hpf, List.drop_eq_getElem_cons hpv, fieldsG] at h
    have e1 := List.getElem?_eq_getElem hpf
    have e2 := List.getElem?_eq_getElem hpv
    have e3 := List.getElem?_eq_getElem hpn
    have hpl := (hp.1 _ (List.getElem_mem hpf)).2
    cases hsa : sentAs fds[p] vs[p] with
    | none =>
      rw [hsa] at h
      obtain ⟨hlo, hhi⟩ := ih (p + 1) (by omega) now ws js hn h h'
      refine ⟨fun i hi => hlo i (by omega), ?_⟩
      intro i fd v w hi hf hv' hw
      by_cases hip : i = p
      · subst hip
        rw [e1] at hf; rw [e2] at hv'; cases hf; cases hv'
        refine ⟨fun _ => by rw [hlo i (by omega), hw], ?_⟩
        intro k hk
        rw [hsa] at hk; cases hk
      · exact hhi i fd v w (by omega) hf hv' hw
    | some k =>
      rw [hsa] at h
      obtain ⟨opt, hk, ho⟩ := sentAs_some hpl hsa
      cases h with
      | @fields _ _ j _ js h1 h2 =>
        rw [readMembers, fieldFor_exact hp e1 hk] at h'
        simp only [e1, e3] at h'
        cases hr : readJson E fds[p].ty j now[p] with
        | none => rw [hr] at h'; cases h'
        | some v' =>
          rw [hr] at h'
          obtain ⟨hlo, hhi⟩ := ih (p + 1) (by omega) (now.set p v') ws js (by rw [List.length_set]; exact hn) h2 h'
          refine ⟨fun i hi => by rw [hlo i (by omega), List.getElem?_set, if_neg (by omega)], ?_⟩
          intro i fd v w hi hf hv' hw
          by_cases hip : i = p
          · subst hip
            rw [e1] at hf; rw [e2] at hv'; rw [e3] at hw; cases hf; cases hv'; cases hw
            refine ⟨fun hk => (by rw [hsa] at hk; cases hk), ?_⟩
            intro k' _
            refine ⟨j, v', h1, hr, ?_⟩
            rw [hlo i (by omega), List.getElem?_set, if_pos rfl, if_pos hpn]
          · refine hhi i fd v w (by omega) hf hv' ?_
            rw [List.getElem?_set, if_neg (by omega)]
            exact hw

theorem reads_readBack {t : Ty} {v : Val} (h : ProperVal E t v) : ∀ {cur j}, OfType E t cur → Shows (toG E t v) j → readJson E t j cur = some v →
    ReadBack E t cur v := by
  induction h with
  | int h1 h2 h3 => intro _ _ _ _ _; exact .int h1 h2 h3
  | uint h1 h2 => intro _ _ _ _ _; exact .uint h1 h2
  | bool => intro _ _ _ _ _; exact .bool
  | string =>
    intro cur j _ h h'
    rw [toG] at h
    cases h with
    | string h =>
      simp only [readJson, readThrough, Option.some.injEq, Val.string.injEq] at h'
      subst h'
      exact .string (valid_cleaned h)
  | nilPtr => intro _ _ _ _ _; exact .nilPtr
  | @ptr t v hv ih =>
    intro cur j hc h h'
    rw [toG_ptr] at h
    by_cases hj : j = .null
    · subst hj
      simp only [readJson, readNull] at h'
      cases h'
    · rw [readJson_ptr t hj] at h'
      cases hr : readJson E t j (behindPtr t cur) with
      | none => rw [hr] at h'; cases h'
      | some w =>
        rw [hr] at h'
        cases h'
        refine .ptr (proper_solid hv h hj) (ih ?_ h hr)
        cases hc with
        | zero => exact blank_ofType t
        | ptr h => exact h
  | nilSlice => intro _ _ _ _ _; exact .nilSlice
  | @slice t vs ht _ ih =>
    intro cur j hc h h'
    rw [toG] at h
    obtain ⟨js, rfl⟩ := shows_arr h
    simp only [readJson, readThrough] at h'
    cases hr : readElems E t js (oldElems cur) with
    | none => rw [hr] at h'; cases h'
    | some ws =>
      rw [hr] at h'
      cases h'
      obtain ⟨-, hall⟩ := elems_inv t vs _ _ _ h hr
      refine .slice ht (fun i v hv => ?_)
      obtain ⟨j, h1, h2⟩ := hall i v v hv hv
      refine ih i v hv ?_ h1 h2
      cases hc with
      | zero => exact blank_ofType t
      | @slice _ ws h =>
        simp only [oldElems]
        cases hw : ws[i]? with
        | none => exact blank_ofType t
        | some w => exact h i w hw
  | @struct n vs hp hv _ ih =>
    intro cur j hc h h'
    rw [toG] at h
    obtain ⟨js, rfl⟩ := shows_obj h
    have hlen : (oldFields (E n) cur).length = (E n).length := by
      cases hc with
      | zero => simp [oldFields]
      | struct h _ => exact h
    simp only [readJson, readThrough] at h'
    cases hr : readMembers E (E n) js (oldFields (E n) cur) with
    | none => rw [hr] at h'; cases h'
    | some ws =>
      rw [hr] at h'
      cases h'
      obtain ⟨-, hall⟩ := fields_inv hp hv (E n).length 0 (by omega) _ _ _ hlen h hr
      refine .struct hp hv hlen ?_ ?_
      · intro i fd v hf hv' hu
        obtain ⟨w, hw⟩ : ∃ w, (oldFields (E n) cur)[i]? = some w := by
          have := (List.getElem?_eq_some_iff.1 hf).1
          exact ⟨_, List.getElem?_eq_getElem (by omega)⟩
        have := (hall i fd v w (Nat.zero_le _) hf hv' hw).1 ((sentAs_none (hp.1 _ (List.mem_of_getElem? hf)).2).2 hu)
        rw [hw, ← this, hv']
      · intro i fd v w k opt hf hv' hw hk ho
        have hs : sentAs fd v = some k := by
          cases hsa : sentAs fd v with
          | none =>
            rcases (sentAs_none (.inr ⟨k, opt, hk⟩)).1 hsa with h | ⟨k', h, he⟩
            · exact (neverSent_not h hk).elim
            · have : opt = true := by rw [← (sentUnder_head hk).2, (sentUnder_head h).2]
              exact (ho this he).elim
          | some k' =>
            obtain ⟨o, h, -⟩ := sentAs_some (.inr ⟨k, opt, hk⟩) hsa
            have := (sentUnder_head h).1
            rw [(sentUnder_head hk).1] at this
            exact this.symm
        obtain ⟨j, v', h1, h2, h3⟩ := (hall i fd v w (Nat.zero_le _) hf hv' hw).2 k hs
        rw [hv'] at h3
        cases h3
        refine ih i fd v hf hv' ?_ h1 h2
        cases hc with
        | zero =>
          simp only [oldFields, List.getElem?_map, hf, Option.map_some, Option.some.injEq] at hw
          rw [← hw]; exact blank_ofType _
        | struct _ h => exact h i fd w hf hw

end Water
