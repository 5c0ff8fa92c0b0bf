import Verif.Spec.UploadTrip
import Verif.Lemmas.Binding
import Verif.Lemmas.Strconv
/- Lemmas for the round trip of a struct through a form. -/
namespace Water
open Spec

variable {o : BOracle} {E : TyEnv} {form : Form} {files : FormFiles} {tag : Str}

/-! ### values of a name in a list of pairs -/

theorem valuesIn_append {α : Type} (a b : List (Str × α)) (k : Str) : valuesIn (a ++ b) k = valuesIn a k ++ valuesIn b k := by
  simp [valuesIn]

theorem valuesIn_absent {α : Type} {ps : List (Str × α)} {k : Str} (h : k ∉ ps.map Prod.fst) : valuesIn ps k = [] := by
  unfold valuesIn
  rw [List.map_eq_nil_iff, List.filter_eq_nil_iff]
  intro p hp
  simp only [beq_iff_eq]
  exact fun e => h (List.mem_map.2 ⟨p, hp, e⟩)

theorem valuesIn_all {α β : Type} {l : List α} {name : Str} {g : α → β} : valuesIn (l.map (fun a => (name, g a))) name = l.map g := by
  unfold valuesIn
  rw [List.filter_eq_self.2 (by simp)]
  simp

theorem valuesIn_flatMap {α β : Type} {names : β → List Str} {enc : β → List (Str × α)} {l : List β}
    (hsub : ∀ b ∈ l, ∀ k ∈ (enc b).map Prod.fst, k ∈ names b) (hn : (l.flatMap names).Nodup) {b : β} (hb : b ∈ l) {k : Str}
    (hk : k ∈ names b) : valuesIn (l.flatMap enc) k = valuesIn (enc b) k := by
  induction l with
  | nil => simp at hb
  | cons c l ih =>
    simp only [List.flatMap_cons] at hn ⊢
    rw [List.nodup_append] at hn
    obtain ⟨h1, h2, h3⟩ := hn
    rw [valuesIn_append]
    rcases List.mem_cons.1 hb with rfl | hb
    · have : valuesIn (l.flatMap enc) k = [] := by
        refine valuesIn_absent (fun hm => ?_)
        obtain ⟨p, hp, hpk⟩ := List.mem_map.1 hm
        obtain ⟨d, hd, hpd⟩ := List.mem_flatMap.1 hp
        exact h3 k hk k (List.mem_flatMap.2 ⟨d, hd, hsub d (by simp [hd]) k (List.mem_map.2 ⟨p, hpd, hpk⟩)⟩) rfl
      rw [this, List.append_nil]
    · have : valuesIn (enc c) k = [] := by
        refine valuesIn_absent (fun hm => ?_)
        exact h3 k (hsub c (by simp) k hm) k (List.mem_flatMap.2 ⟨b, hb, hk⟩) rfl
      rw [this, List.nil_append]
      exact ih (fun b hb => hsub b (by simp [hb])) h2 hb

/-! ### the names that are sent -/

theorem sendField_names {P : Nat → Val → Prop} {S : Nat → Val → List (Str × Str)} {N : Nat → List Str}
    (ih : ∀ n v, P n v → ∀ k ∈ (S n v).map Prod.fst, k ∈ N n) {fd : Field} {x : Val} (h : FieldSendable P tag fd x) :
    ∀ k ∈ (sendField S tag fd x).map Prod.fst, k ∈ fieldNames N tag fd := by
  intro k hk
  unfold sendField at hk
  unfold fieldNames
  by_cases hh : Hidden fd = true
  · rw [if_pos hh] at hk; simp at hk
  · rw [if_neg hh] at hk ⊢
    rcases h with h | ⟨_, h⟩
    · exact absurd h.1 hh
    · have hname : ∀ {k : Str}, bindName fd tag ≠ none → k = (bindName fd tag).getD [] → k ∈ (bindName fd tag).toList := by
        intro k hn hk
        cases hb : bindName fd tag with
        | none => exact absurd hb hn
        | some n => rw [hb] at hk; simp at hk; simp [hk]
      cases ht : fd.ty with
      | struct m =>
        rw [ht] at h hk
        exact ih m x h.2 k hk
      | slice t =>
        rw [ht] at h hk
        refine hname h.2.1 ?_
        simp only [List.map_map, List.mem_map, Function.comp_apply] at hk
        obtain ⟨_, _, hk⟩ := hk
        exact hk.symm
      | ptr t =>
        rw [ht] at h hk
        by_cases hm : ∃ m, t = .struct m
        · obtain ⟨m, rfl⟩ := hm
          obtain ⟨_, y, rfl, hy⟩ := h
          exact ih m y hy k hk
        · have hn : bindName fd tag ≠ none := by
            cases t <;> first | exact h.2.1 | exact absurd ⟨_, rfl⟩ hm
          have hk' : k = (bindName fd tag).getD [] := by
            cases t <;> cases x <;> first | (simp at hk; done) | (simp at hk; exact hk) | exact absurd ⟨_, rfl⟩ hm
          have := hname hn hk'
          cases t <;> first | exact this | exact absurd ⟨_, rfl⟩ hm
      | _ =>
        rw [ht] at h hk
        refine hname h.2.1 ?_
        simpa using hk

theorem send_names (f : Nat) : ∀ n v, Sendable E tag f n v → ∀ k ∈ (send E tag f n v).map Prod.fst, k ∈ namesOf E tag f n := by
  induction f with
  | zero => intro n v h; exact absurd h (by simp [Sendable])
  | succ f ih =>
    intro n v h k hk
    obtain ⟨p, hp, rfl⟩ := List.mem_map.1 hk
    simp only [send, List.mem_flatMap] at hp
    obtain ⟨⟨fd, x⟩, hz, hp⟩ := hp
    obtain ⟨i, hi⟩ := List.mem_iff_getElem?.1 hz
    rw [List.getElem?_zip_eq_some] at hi
    have hs := h.2.2 i fd x hi.1 hi.2
    simp only [namesOf, List.mem_flatMap]
    exact ⟨fd, List.mem_of_getElem? hi.1, sendField_names ih hs _ (List.mem_map.2 ⟨p, hp, rfl⟩)⟩

/-! ### one plain value -/

theorem plain_sized {t : Ty} (h : PlainTy t) : Sized t := by
  cases t <;> first | trivial | exact h.1

theorem fits_64 {bits : Nat} (h : bits ≤ 64) {i : Int} (hi : FitsInt bits i) : FitsInt 64 i := by
  unfold FitsInt at hi ⊢
  have : (2 ^ (bits - 1) : Nat) ≤ 2 ^ 63 := Nat.pow_le_pow_right (by omega) (by omega)
  have h2 : (2 ^ (bits - 1) : Int) ≤ 2 ^ 63 := by exact_mod_cast this
  have : (64 - 1 : Nat) = 63 := rfl
  rw [this]
  omega

/-- the text of a plain value sets a zero variable to the same value -/
theorem conv_plain {fd : Field} {t : Ty} {v : Val} (h : PlainVal t v) :
    ∃ w, Conv o fd t (textFor t v) .zero w ∧ SameVal E t v w := by
  obtain ⟨hp, hsh, hv⟩ := h
  cases t with
  | int bits =>
    exact ⟨.int (intIn v), .int (.inl (itoa_signed _)) (fits_64 hp.2 hv) hv (by simp), .int hsh trivial rfl⟩
  | uint bits =>
    have h64 : natIn v < 2 ^ 64 := Nat.lt_of_lt_of_le hv (Nat.pow_le_pow_right (by omega) hp)
    refine ⟨_, .uint (n := natIn v) (.inl (itoaNat_spec _)) h64, .uint hsh trivial ?_⟩
    rw [Nat.mod_eq_of_lt hv]
    rfl
  | bool =>
    have e : textFor .bool v = if truth v then b!"true" else b!"false" := rfl
    rw [e]
    cases hb : truth v with
    | true => exact ⟨.bool true, .yes (.inl ⟨rfl, by decide⟩), .bool hsh trivial (by rw [hb]; rfl)⟩
    | false => exact ⟨.zero, .no (.inr ⟨rfl, by decide⟩), .bool hsh trivial (by rw [hb]; rfl)⟩
  | string => exact ⟨.string (textIn v), .string, .string hsh trivial rfl⟩
  | _ => exact absurd hp (by simp [PlainTy])

theorem plain_notPtr {t : Ty} (h : PlainTy t) (t' : Ty) : t ≠ .ptr t' := by
  rintro rfl; exact h

theorem plain_notSlice {t : Ty} (h : PlainTy t) (t' : Ty) : t ≠ .slice t' := by
  rintro rfl; exact h

/-! ### one field -/

/-- what the form has for a list of values -/
def orNone {α : Type} : List α → Option (List α)
  | [] => none
  | l => some l

theorem orNone_ne {α : Type} {l : List α} (h : l ≠ []) : orNone l = some l := by
  cases l with
  | nil => exact absurd rfl h
  | cons a l => rfl

theorem quiet_of {fd : Field} {name : Str} (hn : bindName fd tag = some name) (hd : bindDefault fd tag = none)
    (hf : form.at name = none) (hfi : files.at name = none) : Quiet form files tag fd := by
  refine ⟨by simp [input, hn, hf, hd], ?_⟩
  intro n h
  rw [hn] at h
  cases h
  exact hfi

theorem input_of {fd : Field} {name : Str} {ss : List Str} (hn : bindName fd tag = some name) (hf : form.at name = some ss) :
    input form tag fd = some ss := by
  simp [input, hn, hf]

theorem notIn_quiet {fd : Field} (hn : bindName fd tag = none) : Quiet form files tag fd :=
  ⟨by simp [input, hn], by simp [hn]⟩

theorem filesIn_other {t : Ty} (h : isUpload t = false) (x : Val) : filesIn t x = [] := by
  unfold filesIn
  split
  · cases h
  · cases h
  · rfl

/-- fields that are no structs and hold no files send no files -/
theorem filesField_other {T : Nat → Val → List (Str × Nat)} {fd : Field} (hu : isUpload fd.ty = false) (hs : ∀ m, fd.ty ≠ .struct m)
    (hp : ∀ m, fd.ty ≠ .ptr (.struct m)) (x : Val) : filesField T tag fd x = [] := by
  unfold filesField
  split
  · rfl
  · split
    · rename_i h; exact absurd h (hs _)
    · rename_i h; exact absurd h (hp _)
    · rw [filesIn_other hu]; rfl

/-- Binding a field that was sent and holds no files. -/
theorem field_back {g : Nat} {P : Nat → Val → Prop} {S : Nat → Val → List (Str × Str)} {T : Nat → Val → List (Str × Nat)}
    {N : Nat → List Str}
    (ih : ∀ n v, P n v → (N n).Nodup →
      (∀ k ∈ N n, form.at k = orNone (valuesIn (S n v) k) ∧ files.at k = orNone (valuesIn (T n v) k)) →
      ∃ w, mapForm o E form files tag g (.struct n) .zero = (.ok, w) ∧ SameVal E (.struct n) v w)
    {fd : Field} (hu : isUpload fd.ty = false) {x : Val} (h : FieldSendable P tag fd x) (hnd : (fieldNames N tag fd).Nodup)
    (hf : ∀ k ∈ fieldNames N tag fd, form.at k = orNone (valuesIn (sendField S tag fd x) k) ∧
      files.at k = orNone (valuesIn (filesField T tag fd x) k)) :
    ∃ w, mapField o form files tag (mapForm o E form files tag g) fd .zero = (.ok, w) ∧ SameVal E fd.ty x w := by
  rcases h with ⟨hh, rfl⟩ | ⟨hx, h⟩
  · refine ⟨.zero, ?_, .refl⟩
    unfold mapField
    exact if_pos hh
  · have hh : Hidden fd = false := by simp [Hidden, hx]
    have hfo := filesField_other (tag := tag) (T := T) hu
    unfold fieldNames at hnd hf
    unfold sendField at hf
    rw [hh] at hnd hf
    simp only [Bool.false_eq_true, if_false] at hnd hf
    -- the fields set from their own name
    have hscalar : ∀ name, bindName fd tag = some name → Scalar fd → Sized fd.ty → ∀ w, Sets o form files tag fd fd.ty .zero w →
        mapField o form files tag (mapForm o E form files tag g) fd .zero = (.ok, w) := by
      intro name hn hs hz w hw
      rw [mapField_plain hs]
      exact (trySet_spec hx hz).2 hw
    cases ht : fd.ty with
    | struct m =>
      rw [ht] at h hnd hf
      have hff : filesField T tag fd x = T m x := by simp [filesField, hh, ht]
      rw [hff] at hf
      obtain ⟨w, hw, hsame⟩ := ih m x h.2 hnd hf
      refine ⟨w, ?_, hsame⟩
      unfold mapField
      rw [show (!fd.exported && !fd.anonymous) = false by simp [hx]]
      have ha : allocates fd .zero = none := by simp [allocates, ht]
      have hde : descends fd fd.ty = true := by simp [descends, ht, Ty.isStruct]
      simp only [Bool.false_eq_true, if_false, ha, hde, if_true]
      rw [ht, hw]
      exact trySet_quiet (notIn_quiet h.1)
    | slice t =>
      rw [ht] at h hnd hf
      obtain ⟨han, hnm, hdef, hshp, hel⟩ := h
      rw [hfo (by simp [ht]) (by simp [ht])] at hf
      cases hb : bindName fd tag with
      | none => exact absurd hb hnm
      | some name =>
        rw [hb] at hf
        obtain ⟨hf, hfi⟩ := hf name (by simp)
        simp only [Option.getD_some] at hf
        rw [valuesIn_all] at hf
        have hsc : Scalar fd := ⟨hx, han, by rw [ht]; trivial⟩
        by_cases hnil : elemsIn x = []
        · rw [hnil] at hf
          have hq : Quiet form files tag fd := quiet_of hb hdef hf hfi
          refine ⟨.zero, ?_, .slice hshp trivial (by rw [hnil]; rfl) (by intro i a b ha; rw [hnil] at ha; simp at ha)⟩
          rw [mapField_plain hsc]
          exact trySet_quiet hq
        · have hne : (elemsIn x).map (textFor t) ≠ [] := by simpa using hnil
          rw [orNone_ne hne] at hf
          have hex : ∀ l : List Val, (∀ a ∈ l, PlainVal t a) → ∃ ws : List Val, ws.length = l.length ∧
              ∀ (i : Nat) a w, l[i]? = some a → ws[i]? = some w → Conv o fd t (textFor t a) .zero w ∧ SameVal E t a w := by
            intro l hl
            induction l with
            | nil => exact ⟨[], rfl, by simp⟩
            | cons a l ihl =>
              obtain ⟨ws, h1, h2⟩ := ihl (fun a ha => hl a (by simp [ha]))
              obtain ⟨w, hw1, hw2⟩ := conv_plain (o := o) (E := E) (fd := fd) (hl a (by simp))
              refine ⟨w :: ws, by simp [h1], ?_⟩
              intro i a' w' ha' hw'
              cases i with
              | zero => simp at ha' hw'; subst ha' hw'; exact ⟨hw1, hw2⟩
              | succ i => exact h2 i a' w' (by simpa using ha') (by simpa using hw')
          obtain ⟨ws, hlen, hws⟩ := hex _ hel
          have hp : PlainTy t := by
            cases hc : elemsIn x with
            | nil => exact absurd hc hnil
            | cons a l => exact (hel a (by rw [hc]; simp)).1
          refine ⟨.slice ws, hscalar name hb hsc (by rw [ht]; exact plain_sized (t := t) hp) _ ?_, .slice hshp trivial (by simp [elemsIn, hlen]) (fun i a b ha hb => (hws i a b ha hb).2)⟩
          rw [ht]
          refine .slice (input_of hb hf) hne (by simp [hlen]) ?_
          intro i s w hs hw
          rw [List.getElem?_map, Option.map_eq_some_iff] at hs
          obtain ⟨a, ha, rfl⟩ := hs
          exact .value (plain_notPtr hp) (hws i a w ha hw).1
    | ptr t =>
      by_cases hm : ∃ m, t = .struct m
      · obtain ⟨m, rfl⟩ := hm
        rw [ht] at h hnd hf
        obtain ⟨hbn, y, rfl, hy⟩ := h
        have hff : filesField T tag fd (.ptr y) = T m y := by simp [filesField, hh, ht]
        rw [hff] at hf
        obtain ⟨w, hw, hsame⟩ := ih m y hy hnd hf
        refine ⟨.ptr w, ?_, .ptr hsame⟩
        unfold mapField
        rw [show (!fd.exported && !fd.anonymous) = false by simp [hx]]
        have ha : allocates fd .zero = some (.struct m) := by simp [allocates, ht, Ty.isStruct]
        have hde : descends fd (.struct m) = true := by simp [descends, Ty.isStruct]
        simp only [Bool.false_eq_true, if_false, ha, hde, if_true]
        rw [hx, hw]
        simp only [Bool.not_true, Bool.false_eq_true, if_false]
        rw [trySet_quiet (notIn_quiet hbn)]
      · rw [hfo (by simp [ht]) (by intro m; rw [ht]; rintro ⟨⟩; exact hm ⟨_, rfl⟩)] at hf
        have h' : fd.anonymous = false ∧ bindName fd tag ≠ none ∧ bindDefault fd tag = none ∧ PlainTy t ∧
            (x = .zero ∨ ∃ y, x = .ptr y ∧ PlainVal t y) := by
          rw [ht] at h
          cases t <;> first | exact h | exact absurd ⟨_, rfl⟩ hm
        obtain ⟨han, hnm, hdef, hpt, hxx⟩ := h'
        cases hb : bindName fd tag with
        | none => exact absurd hb hnm
        | some name =>
          have hf' : form.at name = (match x with | .ptr y => some [textFor t y] | _ => none) ∧ files.at name = none := by
            rw [ht, hb] at hf
            have := hf name (by cases t <;> first | (simp; done) | exact absurd ⟨_, rfl⟩ hm)
            cases t <;> first | exact absurd ⟨_, rfl⟩ hm | (cases x <;> simpa [valuesIn, orNone] using this)
          have hsc : Scalar fd := ⟨hx, han, by rw [ht]; cases t <;> first | trivial | exact hpt⟩
          rcases hxx with rfl | ⟨y, rfl, hy⟩
          · have hq : Quiet form files tag fd := quiet_of hb hdef hf'.1 hf'.2
            exact ⟨.zero, by rw [mapField_plain hsc]; exact trySet_quiet hq, .refl⟩
          · obtain ⟨w, hw, hsame⟩ := conv_plain (o := o) (E := E) (fd := fd) hy
            refine ⟨.ptr w, hscalar name hb hsc (by rw [ht]; exact plain_sized (t := t) hy.1) _ ?_, .ptr hsame⟩
            rw [ht]
            exact .value (input_of hb hf'.1) (by simp) (.alloc (by simp) hw)
    | int _ | uint _ | bool | string =>
      rw [ht] at h hnd hf
      obtain ⟨han, hnm, hpv⟩ := h
      rw [hfo (by simp [ht]) (by simp [ht])] at hf
      cases hb : bindName fd tag with
      | none => exact absurd hb hnm
      | some name =>
        rw [hb] at hf
        obtain ⟨hf, hfi⟩ := hf name (by simp)
        simp only [Option.getD_some] at hf
        have hsc : Scalar fd := ⟨hx, han, by rw [ht]; trivial⟩
        obtain ⟨w, hw, hsame⟩ := conv_plain (o := o) (E := E) (fd := fd) hpv
        have hf : form.at name = some [textFor fd.ty x] := by rw [ht]; simpa [valuesIn, orNone] using hf
        rw [ht] at hf
        refine ⟨w, hscalar name hb hsc (by rw [ht]; exact plain_sized hpv.1) _ ?_, hsame⟩
        rw [ht]
        exact .value (input_of hb hf) (plain_notSlice hpv.1) (.value (plain_notPtr hpv.1) hw)
    | _ =>
      rw [ht] at h
      exact h.2.2.1.elim

/-- Binding a field that holds files. -/
theorem files_back {walk : Ty → Val → BOut × Val} {fd : Field} (hu : isUpload fd.ty = true) {P : Nat → Val → Prop} {x : Val}
    (h : FieldUpload P tag fd x) {T : Nat → Val → List (Str × Nat)} {N : Nat → List Str}
    (hf : ∀ k ∈ fieldNames N tag fd, form.at k = none ∧ files.at k = orNone (valuesIn (filesField T tag fd x) k)) :
    ∃ w, mapField o form files tag walk fd .zero = (.ok, w) ∧ SameVal E fd.ty x w := by
  unfold FieldUpload at h
  rw [if_pos hu] at h
  rcases h with ⟨hh, rfl⟩ | ⟨hx, han, hnm, hdef, h⟩
  · refine ⟨.zero, ?_, .refl⟩
    unfold mapField
    exact if_pos hh
  · have hh : Hidden fd = false := by simp [Hidden, hx]
    cases hb : bindName fd tag with
    | none => exact absurd hb hnm
    | some name =>
      have hty : fd.ty = .ptr .file ∨ fd.ty = .slice (.ptr .file) := by
        revert hu
        unfold isUpload
        split
        · intro _; exact .inl (by assumption)
        · intro _; exact .inr (by assumption)
        · intro hu; cases hu
      have hsc : Scalar fd := by
        refine ⟨hx, han, ?_⟩
        rcases hty with ht | ht <;> (rw [ht]; trivial)
      have hsz : Sized fd.ty := by rcases hty with ht | ht <;> (rw [ht]; trivial)
      have hnames : name ∈ fieldNames N tag fd := by
        unfold fieldNames
        rw [hh]
        rcases hty with ht | ht <;> (rw [ht]; simp [hb])
      obtain ⟨hf1, hf2⟩ := hf name hnames
      have hff : filesField T tag fd x = (filesIn fd.ty x).map (fun k => (name, k)) := by
        unfold filesField
        rw [hh, hb]
        rcases hty with ht | ht <;> (rw [ht]; rfl)
      rw [hff, valuesIn_all] at hf2
      simp only [List.map_id'] at hf2
      have hin : input form tag fd = none := by simp [input, hb, hf1, hdef]
      rw [mapField_plain hsc]
      rcases hty with ht | ht
      · rw [ht] at h hf2
        rcases h with rfl | ⟨k, rfl⟩
        · exact ⟨.zero, trySet_quiet (quiet_of hb hdef hf1 hf2), .refl⟩
        · refine ⟨.ptr (.file k), (trySet_spec hx hsz).2 ?_, .refl⟩
          rw [ht]
          exact .file hin hb hf2
      · rw [ht] at h hf2
        obtain ⟨hshp, hall⟩ := h
        have hfm : ∀ l : List Val, (∀ a ∈ l, IsFile a) → (l.filterMap fileIn).map (fun f => Val.ptr (.file f)) = l := by
          intro l hl
          induction l with
          | nil => rfl
          | cons a l ih =>
            obtain ⟨k, rfl⟩ := hl a (by simp)
            simp only [List.filterMap_cons, fileIn, List.map_cons]
            rw [ih (fun a ha => hl a (by simp [ha]))]
        by_cases hnil : (elemsIn x).filterMap fileIn = []
        · rw [show filesIn (.slice (.ptr .file)) x = [] from hnil] at hf2
          refine ⟨.zero, trySet_quiet (quiet_of hb hdef hf1 hf2), ?_⟩
          have he : elemsIn x = [] := by rw [← hfm _ hall, hnil]; rfl
          rw [ht]
          exact .slice hshp trivial (by rw [he]; rfl) (by intro i a b ha; rw [he] at ha; simp at ha)
        · have hf3 : files.at name = some ((elemsIn x).filterMap fileIn) := by
            rw [hf2]; exact orNone_ne hnil
          refine ⟨.slice (((elemsIn x).filterMap fileIn).map (fun f => .ptr (.file f))), (trySet_spec hx hsz).2 ?_, ?_⟩
          · rw [ht]
            exact .files hin hb hf3 hnil
          · rw [ht, hfm _ hall]
            refine .slice hshp trivial rfl ?_
            intro i a b ha hb
            rw [show (elemsIn x)[i]? = some b from hb] at ha
            cases ha
            exact .refl

/-! ### structs with files -/

theorem filesField_names {P : Nat → Val → Prop} {T : Nat → Val → List (Str × Nat)} {N : Nat → List Str}
    (ih : ∀ n v, P n v → ∀ k ∈ (T n v).map Prod.fst, k ∈ N n) {fd : Field} {x : Val} (h : FieldUpload P tag fd x) :
    ∀ k ∈ (filesField T tag fd x).map Prod.fst, k ∈ fieldNames N tag fd := by
  intro k hk
  by_cases hh : Hidden fd = true
  · unfold filesField at hk
    rw [if_pos hh] at hk; simp at hk
  · have hhf : Hidden fd = false := by simpa using hh
    unfold FieldUpload at h
    by_cases hu : isUpload fd.ty = true
    · rw [if_pos hu] at h
      rcases h with h | ⟨_, _, hnm, _⟩
      · exact absurd h.1 hh
      · cases hb : bindName fd tag with
        | none => exact absurd hb hnm
        | some name =>
          have hty : fd.ty = .ptr .file ∨ fd.ty = .slice (.ptr .file) := by
            revert hu
            unfold isUpload
            split
            · intro _; exact .inl (by assumption)
            · intro _; exact .inr (by assumption)
            · intro hu; cases hu
          have hk' : k = name := by
            unfold filesField at hk
            rw [hhf, hb] at hk
            rcases hty with ht | ht <;> (rw [ht] at hk; simp at hk; exact hk.2.symm)
          subst hk'
          unfold fieldNames
          rw [hhf]
          rcases hty with ht | ht <;> (rw [ht]; simp [hb])
    · rw [if_neg hu] at h
      have hu' : isUpload fd.ty = false := by simpa using hu
      rcases h with h | ⟨_, h⟩
      · exact absurd h.1 hh
      · by_cases hs : ∃ m, fd.ty = .struct m
        · obtain ⟨m, ht⟩ := hs
          rw [ht] at h
          unfold filesField at hk
          unfold fieldNames
          rw [hhf, ht] at hk ⊢
          exact ih m x h.2 k hk
        · by_cases hp : ∃ m, fd.ty = .ptr (.struct m)
          · obtain ⟨m, ht⟩ := hp
            rw [ht] at h
            obtain ⟨_, y, rfl, hy⟩ := h
            unfold filesField at hk
            unfold fieldNames
            rw [hhf, ht] at hk ⊢
            exact ih m y hy k hk
          · rw [filesField_other hu' (fun m e => hs ⟨m, e⟩) (fun m e => hp ⟨m, e⟩)] at hk
            simp at hk

theorem textsField_names {P : Nat → Val → Prop} {S : Nat → Val → List (Str × Str)} {N : Nat → List Str}
    (ih : ∀ n v, P n v → ∀ k ∈ (S n v).map Prod.fst, k ∈ N n) {fd : Field} {x : Val} (h : FieldUpload P tag fd x) :
    ∀ k ∈ (textsField S tag fd x).map Prod.fst, k ∈ fieldNames N tag fd := by
  intro k hk
  unfold textsField at hk
  unfold FieldUpload at h
  by_cases hu : isUpload fd.ty = true
  · rw [if_pos hu] at hk; simp at hk
  · rw [if_neg hu] at h hk
    exact sendField_names ih h k hk

theorem upload_names (f : Nat) : ∀ n v, Uploadable E tag f n v →
    (∀ k ∈ (texts E tag f n v).map Prod.fst, k ∈ namesOf E tag f n) ∧ (∀ k ∈ (uploads E tag f n v).map Prod.fst, k ∈ namesOf E tag f n) := by
  induction f with
  | zero => intro n v h; exact absurd h (by simp [Uploadable])
  | succ f ih =>
    intro n v h
    constructor
    · intro k hk
      obtain ⟨p, hp, rfl⟩ := List.mem_map.1 hk
      simp only [texts, List.mem_flatMap] at hp
      obtain ⟨⟨fd, x⟩, hz, hp⟩ := hp
      obtain ⟨i, hi⟩ := List.mem_iff_getElem?.1 hz
      rw [List.getElem?_zip_eq_some] at hi
      have hs := h.2.2 i fd x hi.1 hi.2
      simp only [namesOf, List.mem_flatMap]
      exact ⟨fd, List.mem_of_getElem? hi.1, textsField_names (fun n v h => (ih n v h).1) hs _ (List.mem_map.2 ⟨p, hp, rfl⟩)⟩
    · intro k hk
      obtain ⟨p, hp, rfl⟩ := List.mem_map.1 hk
      simp only [uploads, List.mem_flatMap] at hp
      obtain ⟨⟨fd, x⟩, hz, hp⟩ := hp
      obtain ⟨i, hi⟩ := List.mem_iff_getElem?.1 hz
      rw [List.getElem?_zip_eq_some] at hi
      have hs := h.2.2 i fd x hi.1 hi.2
      simp only [namesOf, List.mem_flatMap]
      exact ⟨fd, List.mem_of_getElem? hi.1, filesField_names (fun n v h => (ih n v h).2) hs _ (List.mem_map.2 ⟨p, hp, rfl⟩)⟩

/-- Binding a struct that was sent with files, into a zero struct. -/
theorem upload_back (f : Nat) : ∀ g, f ≤ g → ∀ n v, Uploadable E tag f n v → (namesOf E tag f n).Nodup →
    (∀ k ∈ namesOf E tag f n, form.at k = orNone (valuesIn (texts E tag f n v) k) ∧
      files.at k = orNone (valuesIn (uploads E tag f n v) k)) →
    ∃ w, mapForm o E form files tag g (.struct n) .zero = (.ok, w) ∧ SameVal E (.struct n) v w := by
  induction f with
  | zero => intro g _ n v h; exact absurd h (by simp [Uploadable])
  | succ f ih =>
    intro g hg n v h hnd hf
    obtain ⟨g, rfl⟩ : ∃ g', g = g' + 1 := ⟨g - 1, by omega⟩
    have ihg := ih g (by omega)
    have hfield : ∀ (i : Nat) fd x, (E n)[i]? = some fd → (fieldVals (E n).length v)[i]? = some x →
        ∃ w, mapField o form files tag (mapForm o E form files tag g) fd .zero = (.ok, w) ∧ SameVal E fd.ty x w := by
      intro i fd x h1 h2
      have hs := h.2.2 i fd x h1 h2
      have hmem : (fd, x) ∈ (E n).zip (fieldVals (E n).length v) := by
        refine List.mem_iff_getElem?.2 ⟨i, ?_⟩
        rw [List.getElem?_zip_eq_some]
        exact ⟨h1, h2⟩
      have hzip : ((E n).zip (fieldVals (E n).length v)).flatMap (fun p => fieldNames (namesOf E tag f) tag p.1) = namesOf E tag (f + 1) n := by
        have : ((E n).zip (fieldVals (E n).length v)).map Prod.fst = E n := List.map_fst_zip (by rw [h.2.1]; exact Nat.le_refl _)
        rw [namesOf]
        conv => rhs; rw [← this]
        rw [List.flatMap_map]
      have hnd' : (fieldNames (namesOf E tag f) tag fd).Nodup := by
        have : (fieldNames (namesOf E tag f) tag fd).Sublist (namesOf E tag (f + 1) n) := by
          rw [namesOf, List.flatMap_def]
          exact List.sublist_flatten_of_mem (List.mem_map.2 ⟨fd, List.mem_of_getElem? h1, rfl⟩)
        exact this.nodup hnd
      have hall : ∀ k ∈ fieldNames (namesOf E tag f) tag fd, form.at k = orNone (valuesIn (textsField (texts E tag f) tag fd x) k) ∧
          files.at k = orNone (valuesIn (filesField (uploads E tag f) tag fd x) k) := by
        intro k hk
        have hkn : k ∈ namesOf E tag (f + 1) n := by
          rw [namesOf, List.mem_flatMap]
          exact ⟨fd, List.mem_of_getElem? h1, hk⟩
        have := hf k hkn
        have hz' : ∀ p ∈ (E n).zip (fieldVals (E n).length v), FieldUpload (Uploadable E tag f) tag p.1 p.2 := by
          rintro ⟨fd', x'⟩ hp
          obtain ⟨j, hj⟩ := List.mem_iff_getElem?.1 hp
          rw [List.getElem?_zip_eq_some] at hj
          exact h.2.2 j fd' x' hj.1 hj.2
        rw [texts, uploads,
          valuesIn_flatMap (names := fun p => fieldNames (namesOf E tag f) tag p.1)
            (fun p hp => textsField_names (fun n v h => (upload_names f n v h).1) (hz' p hp)) (by rw [hzip]; exact hnd) hmem hk,
          valuesIn_flatMap (names := fun p => fieldNames (namesOf E tag f) tag p.1)
            (fun p hp => filesField_names (fun n v h => (upload_names f n v h).2) (hz' p hp)) (by rw [hzip]; exact hnd) hmem hk] at this
        exact this
      by_cases hu : isUpload fd.ty = true
      · refine files_back hu hs (N := namesOf E tag f) (T := uploads E tag f) (fun k hk => ?_)
        have := hall k hk
        rw [textsField, if_pos hu] at this
        exact this
      · have hu' : isUpload fd.ty = false := by simpa using hu
        rw [FieldUpload, if_neg hu] at hs
        refine field_back ihg hu' hs hnd' (fun k hk => ?_)
        have := hall k hk
        rw [textsField, if_neg hu] at this
        exact this
    rw [mapForm_struct]
    have hz : fieldVals (E n).length .zero = List.replicate (E n).length .zero := rfl
    obtain ⟨hlen, hsp⟩ := mapFields_spec (mapField o form files tag (mapForm o E form files tag g)) (E n) (fieldVals (E n).length .zero)
    have hval : ∀ {i : Nat} {fd : Field}, (E n)[i]? = some fd → ∃ x, (fieldVals (E n).length v)[i]? = some x := by
      intro i fd hi
      have : i < (E n).length := (List.getElem?_eq_some_iff.1 hi).1
      exact ⟨_, List.getElem?_eq_getElem (by rw [h.2.1]; exact this)⟩
    rcases hsp with ⟨hok, hall⟩ | ⟨k, fd, x, y, h1, h2, h3, h4⟩
    · refine ⟨_, Prod.ext hok rfl, .struct h.1 trivial h.2.1 (hlen.trans (by rw [hz]; simp)) ?_⟩
      intro i fd a b h1 ha hb
      have hi : i < (E n).length := (List.getElem?_eq_some_iff.1 h1).1
      obtain ⟨y, hy, hy'⟩ := hall i fd .zero h1 (by rw [hz, List.getElem?_replicate, if_pos hi])
      obtain ⟨w, hw, hsame⟩ := hfield i fd a h1 ha
      rw [hy] at hw
      cases hw
      rw [show (mapFields (mapField o form files tag (mapForm o E form files tag g)) (E n) (fieldVals (E n).length .zero)).2[i]? =
        some b from hb] at hy'
      cases hy'
      exact hsame
    · obtain ⟨a, ha⟩ := hval h1
      obtain ⟨w, hw, _⟩ := hfield k fd a h1 ha
      have hx : x = .zero := by
        rw [hz, List.getElem?_replicate] at h2
        split at h2
        · exact (Option.some.inj h2).symm
        · cases h2
      subst hx
      rw [h3] at hw
      exact absurd (congrArg Prod.fst hw) h4.1

/-! ### structs without files -/

theorem field_upload {f : Nat} (ih : ∀ n v, Sendable E tag f n v →
      Uploadable E tag f n v ∧ texts E tag f n v = send E tag f n v ∧ uploads E tag f n v = [])
    {fd : Field} {x : Val} (h : FieldSendable (Sendable E tag f) tag fd x) :
    FieldUpload (Uploadable E tag f) tag fd x ∧ textsField (texts E tag f) tag fd x = sendField (send E tag f) tag fd x ∧
      filesField (uploads E tag f) tag fd x = [] := by
  by_cases hh : Hidden fd = true
  · have hx : x = .zero := by
      rcases h with h | h
      · exact h.2
      · unfold Hidden at hh; rw [h.1] at hh; simp at hh
    refine ⟨?_, ?_, ?_⟩
    · unfold FieldUpload
      split
      · exact .inl ⟨hh, hx⟩
      · exact .inl ⟨hh, hx⟩
    · unfold textsField sendField
      rw [if_pos hh, if_pos hh]
      split <;> rfl
    · unfold filesField
      rw [if_pos hh]
  · have hhf : Hidden fd = false := by simpa using hh
    rcases h with h | ⟨hx, h⟩
    · exact absurd h.1 hh
    · by_cases hs : ∃ m, fd.ty = .struct m
      · obtain ⟨m, ht⟩ := hs
        rw [ht] at h
        obtain ⟨i1, i2, i3⟩ := ih m x h.2
        refine ⟨?_, ?_, ?_⟩
        · rw [FieldUpload, ht]
          exact .inr ⟨hx, by rw [ht]; exact ⟨h.1, i1⟩⟩
        · rw [textsField, sendField, sendField, hhf, ht]
          exact i2
        · unfold filesField
          rw [hhf, ht]
          exact i3
      · by_cases hp : ∃ m, fd.ty = .ptr (.struct m)
        · obtain ⟨m, ht⟩ := hp
          rw [ht] at h
          obtain ⟨hb, y, rfl, hy⟩ := h
          obtain ⟨i1, i2, i3⟩ := ih m y hy
          refine ⟨?_, ?_, ?_⟩
          · rw [FieldUpload, ht]
            exact .inr ⟨hx, by rw [ht]; exact ⟨hb, y, rfl, i1⟩⟩
          · rw [textsField, sendField, sendField, hhf, ht]
            exact i2
          · unfold filesField
            rw [hhf, ht]
            exact i3
        · by_cases hu : isUpload fd.ty = true
          · have hty : fd.ty = .ptr .file ∨ fd.ty = .slice (.ptr .file) := by
              revert hu
              unfold isUpload
              split
              · intro _; exact .inl (by assumption)
              · intro _; exact .inr (by assumption)
              · intro hu; cases hu
            rcases hty with ht | ht
            · rw [ht] at h
              exact h.2.2.2.1.elim
            · rw [ht] at h
              obtain ⟨h1, h2, h3, h4, h5⟩ := h
              have he : elemsIn x = [] := by
                cases he : elemsIn x with
                | nil => rfl
                | cons a l => exact ((h5 a (by rw [he]; simp)).1).elim
              refine ⟨?_, ?_, ?_⟩
              · rw [FieldUpload, if_pos hu, ht]
                exact .inr ⟨hx, h1, h2, h3, h4, by rw [he]; simp⟩
              · rw [textsField, if_pos hu, sendField, hhf, ht]
                simp [he]
              · unfold filesField
                rw [hhf, ht]
                simp [filesIn, he]
          · have hu' : isUpload fd.ty = false := by simpa using hu
            refine ⟨?_, ?_, filesField_other hu' (fun m e => hs ⟨m, e⟩) (fun m e => hp ⟨m, e⟩) x⟩
            · rw [FieldUpload, if_neg hu]
              refine .inr ⟨hx, ?_⟩
              revert h
              split
              · rename_i m ht; exact absurd ⟨m, ht⟩ hs
              · rename_i m ht; exact absurd ⟨m, ht⟩ hp
              · exact id
              · exact id
              · exact id
            · rw [textsField, if_neg hu, sendField, sendField, hhf]
              simp only [Bool.false_eq_true, if_false]
              split
              · rename_i ht; exact absurd ⟨_, ht⟩ hs
              · rename_i ht; exact absurd ⟨_, ht⟩ hp
              · rfl
              · rfl
              · rfl
              · rfl
              · rfl

theorem sendable_upload (f : Nat) : ∀ n v, Sendable E tag f n v →
    Uploadable E tag f n v ∧ texts E tag f n v = send E tag f n v ∧ uploads E tag f n v = [] := by
  induction f with
  | zero => intro n v h; exact absurd h (by simp [Sendable])
  | succ f ih =>
    intro n v h
    have hz : ∀ p ∈ (E n).zip (fieldVals (E n).length v), FieldSendable (Sendable E tag f) tag p.1 p.2 := by
      rintro ⟨fd', x'⟩ hp
      obtain ⟨j, hj⟩ := List.mem_iff_getElem?.1 hp
      rw [List.getElem?_zip_eq_some] at hj
      exact h.2.2 j fd' x' hj.1 hj.2
    refine ⟨⟨h.1, h.2.1, fun i fd x h1 h2 => (field_upload ih (h.2.2 i fd x h1 h2)).1⟩, ?_, ?_⟩
    · simp only [texts, send, List.flatMap_def]
      congr 1
      exact List.map_congr_left (fun p hp => (field_upload ih (hz p hp)).2.1)
    · simp only [uploads, List.flatMap_eq_nil_iff]
      exact fun p hp => (field_upload ih (hz p hp)).2.2

/-- Binding a struct that was sent, into a zero struct. -/
theorem struct_back (f : Nat) (g : Nat) (hg : f ≤ g) (n : Nat) (v : Val) (h : Sendable E tag f n v) (hnd : (namesOf E tag f n).Nodup)
    (hf : ∀ k ∈ namesOf E tag f n, form.at k = orNone (valuesIn (send E tag f n v) k) ∧ files.at k = none) :
    ∃ w, mapForm o E form files tag g (.struct n) .zero = (.ok, w) ∧ SameVal E (.struct n) v w := by
  obtain ⟨h1, h2, h3⟩ := sendable_upload f n v h
  refine upload_back f g hg n v h1 hnd (fun k hk => ?_)
  rw [h2, h3]
  exact hf k hk

end Water
