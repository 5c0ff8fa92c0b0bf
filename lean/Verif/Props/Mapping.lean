import Verif.Lemmas.Mapping
import Verif.Props.Validate
/-
C68 to C73: the older mapper, `Bind2`.
-/
namespace Water
open Spec

variable {o : BOracle} {E : TyEnv} {check : Val → Option Nat} {src : Source} {tag : Str} {fuel n : Nat} {v v' : Val} {p : List Nat}
  {fd : Field} {x : Val}

theorem sized_bare : ∀ {t : Ty}, Sized2 (bare t) → Sized2 t
  | .ptr t, h => sized_bare (t := t) h
  | .int _, h | .uint _, h | .bool, h | .float _, h | .string, h | .duration, h | .time, h | .file, h | .struct _, h | .map _ _, h | .slice _, h
  | .array _ _, h | .other _, h => h

theorem bare_sized : ∀ {t : Ty}, Sized2 t → Sized2 (bare t)
  | .ptr t, h => bare_sized (t := t) h
  | .int _, h | .uint _, h | .bool, h | .float _, h | .string, h | .duration, h | .time, h | .file, h | .struct _, h | .map _ _, h | .slice _, h
  | .array _ _, h | .other _, h => h

theorem bind2_walk (h : bind2 o E fuel check src tag n v = (.ok, v')) :
    ∃ f, (walkAll o E src tag f n v).1 = .ok ∧ v' = .struct (walkAll o E src tag f n v).2.2 := by
  by_cases hf : fuel < 2
  · rw [bind2_low hf] at h; cases h
  · obtain ⟨f, rfl⟩ : ∃ f, fuel = f + 2 := ⟨fuel - 2, by omega⟩
    obtain ⟨h1, h2⟩ := bind2_eq (o := o) (E := E) (src := src) (tag := tag) check f n v
    rw [h] at h1 h2
    refine ⟨f, ?_, h1⟩
    by_cases hw : (walkAll o E src tag f n v).1 = .ok
    · exact hw
    · rw [if_neg hw] at h2; exact h2.symm

/-- C72: after a successful `Bind2` every field it comes to, at any depth, holds what was said about it: the files, the texts
or the default. -/
theorem C72_ok (h : bind2 o E fuel check src tag n v = (.ok, v')) (hv : HasTy E (.struct n) v) (hr : Reaches E src tag n v p fd x)
    (how : Own fd) (hsil : ¬ Silent src tag fd) (hz : Sized2 (bare fd.ty)) :
    ∃ w, Takes o src tag fd (bare fd.ty) (under x) w ∧ under (reach v' p) = under w := by
  obtain ⟨f, h1, rfl⟩ := bind2_walk h
  obtain ⟨f', _, g2, _⟩ := fate2 (o := o) hr hv f
  obtain ⟨g2, g4⟩ := g2 h1
  rcases own_takes (o := o) (reaches_tag hr).1 how.1 hsil f' how.2 (sized_bare hz) (reaches_hasTy hr hv) with a | ⟨w, y, a, b, c⟩ | ⟨e, s, w, a, b⟩
  · rw [g2] at a; cases a
  · refine ⟨y, b, ?_⟩
    rw [g4 (by rw [a]), a]; exact c
  · rw [a] at g2; cases g2

theorem takes_texts {t : Ty} {w : Val} {ss : List Str} (h : given src tag fd = some ss) (ht : Takes o src tag fd t v w) : Fills o fd t ss v w := by
  cases ht with
  | files a => rw [given_files a] at h; cases h
  | texts a b => rw [h] at a; cases a; exact b

theorem given_loud {ss : List Str} (h : given src tag fd = some ss) : ¬ Silent src tag fd := by
  intro hs; rw [hs.1] at h; cases h

/-! ### C68 -/

/-- C68: an integer field of any size, at any depth and behind any pointers, holds exactly the number written in the first
text, which fits the field. So a number that does not fit makes `Bind2` fail. -/
theorem C68_integer {bits : Nat} {ss : List Str} (h : bind2 o E fuel check src tag n v = (.ok, v')) (hv : HasTy E (.struct n) v)
    (hr : Reaches E src tag n v p fd x) (how : Own fd) (ht : bare fd.ty = .int bits) (hb : 2 ≤ bits ∧ bits ≤ 64)
    (hg : given src tag fd = some ss) :
    ∃ i, NumberOf (ss.headD []) i ∧ FitsInt bits i ∧ under (reach v' p) = .int i := by
  obtain ⟨w, h1, h2⟩ := C72_ok h hv hr how (given_loud hg) (by rw [ht]; exact hb)
  rw [ht] at h1
  cases takes_texts hg h1 with
  | one _ _ h =>
    cases h with
    | int h3 h4 => exact ⟨_, h3, h4, h2⟩
    | json h => simp at h

/-- C68: and the same for unsigned integers. -/
theorem C68_unsigned {bits : Nat} {ss : List Str} (h : bind2 o E fuel check src tag n v = (.ok, v')) (hv : HasTy E (.struct n) v)
    (hr : Reaches E src tag n v p fd x) (how : Own fd) (ht : bare fd.ty = .uint bits) (hb : bits ≤ 64)
    (hg : given src tag fd = some ss) :
    ∃ m, NaturalOf (ss.headD []) m ∧ m < 2 ^ bits ∧ under (reach v' p) = .uint m := by
  obtain ⟨w, h1, h2⟩ := C72_ok h hv hr how (given_loud hg) (by rw [ht]; exact hb)
  rw [ht] at h1
  cases takes_texts hg h1 with
  | one _ _ h =>
    cases h with
    | uint h3 h4 => exact ⟨_, h3, h4, h2⟩
    | json h => simp at h

/-! ### C69 -/

/-- C69: a boolean field holds the boolean that was submitted, whatever it held before. -/
theorem C69_boolean {ss : List Str} (h : bind2 o E fuel check src tag n v = (.ok, v')) (hv : HasTy E (.struct n) v)
    (hr : Reaches E src tag n v p fd x) (how : Own fd) (ht : bare fd.ty = .bool) (hg : given src tag fd = some ss) :
    ∃ b, BoolOf (ss.headD []) b ∧ under (reach v' p) = .bool b := by
  obtain ⟨w, h1, h2⟩ := C72_ok h hv hr how (given_loud hg) (by rw [ht]; trivial)
  rw [ht] at h1
  cases takes_texts hg h1 with
  | one _ _ h =>
    cases h with
    | bool h3 => exact ⟨_, h3, h2⟩
    | json h => simp at h

/-- C69: a string field holds the first text. -/
theorem C69_string {ss : List Str} (h : bind2 o E fuel check src tag n v = (.ok, v')) (hv : HasTy E (.struct n) v)
    (hr : Reaches E src tag n v p fd x) (how : Own fd) (ht : bare fd.ty = .string) (hg : given src tag fd = some ss) :
    under (reach v' p) = .string (ss.headD []) := by
  obtain ⟨w, h1, h2⟩ := C72_ok h hv hr how (given_loud hg) (by rw [ht]; trivial)
  rw [ht] at h1
  cases takes_texts hg h1 with
  | one _ _ h =>
    cases h with
    | string => exact h2
    | json h => simp at h

/-! ### C70 -/

theorem bind2_value : (bind2 o E fuel check src tag n v).2 = v ∨
    ∃ f, (bind2 o E fuel check src tag n v).2 = .struct (walkAll o E src tag f n v).2.2 := by
  by_cases hf : fuel < 2
  · rw [bind2_low hf]; exact Or.inl rfl
  · obtain ⟨f, rfl⟩ : ∃ f, fuel = f + 2 := ⟨fuel - 2, by omega⟩
    exact Or.inr ⟨f, (bind2_eq check f n v).1⟩

/-- C70: a field of no struct type about which nothing is said is left alone, whether `Bind2` succeeds, fails or panics. -/
theorem C70_frame (hv : HasTy E (.struct n) v) (hr : Reaches E src tag n v p fd x) (hs : Silent src tag fd) (ht : ∀ m, bare fd.ty ≠ .struct m) :
    reach (bind2 o E fuel check src tag n v).2 p = x := by
  rcases bind2_value (o := o) (E := E) (check := check) (src := src) (tag := tag) (fuel := fuel) (n := n) (v := v) with h | ⟨f, h⟩
  · rw [h]; exact reaches_reach hr hv
  · rw [h]
    obtain ⟨f', _, _, g3⟩ := fate2 (o := o) hr hv f
    rcases g3 with g3 | g3
    · exact g3
    · rw [g3, (own_silent (o := o) f' fd.ty (Or.inl hs) ht (reaches_hasTy hr hv)).1]

/-- C70: unexported fields and fields hidden by a dash are left alone. -/
theorem C70_hidden (hv : HasTy E (.struct n) v) (hp : Passes E src tag n v p fd x) :
    reach (bind2 o E fuel check src tag n v).2 p = x := by
  have hne : ∀ {n v p fd x}, Passes E src tag n v p fd x → p ≠ [] := by intro n v p fd x h; cases h <;> simp
  have key : ∀ {n v p fd x}, Passes E src tag n v p fd x → HasTy E (.struct n) v → reach v p = x ∧
      ∀ f, reach (.struct (walkAll o E src tag f n v).2.2) p = x := by
    intro n v p fd x h
    induction h with
    | @here n v i fd x h1 h2 h3 =>
      intro hv
      refine ⟨by rw [reach_field hv h2]; rfl, fun f => ?_⟩
      unfold walkAll
      rcases h3 with h3 | h3
      · rw [reach_at ((mapLoop_spec _ (E n) _).2.1 i fd x h1 h2 h3)]; rfl
      · by_cases hvis : Visible fd
        · have he : (mapping o E src tag f fd.ty fd x).2.2 = x := by
            cases f with
            | zero => rfl
            | succ f => unfold mapping; rw [if_pos h3]
          rcases (at_step (step := fun fd x => mapping o E src tag f fd.ty fd x) h1 h2 hvis).2 with s | s
          · rw [reach_at s]; rfl
          · rw [reach_at s, he]; rfl
        · rw [reach_at ((mapLoop_spec _ (E n) _).2.1 i fd x h1 h2 hvis)]; rfl
    | @inside n v i fd₀ x₀ m p fd z h1 h2 h3 h4 h5 h6 h7 ih =>
      intro hv
      have hty := hasTy_field hv h1 h2
      obtain ⟨i1, i2⟩ := ih (hasTy_inside hty h5)
      have hr0 : reach x₀ p = z := by rw [← reach_under (hne h7)]; exact i1
      refine ⟨by rw [reach_field hv h2]; exact hr0, fun f => ?_⟩
      unfold walkAll
      rcases (at_step (step := fun fd x => mapping o E src tag f fd.ty fd x) h1 h2 h3).2 with s | s
      · rw [reach_at s, hr0]
      · rw [reach_at s]
        rcases through (o := o) h4 h6 f h5 hty with ⟨_, t2⟩ | ⟨g, _, _, _, t3, _⟩
        · rw [t2, hr0]
        · rcases t3 with t3 | ⟨t3, _⟩
          · rw [← reach_under (hne h7), t3]; exact i2 g
          · rw [t3, hr0]
  rcases bind2_value (o := o) (E := E) (check := check) (src := src) (tag := tag) (fuel := fuel) (n := n) (v := v) with h | ⟨f, h⟩
  · rw [h]; exact (key hp hv).1
  · rw [h]; exact (key hp hv).2 f

/-- C70: an unexported embedded field that is no struct is left alone, whatever is said about it. -/
theorem C70_unexported (hv : HasTy E (.struct n) v) (hr : Reaches E src tag n v p fd x) (hx : fd.exported = false)
    (hs : (bare fd.ty).isStruct = false) (hz : Sized2 (bare fd.ty)) :
    reach (bind2 o E fuel check src tag n v).2 p = x := by
  rcases bind2_value (o := o) (E := E) (check := check) (src := src) (tag := tag) (fuel := fuel) (n := n) (v := v) with h | ⟨f, h⟩
  · rw [h]; exact reaches_reach hr hv
  · rw [h]
    obtain ⟨f', _, _, g3⟩ := fate2 (o := o) hr hv f
    rcases g3 with g3 | g3
    · exact g3
    · rw [g3, unexported_kept (o := o) (reaches_tag hr).1 hx f' hs (sized_bare hz) (reaches_hasTy hr hv)]

/-- C70: a nil pointer stays nil if nothing is said about it nor about anything inside of what it could point to; embedded
structs themselves do not count. -/
theorem C70_nil {t : Ty} (hv : HasTy E (.struct n) v) (hr : Reaches E src tag n v p fd .zero) (ht : fd.ty = .ptr t)
    (hs : ∀ q fd' z, Reaches E src tag n v (p ++ q) fd' z →
      Silent src tag fd' ∨ (fd'.anonymous = true ∧ (bare fd'.ty).isStruct = true)) :
    reach (bind2 o E fuel check src tag n v).2 p = .zero := by
  rcases bind2_value (o := o) (E := E) (check := check) (src := src) (tag := tag) (fuel := fuel) (n := n) (v := v) with h | ⟨f, h⟩
  · rw [h]; exact reaches_reach hr hv
  · rw [h]
    obtain ⟨f', _, _, g3⟩ := fate2 (o := o) hr hv f
    rcases g3 with g3 | g3
    · exact g3
    · rw [g3, ht]
      apply nil_kept
      intro hok
      cases hset : (mapping o E src tag f' (.ptr t) fd .zero).2.1 with
      | false => rfl
      | true =>
        exfalso
        rcases set_reason (o := o) f' (.ptr t) fd .zero .zero (reaches_tag hr).1 hok hset with ⟨a, b⟩ | ⟨m, q, fd', z, a, b, c, d, e⟩
        · rcases hs [] fd .zero (by simpa using hr) with h | h
          · exact a h
          · rw [ht] at h; exact b h
        · rcases hs q fd' z (reaches_append hr (by rw [ht]; exact a) b c) with h | h
          · exact d h
          · exact e h

/-! ### C71 -/

/-- C71: a slice field gets one element for each text, in order, each converted on its own. -/
theorem C71_slice {el : Ty} {ss : List Str} (h : bind2 o E fuel check src tag n v = (.ok, v')) (hv : HasTy E (.struct n) v)
    (hr : Reaches E src tag n v p fd x) (how : Own fd) (ht : bare fd.ty = .slice el) (hz : Sized2 el) (hg : given src tag fd = some ss) :
    ∃ ws, under (reach v' p) = .slice ws ∧ ws.length = ss.length ∧
      ∀ (i : Nat) s w, ss[i]? = some s → ws[i]? = some w → Exact o fd el s .zero w := by
  obtain ⟨w, h1, h2⟩ := C72_ok h hv hr how (given_loud hg) (by rw [ht]; exact hz)
  rw [ht] at h1
  cases takes_texts hg h1 with
  | one h => exact absurd rfl (h _)
  | slice h3 h4 => exact ⟨_, h2, h3, h4⟩

/-- C71: an array field takes exactly as many texts as it has elements. -/
theorem C71_array {k : Nat} {el : Ty} {ss : List Str} (h : bind2 o E fuel check src tag n v = (.ok, v')) (hv : HasTy E (.struct n) v)
    (hr : Reaches E src tag n v p fd x) (how : Own fd) (ht : bare fd.ty = .array k el) (hz : Sized2 el) (hg : given src tag fd = some ss) :
    ss.length = k ∧ ∃ ws, under (reach v' p) = .slice ws ∧ ws.length = k ∧
      ∀ (i : Nat) s w, ss[i]? = some s → ws[i]? = some w → Exact o fd el s (element (under x) i) w := by
  obtain ⟨w, h1, h2⟩ := C72_ok h hv hr how (given_loud hg) (by rw [ht]; exact hz)
  rw [ht] at h1
  cases takes_texts hg h1 with
  | one _ h => exact absurd rfl (h _ _)
  | array h3 h4 h5 => exact ⟨h3, _, h2, h4, h5⟩

/-- C71: uploaded files fill file fields, slices of them, and arrays of them. -/
theorem C71_files {fs : List Nat} (h : bind2 o E fuel check src tag n v = (.ok, v')) (hv : HasTy E (.struct n) v)
    (hr : Reaches E src tag n v p fd x) (how : Own fd) (hz : Sized2 (bare fd.ty)) (hg : givenFiles src tag fd = some fs) :
    ∃ w, FilledBy (bare fd.ty) fs w ∧ under (reach v' p) = under w := by
  obtain ⟨w, h1, h2⟩ := C72_ok h hv hr how (by intro hs; rw [hs.2] at hg; cases hg) hz
  cases h1 with
  | files a b => rw [hg] at a; cases a; exact ⟨w, b, h2⟩
  | texts a => rw [given_files hg] at a; cases a

/-! ### C72 -/

/-- C72: the validator is asked only about a value that was mapped without error, and what it says does not change the value. -/
theorem C72_check : (bind2 o E fuel check src tag n v).2 = (bind2 o E fuel (fun _ => none) src tag n v).2 ∧
    ((bind2 o E fuel check src tag n v).1 = .ok ↔
      (bind2 o E fuel (fun _ => none) src tag n v).1 = .ok ∧ check (bind2 o E fuel (fun _ => none) src tag n v).2 = none) := by
  by_cases hf : fuel < 2
  · rw [bind2_low hf, bind2_low hf]; simp
  · obtain ⟨f, rfl⟩ : ∃ f, fuel = f + 2 := ⟨fuel - 2, by omega⟩
    obtain ⟨h1, h2⟩ := bind2_eq (o := o) (E := E) (src := src) (tag := tag) check f n v
    obtain ⟨h3, h4⟩ := bind2_eq (o := o) (E := E) (src := src) (tag := tag) (fun _ => none) f n v
    rw [h1, h2, h3, h4]
    refine ⟨rfl, ?_⟩
    by_cases hw : (walkAll o E src tag f n v).1 = .ok
    · rw [if_pos hw, if_pos hw]
      cases check (.struct (walkAll o E src tag f n v).2.2) <;> simp
    · rw [if_neg hw, if_neg hw]; simp [hw]

theorem bind2_none (h : bind2 o E fuel (fun _ => none) src tag n v = (out, v')) (hne : out ≠ .ok) (hnf : out ≠ .fuel) :
    ∃ f, (walkAll o E src tag f n v).1 = out ∧ v' = .struct (walkAll o E src tag f n v).2.2 := by
  by_cases hf : fuel < 2
  · rw [bind2_low hf] at h; cases h; exact absurd rfl hnf
  · obtain ⟨f, rfl⟩ : ∃ f, fuel = f + 2 := ⟨fuel - 2, by omega⟩
    obtain ⟨h1, h2⟩ := bind2_eq (o := o) (E := E) (src := src) (tag := tag) (fun _ => none) f n v
    rw [h] at h1 h2
    refine ⟨f, ?_, h1⟩
    by_cases hw : (walkAll o E src tag f n v).1 = .ok
    · rw [if_pos hw] at h2; exact absurd h2 hne
    · rw [if_neg hw] at h2; exact h2.symm

/-- C72: if mapping fails, there is a first field that cannot take what was said about it: everything before it can be set, and
everything after it is left alone. -/
theorem C72_first {e : BErr} (h : bind2 o E fuel (fun _ => none) src tag n v = (.err e, v')) (hv : HasTy E (.struct n) v)
    (hz : ∀ n, ∀ fd ∈ E n, Sized2 fd.ty) :
    ∃ q fd x, Reaches E src tag n v q fd x ∧ Valued fd ∧ ¬ Silent src tag fd ∧ (¬ ∃ w, Takes o src tag fd (bare fd.ty) (under x) w) ∧
      (∀ p fd' x', Reaches E src tag n v p fd' x' → Sooner p q → Own fd' → ¬ Silent src tag fd' →
        ∃ w, Takes o src tag fd' (bare fd'.ty) (under x') w) ∧
      (∀ p fd' x', Reaches E src tag n v p fd' x' → Sooner q p → reach v' p = x') := by
  obtain ⟨f, h1, rfl⟩ := bind2_none h (by simp) (by simp)
  exact first_bad2 hz f hv h1

theorem setProper_kept {t : Ty} (h : (setProper o fd t s v).1 ≠ .ok) (hs : ∀ m, t ≠ .struct m) (hf : t ≠ .file) (hm : ∀ k e, t ≠ .map k e) :
    (setProper o fd t s v).2 = v := by
  cases t with
  | struct m => exact absurd rfl (hs m)
  | file => exact absurd rfl hf
  | map k e => exact absurd rfl (hm k e)
  | time =>
    revert h
    simp only [setProper, setTimeField, setTimeField2]
    repeat' split
    all_goals simp_all
  | _ =>
    revert h
    simp only [setProper]
    repeat' split
    all_goals simp_all

theorem setValues_kept {t : Ty} {ss : List Str} (h : (setValues o fd t ss v).1 ≠ .ok) (hs : ∀ m, t ≠ .struct m) (hf : t ≠ .file)
    (hm : ∀ k e, t ≠ .map k e) (ha : ∀ k e, t = .array k e → ss.length ≠ k) : (setValues o fd t ss v).2 = v := by
  cases t with
  | slice el =>
    revert h
    simp only [setValues]
    split <;> simp_all
  | array k el =>
    simp only [setValues]
    rw [if_pos (ha k el rfl)]
  | _ => exact setProper_kept h hs hf hm

theorem setByFile_kept {key : Str} {t : Ty} {f : Nat} {fs : List Nat} (h : (setByFile key t (f :: fs) v).1 ≠ .ok) (hf : t ≠ .file)
    (ha : ∀ k e, t = .array k e → (f :: fs).length ≠ k) : (setByFile key t (f :: fs) v).2 = v := by
  cases t with
  | file => exact absurd rfl hf
  | slice el =>
    revert h
    simp only [setByFile]
    split <;> simp_all
  | array k el =>
    simp only [setByFile]
    rw [if_pos (Ne.symm (ha k el rfl))]
  | ptr t => cases t <;> first | rfl | exact absurd rfl h
  | _ => rfl

theorem mapping_kept (h : fd.tag tag ≠ b!"-") (hx : fd.exported = true) (hs : ¬ Silent src tag fd) (f : Nat) :
    ∀ {t : Ty}, (fd.anonymous = true → (bare t).isStruct = false) → Sized2 t → ∀ {v : Val}, HasTy E t v → Whole src tag fd (bare t) →
    (¬ ∃ w, Takes o src tag fd (bare t) (under v) w) → (mapping o E src tag f t fd v).1 ≠ .ok ∧ (mapping o E src tag f t fd v).2.2 = v := by
  induction f with
  | zero => intro t _ hz v hv _ _; exact ⟨by simp [mapping], rfl⟩
  | succ f ih =>
    intro t ha hz v hv hw hn
    rcases isPtr t with ⟨t', rfl⟩ | ht
    · rw [mapping_ptr h]
      rcases hasTy_ptr hv with rfl | ⟨x, rfl, hx'⟩
      · obtain ⟨h1, _⟩ := ih (t := t') ha hz (v := .zero) .zero hw hn
        simp only [mapPointer, shown_self hx]
        rcases hr : mapping o E src tag f t' fd .zero with ⟨out, set, w⟩
        rw [hr] at h1
        cases out with
        | ok => exact absurd rfl h1
        | _ => exact ⟨by simp, rfl⟩
      · obtain ⟨h1, h2⟩ := ih (t := t') ha hz hx' hw hn
        simp only [mapPointer]
        exact ⟨h1, by rw [h2]⟩
    · rw [mapping_plain h ht]
      rw [bare_self ht] at ha hw hn
      rw [under_self (hasTy_plain ht hv)] at hn
      have hms : ∀ m, t ≠ .struct m := by rintro m rfl; exact hw
      have hf : t ≠ .file := by rintro rfl; exact hw
      have hm : ∀ k e, t ≠ .map k e := by rintro k e rfl; exact hw
      rcases try_takes (o := o) h hx hs hz v with ⟨w, _, h2⟩ | ⟨e, w, h1, h2⟩
      · exact absurd ⟨w, h2⟩ hn
      · have hc : (t.isStruct && fd.anonymous) = false := by
          cases hb : fd.anonymous with
          | false => simp
          | true => rw [ha hb]; rfl
        rw [hc, if_neg (by simp), h1]
        refine ⟨by simp, ?_⟩
        show w = v
        rcases try_cases (o := o) (src := src) h t v with ⟨h3, _⟩ | ⟨_, h3, _⟩ | ⟨g, gs, h3, _, h4⟩ | ⟨ss, h3, _, _, h4⟩
        · exact absurd h3 hs
        · rw [hx] at h3; cases h3
        · rw [h1] at h4
          injection h4 with h5 h6
          injection h6 with _ h6
          rw [h6]
          refine setByFile_kept (by rw [← h5]; simp) hf ?_
          rintro k el rfl
          exact hw.2 _ h3
        · rw [h1] at h4
          injection h4 with h5 h6
          injection h6 with _ h6
          rw [h6]
          refine setValues_kept (by rw [← h5]; simp) hms hf hm ?_
          rintro k el rfl
          exact hw.1 _ h3

/-- C72: a field that cannot take what is said about it keeps its value, if its type is replaced as a whole or not at all; in
particular a slice with a bad element is not stored. -/
theorem C72_kept (hv : HasTy E (.struct n) v) (hr : Reaches E src tag n v p fd x) (how : Own fd) (hsil : ¬ Silent src tag fd)
    (hz : Sized2 (bare fd.ty)) (hw : Whole src tag fd (bare fd.ty)) (hn : ¬ ∃ w, Takes o src tag fd (bare fd.ty) (under x) w) :
    (bind2 o E fuel check src tag n v).1 ≠ .ok ∧ reach (bind2 o E fuel check src tag n v).2 p = x := by
  constructor
  · intro hok
    obtain ⟨w, h1, _⟩ := C72_ok (v' := (bind2 o E fuel check src tag n v).2) (Prod.ext hok rfl) hv hr how hsil hz
    exact hn ⟨w, h1⟩
  · rcases bind2_value (o := o) (E := E) (check := check) (src := src) (tag := tag) (fuel := fuel) (n := n) (v := v) with h | ⟨f, h⟩
    · rw [h]; exact reaches_reach hr hv
    · rw [h]
      obtain ⟨f', _, _, g3⟩ := fate2 (o := o) hr hv f
      rcases g3 with g3 | g3
      · exact g3
      · rw [g3, (mapping_kept (o := o) (reaches_tag hr).1 how.1 hsil f' how.2 (sized_bare hz) (reaches_hasTy hr hv) hw hn).2]

/-- C72: `Bind2` panics only at an unexported embedded field that is a pointer or no struct. -/
theorem C72_panic (h : bind2 o E fuel check src tag n v = (.panic, v')) (hv : HasTy E (.struct n) v) (hz : ∀ n, ∀ fd ∈ E n, Sized2 fd.ty) :
    ∃ q fd x, Reaches E src tag n v q fd x ∧ fd.exported = false ∧ ((∃ t, fd.ty = .ptr t) ∨ ∀ m, fd.ty ≠ .struct m) := by
  by_cases hf : fuel < 2
  · rw [bind2_low hf] at h; cases h
  · obtain ⟨f, rfl⟩ : ∃ f, fuel = f + 2 := ⟨fuel - 2, by omega⟩
    have h2 := (bind2_eq (o := o) (E := E) (src := src) (tag := tag) check f n v).2
    rw [h] at h2
    by_cases hw : (walkAll o E src tag f n v).1 = .ok
    · rw [if_pos hw] at h2
      cases hc : check (.struct (walkAll o E src tag f n v).2.2) <;> rw [hc] at h2 <;> cases h2
    · rw [if_neg hw] at h2; exact panic_reason hz f hv h2.symm

/-- C72: with all embedded fields exported, and enough depth, `Bind2` fails exactly if some field it comes to cannot take what
was said about it. -/
theorem C72_iff (hv : HasTy E (.struct n) v) (hz : ∀ n, ∀ fd ∈ E n, Sized2 fd.ty) (hx : ∀ n, ∀ fd ∈ E n, fd.anonymous = true → fd.exported = true)
    (hf : (bind2 o E fuel (fun _ => none) src tag n v).1 ≠ .fuel) :
    (∃ e, (bind2 o E fuel (fun _ => none) src tag n v).1 = .err e) ↔
      ∃ q fd x, Reaches E src tag n v q fd x ∧ Own fd ∧ ¬ Silent src tag fd ∧ ¬ ∃ w, Takes o src tag fd (bare fd.ty) (under x) w := by
  rcases hb : bind2 o E fuel (fun _ => none) src tag n v with ⟨out, v'⟩
  rw [hb] at hf
  constructor
  · rintro ⟨e, he⟩
    dsimp only at he; subst he
    obtain ⟨q, fd, x, a, b, c, d, _⟩ := C72_first hb hv hz
    obtain ⟨m, hm⟩ := reaches_mem a
    refine ⟨q, fd, x, a, ⟨?_, b⟩, c, d⟩
    rcases (reaches_tag a).2 with h | h
    · exact h
    · exact hx m fd hm h
  · rintro ⟨q, fd, x, a, b, c, d⟩
    cases out with
    | err e => exact ⟨e, rfl⟩
    | ok =>
      obtain ⟨w, h1, _⟩ := C72_ok hb hv a b c (by
        obtain ⟨m, hm⟩ := reaches_mem a
        exact bare_sized (hz m fd hm))
      exact absurd ⟨w, h1⟩ d
    | panic =>
      obtain ⟨q', fd', x', h1, h2, _⟩ := C72_panic hb hv hz
      obtain ⟨m, hm⟩ := reaches_mem h1
      rcases (reaches_tag h1).2 with h | h
      · rw [h] at h2; cases h2
      · rw [hx m fd' hm h] at h2; cases h2
    | fuel => exact absurd rfl hf

/-! ### C73 -/

/-- C73 (partial: struct types of finite depth): `Bind2` ends, at a depth that does not depend on the value. -/
theorem C73_terminates_partial (rank : Nat → Nat) (hr : ∀ n, ∀ fd ∈ E n, ∀ m, bare fd.ty = .struct m → rank m < rank n) (n : Nat) :
    ∃ F, ∀ fuel, F ≤ fuel → ∀ v, (bind2 o E fuel check src tag n v).1 ≠ .fuel := by
  obtain ⟨F, hF⟩ := enough2 (o := o) (src := src) (tag := tag) rank hr (rank n + 1) n (Nat.lt_succ_self _)
  refine ⟨F + 2, fun fuel hf v => ?_⟩
  obtain ⟨f, rfl⟩ : ∃ f, fuel = f + 2 := ⟨fuel - 2, by omega⟩
  have hw := hF f (by omega) v
  rw [(bind2_eq check f n v).2]
  by_cases h : (walkAll o E src tag f n v).1 = .ok
  · rw [if_pos h]
    cases check (.struct (walkAll o E src tag f n v).2.2) <;> simp
  · rw [if_neg h]; exact hw

/-- C73 is false for `type Node struct { V int; Next *Node }`: a request that says nothing about it never ends. -/
theorem C73_refuted (hs : ∀ fd ∈ Demo.nodeEnv 0, Silent src b!"form" fd) (fuel : Nat) :
    (bind2 o Demo.nodeEnv fuel check src b!"form" 0 .zero).1 = .fuel := by
  have hV : Silent src b!"form" (Demo.fld b!"V" b!"v" (.int 64)) := hs _ (by simp [Demo.nodeEnv])
  have hN : Silent src b!"form" (Demo.fld b!"Next" [] (.ptr (.struct 0))) := hs _ (by simp [Demo.nodeEnv])
  have hd : (Demo.fld b!"Next" [] (.ptr (.struct 0))).tag b!"form" ≠ b!"-" := by decide
  have key : ∀ f, (walkAll o Demo.nodeEnv src b!"form" f 0 .zero).1 = .fuel := by
    intro f
    induction f using Nat.strongRecOn with
    | _ f ih =>
      have hn : (mapping o Demo.nodeEnv src b!"form" f (.ptr (.struct 0)) (Demo.fld b!"Next" [] (.ptr (.struct 0))) .zero).1 = .fuel := by
        rcases through (o := o) (E := Demo.nodeEnv) hd (Or.inr hN) (m := 0) f (t := .ptr (.struct 0)) rfl (v := .zero) .zero with ⟨t1, _⟩ | ⟨g, t0, t1, _⟩
        · exact t1
        · have := ih g t0
          rcases t1 with t1 | ⟨t1, _⟩
          · rw [t1]; exact this
          · rw [show under Val.zero = .zero from rfl, this] at t1; cases t1
      unfold walkAll
      show (mapLoop _ [Demo.fld b!"V" b!"v" (.int 64), Demo.fld b!"Next" [] (.ptr (.struct 0))] [.zero, .zero]).1 = _
      rcases (own_silent (o := o) (E := Demo.nodeEnv) f (.int 64) (Or.inl hV) (by intro m h; cases h) (v := .zero) .zero).2 with h | h
      · unfold mapLoop
        rw [if_neg (by decide)]
        rcases hm : mapping o Demo.nodeEnv src b!"form" f (Demo.fld b!"V" b!"v" (.int 64)).ty (Demo.fld b!"V" b!"v" (.int 64)) .zero with ⟨out, set, w⟩
        have : out = .fuel := (congrArg Prod.fst hm).symm.trans h
        subst this; rfl
      · unfold mapLoop
        rw [if_neg (by decide)]
        rw [show (mapping o Demo.nodeEnv src b!"form" f (Demo.fld b!"V" b!"v" (.int 64)).ty (Demo.fld b!"V" b!"v" (.int 64)) .zero) = (.ok, false, .zero) from h]
        dsimp only
        unfold mapLoop
        rw [if_neg (by decide)]
        rcases hm : mapping o Demo.nodeEnv src b!"form" f (Demo.fld b!"Next" [] (.ptr (.struct 0))).ty (Demo.fld b!"Next" [] (.ptr (.struct 0))) .zero with ⟨out, set, w⟩
        have : out = .fuel := (congrArg Prod.fst hm).symm.trans hn
        subst this; rfl
  by_cases hf : fuel < 2
  · rw [bind2_low hf]
  · obtain ⟨f, rfl⟩ : ∃ f, fuel = f + 2 := ⟨fuel - 2, by omega⟩
    rw [(bind2_eq check f 0 .zero).2, key f]; rfl

/-! ### C74 -/

/-- C74: `Bind2` into a made map of lists: every name of the form holds its values, every other key what it held before. -/
theorem C74_slices (m : Map Str (List Str)) (form : Form) (hn : Names form) :
    ∃ m', setFormMap (.slices (some m)) form = (.ok, .slices (some m')) ∧ ∀ k, m' k = (form.at k).or (m k) :=
  ⟨_, rfl, fun k => mapSlices_at form hn _ k⟩

/-- C74: into a made map of strings: every name of the form holds its last value. -/
theorem C74_strings (m : Map Str Str) (form : Form) (hn : Names form) (hv : ∀ e ∈ form, e.2 ≠ []) :
    ∃ m', setFormMap (.strings (some m)) form = (.ok, .strings (some m')) ∧ ∀ k, m' k = ((form.at k).bind List.getLast?).or (m k) := by
  obtain ⟨m', h1, h2⟩ := mapStrings_at form hn hv m
  exact ⟨m', by simp only [setFormMap]; rw [h1], h2⟩

/-- C74: and the order in which Go runs through the form does not matter. -/
theorem C74_order (form form' : Form) (hn : Names form) (hp : form.Perm form') :
    (∀ m, setFormMap (.slices m) form' = setFormMap (.slices m) form) ∧
    (∀ m, (∀ e ∈ form, e.2 ≠ []) → setFormMap (.strings m) form' = setFormMap (.strings m) form) := by
  have hn' : Names form' := by unfold Names at hn ⊢; exact (hp.map Prod.fst).nodup_iff.1 hn
  have he : form' = [] ↔ form = [] := by
    constructor
    · rintro rfl; exact hp.eq_nil
    · rintro rfl; exact hp.symm.eq_nil
  refine ⟨?_, ?_⟩
  · intro m
    cases m with
    | none => simp only [setFormMap, he]
    | some m =>
      obtain ⟨m1, h1, h2⟩ := C74_slices m form hn
      obtain ⟨m2, h3, h4⟩ := C74_slices m form' hn'
      rw [h1, h3]
      have : m1 = m2 := by funext k; rw [h2, h4, form_at_perm hn hp]
      rw [this]
  · intro m hv
    cases m with
    | none => simp only [setFormMap, he]
    | some m =>
      obtain ⟨m1, h1, h2⟩ := C74_strings m form hn hv
      obtain ⟨m2, h3, h4⟩ := C74_strings m form' hn' (fun e he => hv e (hp.mem_iff.2 he))
      rw [h1, h3]
      have : m1 = m2 := by funext k; rw [h2, h4, form_at_perm hn hp]
      rw [this]

/-- C74: a nil map is not made: any form with an entry panics. -/
theorem C74_nil (form : Form) (h : form ≠ []) : (setFormMap (.slices none) form).1 = .panic ∧ (setFormMap (.strings none) form).1 = .panic := by
  simp [setFormMap, h]

/-! ### examples -/

namespace Demo

/-- `type T struct { ID int8; Big *uint16; On bool; In U; Tags []string; Pair [2]int16; low int; Skip string; Sub *U; U }`, with
`type U struct { A string; N **int64 }` -/
def mapEnv : TyEnv := fun n =>
  if n = 0 then
    [fld b!"ID" b!"id" (.int 8), fld b!"Big" b!"big,default=7" (.ptr (.uint 16)), fld b!"On" b!"on" .bool, fld b!"In" b!"in" (.struct 1),
     fld b!"Tags" b!"tags" (.slice .string), fld b!"Pair" b!"pair" (.array 2 (.int 16)),
     { fld b!"low" b!"low" (.int 64) with exported := false }, fld b!"Skip" b!"-" .string, fld b!"Sub" b!"sub" (.ptr (.struct 1)),
     { fld b!"U" [] (.struct 1) with anonymous := true }]
  else [fld b!"A" b!"a" .string, fld b!"N" b!"n" (.ptr (.ptr (.int 64)))]

/-- `Bind2` into `T` -/
def mapT (v : Val) (form : Form) : BOut × Val := bind2 bindO mapEnv 20 (fun _ => none) ⟨form, [], false⟩ b!"form" 0 v

/-- everything that is said is stored; nothing is said about what `Sub` could hold, so that it stays nil; `low` and `Skip` are
passed by; `false` overwrites -/
example : (mapT (.struct [.zero, .zero, .bool true, .zero, .zero, .zero, .zero, .zero, .zero, .zero])
      [(b!"id", [b!"-128"]), (b!"on", [b!"false"]), (b!"tags", [b!"p", b!"q"]), (b!"pair", [b!"1", b!"-2"]), (b!"low", [b!"3"]), (b!"Skip", [b!"s"])]).1 = .ok ∧
    same (mapT (.struct [.zero, .zero, .bool true, .zero, .zero, .zero, .zero, .zero, .zero, .zero])
      [(b!"id", [b!"-128"]), (b!"on", [b!"false"]), (b!"tags", [b!"p", b!"q"]), (b!"pair", [b!"1", b!"-2"]), (b!"low", [b!"3"]), (b!"Skip", [b!"s"])]).2
      (.struct [.int (-128), .ptr (.uint 7), .bool false, .struct [.zero, .zero], .slice [.string b!"p", .string b!"q"],
        .slice [.int 1, .int (-2)], .zero, .zero, .zero, .struct [.zero, .zero]]) = true := by decide +kernel

/-- what is inside `Sub` is named: it is allocated -/
example : same (mapT .zero [(b!"a", [b!"x"]), (b!"n", [b!"12"])]).2
      (.struct [.zero, .ptr (.uint 7), .zero, .struct [.string b!"x", .ptr (.ptr (.int 12))], .zero, .zero, .zero, .zero,
        .ptr (.struct [.string b!"x", .ptr (.ptr (.int 12))]), .struct [.string b!"x", .ptr (.ptr (.int 12))]]) = true := by decide +kernel

/-- a number that does not fit is an error, and nothing else is set -/
example : (mapT .zero [(b!"id", [b!"128"]), (b!"on", [b!"true"])]).1 = .err (.num .range) ∧
    same (mapT .zero [(b!"id", [b!"128"]), (b!"on", [b!"true"])]).2 (.struct (List.replicate 10 .zero)) = true := by decide +kernel

/-- a slice with a bad element is not stored -/
def tagsEnv : TyEnv := fun _ => [fld b!"Ids" b!"ids" (.slice (.int 8))]

example : (bind2 bindO tagsEnv 6 (fun _ => none) ⟨[(b!"ids", [b!"1", b!"300"])], [], false⟩ b!"form" 0 (.struct [.slice [.int 5]])).1 = .err (.num .range) ∧
    same (bind2 bindO tagsEnv 6 (fun _ => none) ⟨[(b!"ids", [b!"1", b!"300"])], [], false⟩ b!"form" 0 (.struct [.slice [.int 5]])).2
      (.struct [.slice [.int 5]]) = true ∧
    Whole ⟨[(b!"ids", [b!"1", b!"300"])], [], false⟩ b!"form" (fld b!"Ids" b!"ids" (.slice (.int 8))) (.slice (.int 8)) :=
  ⟨by decide +kernel, by decide +kernel, trivial⟩

/-- an array takes neither fewer nor more texts than it has elements -/
example : (mapT .zero [(b!"pair", [b!"1"])]).1 = .err .target ∧ (mapT .zero [(b!"pair", [b!"1", b!"2", b!"3"])]).1 = .err .target := by
  decide +kernel

/-- the rank of this type falls -/
example : ∀ n, ∀ fd ∈ mapEnv n, ∀ m, bare fd.ty = .struct m → (fun k => if k = 0 then 1 else 0) m < (fun k => if k = 0 then 1 else 0) n := by
  intro n fd hm m hb
  by_cases hn : n = 0
  · subst hn
    have : m = 1 := by
      simp only [mapEnv, if_pos, List.mem_cons, List.not_mem_nil, or_false] at hm
      rcases hm with rfl | rfl | rfl | rfl | rfl | rfl | rfl | rfl | rfl | rfl <;> first | cases hb; rfl | cases hb
    subst this; decide
  · simp only [mapEnv, if_neg hn, List.mem_cons, List.not_mem_nil, or_false] at hm
    rcases hm with rfl | rfl <;> cases hb

/-- a field inside of an embedded struct is reached -/
example : Reaches mapEnv ⟨[(b!"n", [b!"12"])], [], false⟩ b!"form" 0 .zero [9, 1] (fld b!"N" b!"n" (.ptr (.ptr (.int 64)))) .zero :=
  .inside (fd := { fld b!"U" [] (.struct 1) with anonymous := true }) (x := .zero) (m := 1) rfl rfl (Or.inl rfl) (by decide) rfl (Or.inl rfl)
    (.here rfl rfl (Or.inl rfl) (by decide))

example : given ⟨[(b!"n", [b!"12"])], [], false⟩ b!"form" (fld b!"N" b!"n" (.ptr (.ptr (.int 64)))) = some [b!"12"] ∧
    Own (fld b!"N" b!"n" (.ptr (.ptr (.int 64)))) ∧ Sized2 (bare (fld b!"N" b!"n" (.ptr (.ptr (.int 64)))).ty) :=
  ⟨by decide, ⟨rfl, by intro h; cases h⟩, by decide, by decide⟩

/-- a field that is passed by -/
example : Passes mapEnv ⟨[], [], false⟩ b!"form" 0 .zero [7] (fld b!"Skip" b!"-" .string) .zero := .here rfl rfl (Or.inr rfl)

/-- the names of a header are made canonical -/
example : given ⟨[(b!"X-Id", [b!"12"])], [], true⟩ b!"header" { fld b!"N" [] (.int 64) with tag := fun _ => b!"x-id" } = some [b!"12"] := by decide

/-- nothing is said about the fields of `Node` -/
example : ∀ fd ∈ nodeEnv 0, Silent ⟨[], [], false⟩ b!"form" fd := by
  intro fd hm
  simp only [nodeEnv, List.mem_cons, List.not_mem_nil, or_false] at hm
  rcases hm with rfl | rfl <;> exact ⟨by decide, by decide⟩

/-- an unexported embedded pointer to a struct: mapping into it panics -/
def hiddenEnv : TyEnv := fun n =>
  if n = 0 then [{ fld b!"u" [] (.ptr (.struct 1)) with exported := false, anonymous := true }] else [fld b!"A" b!"a" .string]

example : (bind2 bindO hiddenEnv 6 (fun _ => none) ⟨[(b!"a", [b!"x"])], [], false⟩ b!"form" 0 .zero).1 = .panic := by decide +kernel

/-- an unexported embedded number, `type n int8; type T struct { n }`: a number panics, anything else is an error; it keeps its value -/
def numEnv : TyEnv := fun _ => [{ fld b!"n" b!"n" (.int 8) with exported := false, anonymous := true }]

/-- a pointer to one -/
def numPtrEnv : TyEnv := fun _ => [{ fld b!"n" b!"n" (.ptr (.int 8)) with exported := false, anonymous := true }]

/-- what becomes of `n` -/
def mapNum (E : TyEnv) (v : Val) (s : Str) : BOut × Val := bind2 bindO E 6 (fun _ => none) ⟨[(b!"n", [s])], [], false⟩ b!"form" 0 v

example : (mapNum numEnv (.struct [.int 5]) b!"7").1 = .panic ∧ (mapNum numEnv (.struct [.int 5]) b!"x").1 = .err (.num .syntax) ∧
    (mapNum numEnv (.struct [.int 5]) b!"300").1 = .err (.num .range) ∧
    same (mapNum numEnv (.struct [.int 5]) b!"7").2 (.struct [.int 5]) = true ∧
    (mapNum numPtrEnv .zero b!"7").1 = .panic ∧ (mapNum numPtrEnv .zero b!"x").1 = .err (.num .syntax) ∧
    same (mapNum numPtrEnv (.struct [.ptr (.int 5)]) b!"7").2 (.struct [.ptr (.int 5)]) = true := by decide +kernel

end Demo

end Water
