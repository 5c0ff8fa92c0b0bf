import Verif.Props.Mapping
import Verif.Spec.Time
/-
C121: time fields.
-/
namespace Water
open Spec

variable {o : BOracle} {E : TyEnv} {tag : Str} {n : Nat} {v v' : Val} {p : List Nat} {fd : Field} {x : Val}

theorem unix_not_nano {m : Str} (h1 : ReadsSmall b!"unix" m) (h2 : ReadsSmall b!"unixnano" m) : False := by
  have e1 := (toLower_iff (w := b!"unix") (s := m) (by decide +kernel)).2 h1
  have e2 := (toLower_iff (w := b!"unixnano") (s := m) (by decide +kernel)).2 h2
  rw [e1] at e2
  exact absurd e2 (by decide +kernel)

theorem place_unique {l l' : Option Bool × Str} (h : Place fd l) (h' : Place fd l') : l = l' := by
  cases h <;> cases h' <;> first | rfl | contradiction

theorem timed_of {s : Str} {t : TimeV} (h : TimeOf o fd s t) : Timed o fd s t := by
  cases h with
  | unix h1 h2 h3 =>
    exact ⟨fun _ => ⟨_, h2, h3, by simp [instant]⟩, fun h => (unix_not_nano h1 h).elim, fun h => (h.1 h1).elim, fun h => (h.1 h1).elim⟩
  | @nano _ i h1 h2 h3 =>
    refine ⟨fun h => (unix_not_nano h h1).elim, fun _ => ⟨_, h2, h3, ?_⟩, fun h => (h.2 h1).elim, fun h => (h.2 h1).elim⟩
    have := Int.mul_tdiv_add_tmod i 1000000000
    simp only [instant]
    congr 1
    omega
  | none h1 h2 => exact ⟨fun h => (h1 h).elim, fun h => (h2 h).elim, fun _ _ => rfl, fun _ h => (h rfl).elim⟩
  | parsed h1 h2 h3 h4 h5 h6 =>
    exact ⟨fun h => (h1 h).elim, fun h => (h2 h).elim, fun _ h => (h3 h).elim, fun _ _ => ⟨_, _, h4, h5, h6, rfl⟩⟩

theorem signed_unique {s : Str} {i j : Int} (h : Signed s i) (h' : Signed s j) : i = j := by
  have e1 := (signed_iff.1 h).2
  have e2 := (signed_iff.1 h').2
  omega

theorem timeOf_unique {s : Str} {t t' : TimeV} (h : TimeOf o fd s t) (h' : TimeOf o fd s t') : t = t' := by
  cases h with
  | unix h1 h2 h3 =>
    cases h' with
    | unix g1 g2 g3 => rw [signed_unique h2 g2]
    | nano g1 => exact (unix_not_nano h1 g1).elim
    | none g1 => exact (g1 h1).elim
    | parsed g1 => exact (g1 h1).elim
  | nano h1 h2 h3 =>
    cases h' with
    | unix g1 g2 g3 => exact (unix_not_nano g1 h1).elim
    | nano g1 g2 => rw [signed_unique h2 g2]
    | none g1 g2 => exact (g2 h1).elim
    | parsed g1 g2 => exact (g2 h1).elim
  | none h1 h2 =>
    cases h' with
    | unix g1 => exact (h1 g1).elim
    | nano g1 => exact (h2 g1).elim
    | none => rfl
    | parsed _ _ g => exact (g rfl).elim
  | parsed h1 h2 h3 h4 h5 h6 =>
    cases h' with
    | unix g1 => exact (h1 g1).elim
    | nano g1 => exact (h2 g1).elim
    | none => exact (h3 rfl).elim
    | parsed _ _ _ g4 _ g6 =>
      have := place_unique h4 g4
      subst this
      rw [h6] at g6
      rw [Option.some.inj g6]

/-- **C121 (which texts).** A text can be stored in a time field exactly if it is readable. -/
theorem C121_readable (o : BOracle) (fd : Field) (s : Str) : (∃ t, TimeOf o fd s t) ↔ Readable o fd s := by
  constructor
  · rintro ⟨t, h⟩
    have ht := timed_of h
    refine ⟨?_, fun hw hs => ?_⟩
    · rintro (hc | hc)
      · obtain ⟨i, h1, h2, -⟩ := ht.seconds hc; exact ⟨i, h1, h2⟩
      · obtain ⟨i, h1, h2, -⟩ := ht.nanos hc; exact ⟨i, h1, h2⟩
    · obtain ⟨l, id, h1, h2, h3, -⟩ := ht.text hw hs
      exact ⟨h2, l, id, h1, h3⟩
  · rintro ⟨h1, h2⟩
    by_cases hu : CountsSeconds fd
    · obtain ⟨i, h3, h4⟩ := h1 (.inl hu); exact ⟨_, .unix hu h3 h4⟩
    · by_cases hn : CountsNanos fd
      · obtain ⟨i, h3, h4⟩ := h1 (.inr hn); exact ⟨_, .nano hn h3 h4⟩
      · by_cases hs : s = []
        · subst hs; exact ⟨_, .none hu hn⟩
        · obtain ⟨h3, l, id, h4, h5⟩ := h2 ⟨hu, hn⟩ hs
          exact ⟨_, .parsed hu hn hs h4 h3 h5⟩

section
variable {form : Form} {files : FormFiles} {check : Target → Option Nat}

theorem conv_time {s : Str} {v w : Val} (h : Conv o fd .time s v w) : ∃ t, TimeOf o fd s t ∧ w = .time t := by
  cases h with
  | time h => exact ⟨_, h, rfl⟩
  | json h => simp at h

theorem bind_time {f : Nat} {s : Str} {ss : List Str}
    (h : bindForm o E f check (.struct n v) form files tag = (.ok, .struct n v')) (hv : ∀ w, v ≠ .ptr w)
    (ho : Occurs E (Quiet form files tag) n v p fd x) (hx : fd.exported = true) (ha : fd.anonymous = false) (hty : fd.ty = .time)
    (hin : input form tag fd = some (s :: ss)) : ∃ t, TimeOf o fd s t ∧ get v' p = .time t := by
  have hs := bound h hv ho ⟨hx, ha, by rw [hty]; trivial⟩ (by rw [hty]; trivial)
  rw [hty] at hs
  generalize get v' p = y at hs ⊢
  cases hs with
  | quiet h => have := h.1; rw [hin] at this; cases this
  | value h1 _ h2 =>
    rw [hin] at h1
    cases h1
    cases h2 with
    | value _ h2 => exact conv_time h2

/-- **C121 (Bind).** After a successful `Bind`, a time field at any depth holds the instant that its first text stands for. -/
theorem C121_bind {f : Nat} {s : Str} {ss : List Str}
    (h : bindForm o E f check (.struct n v) form files tag = (.ok, .struct n v')) (hv : ∀ w, v ≠ .ptr w)
    (ho : Occurs E (Quiet form files tag) n v p fd x) (hx : fd.exported = true) (ha : fd.anonymous = false) (hty : fd.ty = .time)
    (hin : input form tag fd = some (s :: ss)) : ∃ t, Timed o fd s t ∧ get v' p = .time t := by
  obtain ⟨t, h1, h2⟩ := bind_time h hv ho hx ha hty hin
  exact ⟨t, timed_of h1, h2⟩

theorem bind_time_pointer {f : Nat} {s : Str} {ss : List Str}
    (h : bindForm o E f check (.struct n v) form files tag = (.ok, .struct n v')) (hv : ∀ w, v ≠ .ptr w)
    (ho : Occurs E (Quiet form files tag) n v p fd x) (hx : fd.exported = true) (ha : fd.anonymous = false) (hty : fd.ty = .ptr .time)
    (hin : input form tag fd = some (s :: ss)) : ∃ t, TimeOf o fd s t ∧ get v' p = .ptr (.time t) := by
  obtain ⟨h1, h2, _⟩ := bindForm_struct h
  have hok := h2 rfl
  by_cases hnil : ∃ y, x = .ptr y
  · obtain ⟨y, rfl⟩ := hnil
    have hm : ∀ walk, mapField o form files tag walk fd (.ptr y) = tryToSetValue2 o form files tag fd (.ptr .time) (.ptr y) := by
      intro walk
      unfold mapField
      rw [hx, ha]
      have ha' : allocates fd (.ptr y) = none := by unfold allocates; rw [hty]
      have hd : descends fd (.ptr .time) = false := by unfold descends; rw [ha]; rfl
      simp [ha', hty, hd]
    rcases fate (o := o) (form := form) (files := files) (tag := tag) hm f hv ho with g | g | g
    · exact absurd hok g.1
    · exact absurd hok g.1
    · have hset : Sets o form files tag fd (.ptr .time) (.ptr y) (get v' p) := by
        rw [← trySet_spec hx (by trivial : Sized (.ptr .time)), h1, g.2 (fun _ h => h)]
        exact Prod.ext g.1 rfl
      generalize get v' p = z at hset ⊢
      cases hset with
      | quiet h => have := h.1; rw [hin] at this; cases this
      | value h1 _ h2 =>
        rw [hin] at h1
        cases h1
        cases h2 with
        | value h => exact absurd rfl (h _)
        | ptr h2 => obtain ⟨t, h3, rfl⟩ := conv_time h2; exact ⟨t, h3, rfl⟩
        | alloc h => exact absurd rfl (h _)
  · have hm : ∀ walk, mapField o form files tag walk fd x =
        ((tryToSetValue2 o form files tag fd .time .zero).1, .ptr (tryToSetValue2 o form files tag fd .time .zero).2) := by
      intro walk
      unfold mapField
      rw [hx, ha]
      have ha' : allocates fd x = some .time := by
        unfold allocates
        rw [hty]
        cases x with
        | ptr y => exact absurd ⟨y, rfl⟩ hnil
        | _ => simp [Ty.isStruct]
      have hd : descends fd .time = false := by unfold descends; rw [ha]; rfl
      simp [ha', hd]
    rcases fate (o := o) (form := form) (files := files) (tag := tag) hm f hv ho with g | g | g
    · exact absurd hok g.1
    · exact absurd hok g.1
    · have hset : Sets o form files tag fd .time .zero (tryToSetValue2 o form files tag fd .time .zero).2 := by
        rw [← trySet_spec hx (by trivial : Sized .time)]
        exact Prod.ext g.1 rfl
      rw [h1, g.2 (fun _ h => h)]
      simp only []
      generalize (tryToSetValue2 o form files tag fd .time .zero).2 = z at hset ⊢
      cases hset with
      | quiet h => have := h.1; rw [hin] at this; cases this
      | value h1 _ h2 =>
        rw [hin] at h1
        cases h1
        cases h2 with
        | value _ h2 => obtain ⟨t, h3, rfl⟩ := conv_time h2; exact ⟨t, h3, rfl⟩

/-- **C121 (pointers, Bind).** The same for a pointer to a time, nil or not. -/
theorem C121_pointer {f : Nat} {s : Str} {ss : List Str}
    (h : bindForm o E f check (.struct n v) form files tag = (.ok, .struct n v')) (hv : ∀ w, v ≠ .ptr w)
    (ho : Occurs E (Quiet form files tag) n v p fd x) (hx : fd.exported = true) (ha : fd.anonymous = false) (hty : fd.ty = .ptr .time)
    (hin : input form tag fd = some (s :: ss)) : ∃ t, Timed o fd s t ∧ get v' p = .ptr (.time t) := by
  obtain ⟨t, h1, h2⟩ := bind_time_pointer h hv ho hx ha hty hin
  exact ⟨t, timed_of h1, h2⟩

/-- **C121 (slices, Bind).** A slice of times gets one instant for each text, in order. -/
theorem C121_slice {f : Nat} {ss : List Str}
    (h : bindForm o E f check (.struct n v) form files tag = (.ok, .struct n v')) (hv : ∀ w, v ≠ .ptr w)
    (ho : Occurs E (Quiet form files tag) n v p fd x) (hx : fd.exported = true) (ha : fd.anonymous = false) (hty : fd.ty = .slice .time)
    (hin : input form tag fd = some ss) (hne : ss ≠ []) :
    ∃ ws, get v' p = .slice ws ∧ ws.length = ss.length ∧
      ∀ (i : Nat) (s : Str) (w : Val), ss[i]? = some s → ws[i]? = some w → ∃ t, Timed o fd s t ∧ w = .time t := by
  have hs := bound h hv ho ⟨hx, ha, by rw [hty]; trivial⟩ (by rw [hty]; trivial)
  rw [hty] at hs
  generalize get v' p = y at hs ⊢
  cases hs with
  | quiet h => have := h.1; rw [hin] at this; cases this
  | value h1 h2 => exact absurd rfl (h2 _)
  | slice h1 h2 h3 h4 =>
    rw [hin] at h1
    cases h1
    refine ⟨_, rfl, h3, fun i s w g1 g2 => ?_⟩
    cases h4 i s w g1 g2 with
    | value _ h2 => obtain ⟨t, h5, rfl⟩ := conv_time h2; exact ⟨t, timed_of h5, rfl⟩

end

theorem bind2_time {src : Source} {check2 : Val → Option Nat} {fuel : Nat} {ss : List Str}
    (h : bind2 o E fuel check2 src tag n v = (.ok, v')) (hv : HasTy E (.struct n) v)
    (hr : Reaches E src tag n v p fd x) (how : Own fd) (ht : bare fd.ty = .time) (hg : given src tag fd = some ss) :
    ∃ t, TimeOf o fd (ss.headD []) t ∧ under (reach v' p) = .time t := by
  obtain ⟨w, h1, h2⟩ := C72_ok h hv hr how (given_loud hg) (by rw [ht]; trivial)
  rw [ht] at h1
  cases takes_texts hg h1 with
  | one _ _ h =>
    cases h with
    | time h => exact ⟨_, h, h2⟩
    | json h => simp at h

/-- **C121 (Bind2).** The same for `Bind2`, behind any pointers. -/
theorem C121_bind2 {src : Source} {check2 : Val → Option Nat} {fuel : Nat} {ss : List Str}
    (h : bind2 o E fuel check2 src tag n v = (.ok, v')) (hv : HasTy E (.struct n) v)
    (hr : Reaches E src tag n v p fd x) (how : Own fd) (ht : bare fd.ty = .time) (hg : given src tag fd = some ss) :
    ∃ t, Timed o fd (ss.headD []) t ∧ under (reach v' p) = .time t := by
  obtain ⟨t, h1, h2⟩ := bind2_time h hv hr how ht hg
  exact ⟨t, timed_of h1, h2⟩

/-- **C121 (agreement).** If `Bind` and `Bind2` succeed, they store the same time for the same text. -/
theorem C121_agree_partial {form : Form} {files : FormFiles} {check : Target → Option Nat} {src : Source} {check2 : Val → Option Nat}
    {f fuel : Nat} {s : Str} {ss : List Str} {v v' u u' : Val} {m : Nat} {E' : TyEnv} {q : List Nat} {tag' : Str} {x' : Val}
    (h : bindForm o E f check (.struct n v) form files tag = (.ok, .struct n v')) (hv : ∀ w, v ≠ .ptr w)
    (ho : Occurs E (Quiet form files tag) n v p fd x) (hx : fd.exported = true) (ha : fd.anonymous = false)
    (hty : fd.ty = .time ∨ fd.ty = .ptr .time) (hin : input form tag fd = some (s :: ss))
    (h2 : bind2 o E' fuel check2 src tag' m u = (.ok, u')) (hu : HasTy E' (.struct m) u)
    (hr : Reaches E' src tag' m u q fd x') (hg : given src tag' fd = some (s :: ss)) :
    deref (get v' p) = under (reach u' q) := by
  have hb : bare fd.ty = .time := by rcases hty with h | h <;> rw [h] <;> rfl
  obtain ⟨t, g1, g2⟩ := bind2_time h2 hu hr ⟨hx, fun h => by rw [ha] at h; cases h⟩ hb hg
  rw [g2]
  rcases hty with hty | hty
  · obtain ⟨t', k1, k2⟩ := bind_time h hv ho hx ha hty hin
    rw [k2, timeOf_unique k1 g1]
    rfl
  · obtain ⟨t', k1, k2⟩ := bind_time_pointer h hv ho hx ha hty hin
    rw [k2, timeOf_unique k1 g1]
    rfl

/-- **C121 (round trip).** Every number of nanoseconds of 64 bits, written in decimals, is read back as that instant; and every number of
seconds. -/
theorem C121_sent (o : BOracle) {fd : Field} {i : Int} (hi : FitsInt 64 i) :
    (CountsNanos fd → ∃ t, TimeOf o fd (itoa i) t ∧ instant t = some i) ∧
    (CountsSeconds fd → ∃ t, TimeOf o fd (itoa i) t ∧ instant t = some (i * 1000000000)) := by
  constructor
  · intro hc
    refine ⟨_, .nano hc (itoa_signed i) hi, ?_⟩
    obtain ⟨j, h1, -, h3⟩ := (timed_of (.nano hc (itoa_signed i) hi : TimeOf o fd _ _)).nanos hc
    rw [h3, signed_unique h1 (itoa_signed i)]
  · intro hc
    exact ⟨_, .unix hc (itoa_signed i) hi, by simp [instant]⟩

/-! ### examples -/

namespace Demo

/-- the field `At` of the next type -/
def atField : Field :=
  { fld b!"At" b!"at" .time with tag := fun k => if k = b!"form" then b!"at" else if k = b!"time_format" then b!"unixNano" else [] }

/-- `type T struct { At time.Time; Due *time.Time; Log []time.Time }`; `At` is counted in nanoseconds, `Due` in seconds -/
def timeEnv : TyEnv := fun _ =>
  [atField,
   { fld b!"Due" b!"due" (.ptr .time) with tag := fun k => if k = b!"form" then b!"due" else if k = b!"time_format" then b!"unix" else [] },
   fld b!"Log" b!"log" (.slice .time)]

/-- one and a half seconds before 1970, and ten seconds after -/
example : same (bindForm bindO timeEnv 3 (fun _ => none) (.struct 0 .zero) [(b!"at", [b!"-1500000000"]), (b!"due", [b!"10"])] [] b!"form" |>.2 |> fun
      | .struct _ v => v
      | _ => .zero)
    (.struct [.time (.unix (-1) (-500000000)), .ptr (.time (.unix 10 0)), .zero]) = true ∧
    instant (.unix (-1) (-500000000)) = some (-1500000000) ∧
    same (bind2 bindO timeEnv 4 (fun _ => none) ⟨[(b!"at", [b!"-1500000000"]), (b!"due", [b!"10"])], [], false⟩ b!"form" 0 .zero).2
      (.struct [.time (.unix (-1) (-500000000)), .ptr (.time (.unix 10 0)), .zero]) = true := by decide +kernel

/-- the hypotheses of `C121_bind` are met, and the field counts nanoseconds -/
example : CountsNanos atField ∧ ∃ (v' : Val) (t : TimeV), Timed bindO atField b!"-1500000000" t ∧ get v' [0] = .time t :=
  ⟨(toLower_iff (by decide +kernel)).1 (by decide +kernel), _,
    C121_bind (E := timeEnv) (f := 3) (n := 0) (v := .zero) (tag := b!"form") (check := fun _ => none) (files := [])
      (form := [(b!"at", [b!"-1500000000"])]) (fd := atField) (x := .zero) (ss := []) rfl (by simp) (.here rfl rfl) rfl rfl rfl
      (by decide +kernel)⟩

/-- no number -/
example : (bindForm bindO timeEnv 3 (fun _ => none) (.struct 0 .zero) [(b!"at", [b!""])] [] b!"form").1 = .err (.num .syntax) := by
  decide +kernel

end Demo

/-- **C121 refuted for nil pointers.** Nothing is said about `Due`; `Bind2` leaves the pointer nil, `Bind` makes it point to the zero
time. -/
theorem C121_refuted : ∃ v' u',
    bindForm Demo.bindO Demo.timeEnv 3 (fun _ => none) (.struct 0 .zero) [] [] b!"form" = (.ok, .struct 0 v') ∧
    bind2 Demo.bindO Demo.timeEnv 4 (fun _ => none) ⟨[], [], false⟩ b!"form" 0 .zero = (.ok, u') ∧
    get v' [1] = .ptr .zero ∧ reach u' [1] = .zero := by
  exact ⟨_, _, rfl, rfl, rfl, rfl⟩

end Water
