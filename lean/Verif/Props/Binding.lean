import Verif.Lemmas.BindingDepth
/-
C57 to C62, C64: choosing a decoder, and binding a form to a struct.
-/
namespace Water
open Spec

namespace Demo

/-- a field with a `form` tag -/
def fld (name form : Str) (ty : Ty) : Field :=
  { name := name, exported := true, anonymous := false, tag := fun k => if k = b!"form" then form else [], ty := ty }

/-- `type T struct { ID int8; Big int64; On bool; In U; Tags []string; low int; Sub *U }`, with
`type U struct { A string; N *int }` -/
def bindEnv : TyEnv := fun n =>
  if n = 0 then
    [fld b!"ID" b!"id" (.int 8), fld b!"Big" b!"big,default=7" (.int 64), fld b!"On" b!"on" .bool, fld b!"In" b!"in" (.struct 1),
     fld b!"Tags" b!"tags" (.slice .string), { fld b!"low" b!"low" (.int 64) with exported := false }, fld b!"Sub" [] (.ptr (.struct 1))]
  else [fld b!"A" b!"a" .string, fld b!"N" b!"n" (.ptr (.int 64))]

/-- `type Node struct { V int; Next *Node }` -/
def nodeEnv : TyEnv := fun _ => [fld b!"V" b!"v" (.int 64), fld b!"Next" [] (.ptr (.struct 0))]

/-- `json.Unmarshal` of two texts into a struct whose first field is a string `A` -/
def unmarshal (_ : Ty) (s : Str) (v : Val) : Option Nat × Val :=
  if s = b!"{}" then (none, v)
  else if s = b!"{\"A\":\"new\"}" then
    match v with
    | .struct (_ :: vs) => (none, .struct (.string b!"new" :: vs))
    | _ => (none, .struct [.string b!"new", .zero])
  else (some 0, v)

/-- floats, times and places are all fine; there are two JSON texts: `{}`, which changes nothing, and one that sets the first field -/
def bindO : BOracle :=
  { float := fun _ _ => some 0, duration := fun s => if s = b!"1s" then some 1000000000 else none, json := unmarshal, location := fun _ => true,
    parseTime := fun _ _ _ => some 0 }

mutual
/-- equality of values, as a program -/
def same : Val → Val → Bool
  | .zero, .zero => true
  | .int i, .int j => i == j
  | .uint i, .uint j => i == j
  | .bool a, .bool b => a == b
  | .string a, .string b => a == b
  | .time a, .time b => a == b
  | .file a, .file b => a == b
  | .opaque a, .opaque b => a == b
  | .ptr a, .ptr b => same a b
  | .struct a, .struct b => sames a b
  | .slice a, .slice b => sames a b
  | _, _ => false
/-- equality of lists of values -/
def sames : List Val → List Val → Bool
  | [], [] => true
  | a :: as, b :: bs => same a b && sames as bs
  | _, _ => false
end

/-- bind into `T` -/
def bindT (v : Val) (form : Form) : BOut × Val :=
  match bindForm bindO bindEnv 5 (fun _ => none) (.struct 0 v) form [] b!"form" with
  | (out, .struct _ v) => (out, v)
  | (out, _) => (out, .zero)

end Demo

/-! ### C57 -/

/-- C57: which decoder is chosen, for every method and content type: four disjoint cases. -/
theorem C57_selection (method ct : Str) :
    (newBindinger method ct = .multipart ↔
      (method = b!"POST" ∨ method = b!"PUT" ∨ method = b!"PATCH") ∧ ct = b!"multipart/form-data") ∧
    (newBindinger method ct = .json ↔ method ≠ b!"GET" ∧ ct = b!"application/json") ∧
    (newBindinger method ct = .xml ↔ method ≠ b!"GET" ∧ (ct = b!"application/xml" ∨ ct = b!"text/xml")) ∧
    (newBindinger method ct = .form ↔ method = b!"GET" ∨
      (ct ≠ b!"application/json" ∧ ct ≠ b!"application/xml" ∧ ct ≠ b!"text/xml" ∧
        (ct = b!"multipart/form-data" → method ≠ b!"POST" ∧ method ≠ b!"PUT" ∧ method ≠ b!"PATCH"))) := by
  unfold newBindinger mGET mPOST mPUT mPATCH
  by_cases hg : method = b!"GET"
  · subst hg
    simp
  · by_cases hm : (method = b!"POST" ∨ method = b!"PUT" ∨ method = b!"PATCH") ∧ ct = b!"multipart/form-data"
    · obtain ⟨h1, rfl⟩ := hm
      simp only [hg, h1, if_false, and_self, if_true]
      simp
      intro h2 h3
      rcases h1 with h1 | h1 | h1
      · exact absurd h1 h2
      · exact absurd h1 h3
      · exact h1
    · simp only [hg, hm, if_false]
      by_cases h1 : ct = b!"application/json"
      · subst h1; simp [hg]
      · by_cases h2 : ct = b!"application/xml" ∨ ct = b!"text/xml"
        · have h2' : ct = b!"application/xml" ∨ ct = b!"text/xml" := h2
          simp only [h1, h2, if_false, if_true]
          refine ⟨by simp, by simp, by simp [hg], ?_⟩
          constructor
          · intro h; cases h
          · rintro (h | h)
            · exact absurd h (by simp)
            · rcases h2' with h2 | h2
              · exact absurd h2 h.2.1
              · exact absurd h2 h.2.2.1
        · simp only [not_or] at h2
          simp only [h1, h2, if_false, or_self]
          have hf : (if ct = b!"application/x-www-form-urlencoded" then Decoder.form else Decoder.form) = .form := by split <;> rfl
          rw [hf]
          refine ⟨by simp, by simp, by simp, ?_⟩
          simp only [not_and] at hm
          constructor
          · intro _
            right
            refine ⟨h1, h2.1, h2.2, ?_⟩
            intro hc
            refine ⟨fun h => ?_, fun h => ?_, fun h => ?_⟩
            · exact hm (Or.inl h) hc
            · exact hm (Or.inr (Or.inl h)) hc
            · exact hm (Or.inr (Or.inr h)) hc
          · intro _; rfl

/-- C57: `Bind` uses the decoder chosen from the method and the media type of the request (`C53_media` says what that is);
for JSON and XML it does not touch the request before decoding, so that the body is still there. -/
theorem C57_bind {ω : Type} (o : Oracle) (req : Req) (s s' : St ω) (r : Except PVal Decoder) (h : bindPlan o req s = (r, s')) :
    (∀ d, r = .ok d → d = newBindinger req.method (contentTypeOf req.header)) ∧
    ((newBindinger req.method (contentTypeOf req.header) = .json ∨ newBindinger req.method (contentTypeOf req.header) = .xml) →
      s' = s ∧ r = .ok (newBindinger req.method (contentTypeOf req.header))) := by
  unfold bindPlan at h
  simp only at h
  generalize newBindinger req.method (contentTypeOf req.header) = b at h ⊢
  by_cases hb : b ≠ .json ∧ b ≠ .xml
  · rw [if_pos hb] at h
    refine ⟨?_, fun hc => by rcases hc with hc | hc <;> simp [hc] at hb⟩
    intro d hd
    subst hd
    split at h
    · cases h
    · split at h
      · cases h
      · cases h; rfl
  · rw [if_neg hb] at h
    cases h
    exact ⟨fun d hd => by cases hd; rfl, fun _ => ⟨rfl, rfl⟩⟩

/-! ### from `Bind` to the walk -/

section
variable {o : BOracle} {E : TyEnv} {form : Form} {files : FormFiles} {tag : Str} {check : Target → Option Nat}

/-- what `Bind` does to a struct -/
theorem bindForm_struct {f n : Nat} {v v' : Val} {out : BOut}
    (h : bindForm o E f check (.struct n v) form files tag = (out, .struct n v')) :
    v' = (mapForm o E form files tag f (.struct n) v).2 ∧ (out = .ok → (mapForm o E form files tag f (.struct n) v).1 = .ok) ∧
    ((mapForm o E form files tag f (.struct n) v).1 ≠ .ok → out = (mapForm o E form files tag f (.struct n) v).1) := by
  unfold bindForm MapForm at h
  simp only at h
  rcases hr : mapForm o E form files tag f (.struct n) v with ⟨o1, w⟩
  rw [hr] at h
  cases o1 with
  | ok =>
    simp only at h
    split at h
    · cases h; exact ⟨rfl, by simp, by simp⟩
    · cases h; exact ⟨rfl, by simp, by simp⟩
  | _ => cases h; exact ⟨rfl, by simp, by simp⟩

/-- A field that is bound itself, after a successful `Bind`: it has been set as the specification says. -/
theorem bound {f n : Nat} {v v' : Val} {p : List Nat} {fd : Field} {x : Val}
    (h : bindForm o E f check (.struct n v) form files tag = (.ok, .struct n v')) (hv : ∀ w, v ≠ .ptr w)
    (ho : Occurs E (Quiet form files tag) n v p fd x) (hp : Scalar fd) (hz : Sized fd.ty) :
    Sets o form files tag fd fd.ty x (get v' p) := by
  obtain ⟨h1, h2, _⟩ := bindForm_struct h
  have hok := h2 rfl
  rcases fate (o := o) (form := form) (files := files) (tag := tag) (fun _ => mapField_plain hp) f hv ho with h | h | h
  · exact absurd hok h.1
  · exact absurd hok h.1
  · rw [← trySet_spec hp.1 hz, h1, h.2 (fun _ h => h)]
    exact Prod.ext h.1 rfl

/-! ### C58 -/

/-- C58, partial: after a successful `Bind`, an integer field (at any depth) for which text was submitted holds a number `j`
that agrees with the submitted one in its low bits: exactly the submitted number if that fits the field's type, always if the
type has 64 bits. A text that is no number, or one that does not fit 64 bits, is reported. Missing: a number that fits 64 bits
but not the field is not reported (`C58_refuted`). -/
theorem C58_integer_partial {f n bits : Nat} {v v' : Val} {p : List Nat} {fd : Field} {x : Val} {s : Str} {ss : List Str}
    (hv : ∀ w, v ≠ .ptr w) (ho : Occurs E (Quiet form files tag) n v p fd x) (hp : Scalar fd) (hb : 1 ≤ bits)
    (hty : fd.ty = .int bits) (hin : input form tag fd = some (s :: ss))
    (h : bindForm o E f check (.struct n v) form files tag = (.ok, .struct n v')) :
    ∃ i j : Int, NumberOf s i ∧ FitsInt 64 i ∧ get v' p = .int j ∧ FitsInt bits j ∧ (2 ^ bits : Int) ∣ i - j ∧
      (FitsInt bits i → j = i) ∧ (bits = 64 → j = i) := by
  have hs := bound h hv ho hp (by rw [hty]; exact hb)
  rw [hty] at hs
  generalize get v' p = y at hs
  cases hs with
  | quiet h => have := h.1; rw [hin] at this; cases this
  | value h1 _ h2 =>
    rw [hin] at h1
    cases h1
    cases h2 with
    | value _ h2 =>
      cases h2 with
      | int h3 h4 h5 h6 =>
        refine ⟨_, _, h3, h4, rfl, h5, h6, ?_, ?_⟩
        · intro hf
          exact fits_unique hb h5 hf h6 (by simp)
        · rintro rfl
          exact fits_unique hb h5 h4 h6 (by simp)
      | json h => simp at h

/-- C58, partial, for a pointer to an integer. -/
theorem C58_pointer_partial {f n bits : Nat} {v v' : Val} {p : List Nat} {fd : Field} {x : Val} {s : Str} {ss : List Str}
    (hv : ∀ w, v ≠ .ptr w) (ho : Occurs E (Quiet form files tag) n v p fd x) (hp : Scalar fd) (hb : 1 ≤ bits)
    (hty : fd.ty = .ptr (.int bits)) (hin : input form tag fd = some (s :: ss))
    (h : bindForm o E f check (.struct n v) form files tag = (.ok, .struct n v')) :
    ∃ i j : Int, NumberOf s i ∧ FitsInt 64 i ∧ get v' p = .ptr (.int j) ∧ FitsInt bits j ∧ (2 ^ bits : Int) ∣ i - j ∧
      (FitsInt bits i → j = i) ∧ (bits = 64 → j = i) := by
  have hs := bound h hv ho hp (by rw [hty]; exact hb)
  rw [hty] at hs
  generalize get v' p = y at hs
  have key : ∀ v w, Conv o fd (.int bits) s v w → ∃ i j : Int, NumberOf s i ∧ FitsInt 64 i ∧ w = .int j ∧ FitsInt bits j ∧
      (2 ^ bits : Int) ∣ i - j ∧ (FitsInt bits i → j = i) ∧ (bits = 64 → j = i) := by
    intro v w h2
    cases h2 with
    | int h3 h4 h5 h6 =>
      refine ⟨_, _, h3, h4, rfl, h5, h6, ?_, ?_⟩
      · intro hf
        exact fits_unique hb h5 hf h6 (by simp)
      · rintro rfl
        exact fits_unique hb h5 h4 h6 (by simp)
    | json h => simp at h
  cases hs with
  | quiet h => have := h.1; rw [hin] at this; cases this
  | value h1 _ h2 =>
    rw [hin] at h1
    cases h1
    cases h2 with
    | value h => exact absurd rfl (h _)
    | ptr h2 => obtain ⟨i, j, h3, h4, rfl, h5⟩ := key _ _ h2; exact ⟨i, j, h3, h4, rfl, h5⟩
    | alloc _ h2 => obtain ⟨i, j, h3, h4, rfl, h5⟩ := key _ _ h2; exact ⟨i, j, h3, h4, rfl, h5⟩

/-- C58, partial, for unsigned integers. -/
theorem C58_unsigned_partial {f n bits : Nat} {v v' : Val} {p : List Nat} {fd : Field} {x : Val} {s : Str} {ss : List Str}
    (hv : ∀ w, v ≠ .ptr w) (ho : Occurs E (Quiet form files tag) n v p fd x) (hp : Scalar fd)
    (hty : fd.ty = .uint bits) (hin : input form tag fd = some (s :: ss))
    (h : bindForm o E f check (.struct n v) form files tag = (.ok, .struct n v')) :
    ∃ i, NaturalOf s i ∧ i < 2 ^ 64 ∧ get v' p = .uint (i % 2 ^ bits) ∧ (i < 2 ^ bits → get v' p = .uint i) := by
  have hs := bound h hv ho hp (by rw [hty]; trivial)
  rw [hty] at hs
  generalize get v' p = y at hs
  cases hs with
  | quiet h => have := h.1; rw [hin] at this; cases this
  | value h1 _ h2 =>
    rw [hin] at h1
    cases h1
    cases h2 with
    | value _ h2 =>
      cases h2 with
      | uint h3 h4 => exact ⟨_, h3, h4, rfl, fun h => by rw [Nat.mod_eq_of_lt h]⟩
      | json h => simp at h

/-- C58 does not hold: `300` submitted for a field of type `int8` succeeds and stores 44. -/
theorem C58_refuted : ∃ v', Demo.bindT .zero [(b!"id", [b!"300"])] = (.ok, v') ∧ (get v' [0]) = .int 44 := by
  exact ⟨_, rfl, by rfl⟩

/-! ### C59 -/

/-- C59, partial: after a successful `Bind`, a boolean field for which text was submitted is true exactly if the submitted
boolean was true or the field was true before; so it is the submitted boolean if the field was false, or if true was
submitted. Missing: `false` does not replace `true` (`C59_refuted`). -/
theorem C59_boolean_partial {f n : Nat} {v v' : Val} {p : List Nat} {fd : Field} {x : Val} {s : Str} {ss : List Str}
    (hv : ∀ w, v ≠ .ptr w) (ho : Occurs E (Quiet form files tag) n v p fd x) (hp : Scalar fd)
    (hty : fd.ty = .bool) (hin : input form tag fd = some (s :: ss))
    (h : bindForm o E f check (.struct n v) form files tag = (.ok, .struct n v')) :
    ∃ b, BoolOf s b ∧ truth (get v' p) = (b || truth x) ∧ (truth x = false → truth (get v' p) = b) := by
  have hs := bound h hv ho hp (by rw [hty]; trivial)
  rw [hty] at hs
  generalize get v' p = y at hs
  cases hs with
  | quiet h => have := h.1; rw [hin] at this; cases this
  | value h1 _ h2 =>
    rw [hin] at h1
    cases h1
    cases h2 with
    | value _ h2 =>
      cases h2 with
      | yes h => exact ⟨true, h, by simp [truth], by simp [truth]⟩
      | no h => exact ⟨false, h, by simp, by simp⟩
      | json h => simp at h

/-- C59 does not hold: `on=false` leaves a field that is true. -/
theorem C59_refuted : ∃ v', Demo.bindT (.struct [.zero, .zero, .bool true, .zero, .zero, .zero, .zero]) [(b!"on", [b!"false"])] = (.ok, v') ∧
    truth (get v' [2]) = true := by
  exact ⟨_, rfl, by rfl⟩

/-! ### C60 -/

/-- C60, partial: whatever the outcome, a field that is bound itself and of which neither form nor files nor a default say
anything keeps its value, and so does an unexported field; provided the same holds of the fields around it (`Occurs .. Quiet`).
Missing: a field around it that is itself named in the form is filled from JSON (`C60_refuted`). -/
theorem C60_frame_partial {f n : Nat} {v v' : Val} {out : BOut} {p : List Nat} {fd : Field} {x : Val}
    (hv : ∀ w, v ≠ .ptr w) (ho : Occurs E (Quiet form files tag) n v p fd x) (hp : Scalar fd) (hq : Quiet form files tag fd)
    (h : bindForm o E f check (.struct n v) form files tag = (out, .struct n v')) : get v' p = x := by
  obtain ⟨h1, _, _⟩ := bindForm_struct h
  subst h1
  rcases fate (o := o) (form := form) (files := files) (tag := tag) (fun _ => mapField_plain hp) f hv ho with h | h | h
  · exact h.2
  · rw [h.2.2, trySet_quiet hq]
  · rw [h.2 (fun _ h => h), trySet_quiet hq]

/-- C60, partial, for fields that are neither exported nor embedded. -/
theorem C60_hidden_partial {f n : Nat} {v v' : Val} {out : BOut} {p : List Nat} {fd : Field} {x : Val}
    (hv : ∀ w, v ≠ .ptr w) (ho : Occurs E (Quiet form files tag) n v p fd x) (hx : fd.exported = false) (ha : fd.anonymous = false)
    (h : bindForm o E f check (.struct n v) form files tag = (out, .struct n v')) : get v' p = x := by
  obtain ⟨h1, _, _⟩ := bindForm_struct h
  subst h1
  have hvis : ¬ Visible fd := by simp [Visible, hx, ha]
  rcases fate (o := o) (form := form) (files := files) (tag := tag) (fun _ => mapField_hidden hvis) f hv ho with h | h | h
  · exact h.2
  · exact h.2.2
  · exact h.2 (fun _ h => h)

/-- C60: a default is used exactly if the name is absent: after a successful `Bind`, a string field holds the first value
submitted, or else the default, or else what it held before. -/
theorem C60_default {f n : Nat} {v v' : Val} {p : List Nat} {fd : Field} {x : Val} {name : Str}
    (hv : ∀ w, v ≠ .ptr w) (ho : Occurs E (Quiet form files tag) n v p fd x) (hp : Scalar fd) (hty : fd.ty = .string)
    (hn : bindName fd tag = some name)
    (h : bindForm o E f check (.struct n v) form files tag = (.ok, .struct n v')) :
    (∀ s ss, form.at name = some (s :: ss) → get v' p = .string s) ∧
    (∀ d, form.at name = none → bindDefault fd tag = some d → get v' p = .string d) ∧
    (form.at name = none → bindDefault fd tag = none → files.at name = none → get v' p = x) := by
  have hs := bound h hv ho hp (by rw [hty]; trivial)
  rw [hty] at hs
  have key : ∀ s ss, input form tag fd = some (s :: ss) → get v' p = .string s := by
    intro s ss hin
    generalize get v' p = y at hs
    cases hs with
    | quiet h => have := h.1; rw [hin] at this; cases this
    | value h1 _ h2 =>
      rw [hin] at h1
      cases h1
      cases h2 with
      | value _ h2 =>
        cases h2 with
        | string => rfl
        | json h => simp at h
  refine ⟨?_, ?_, ?_⟩
  · intro s ss hf
    exact key s ss (by simp [input, hn, hf])
  · intro d hf hd
    exact key d [] (by simp [input, hn, hf, hd])
  · intro hf hd hfi
    refine C60_frame_partial hv ho hp ⟨by simp [input, hn, hf, hd], ?_⟩ h
    intro m hm
    rw [hn] at hm
    cases hm
    exact hfi

/-- C60 does not hold for fields of a struct that is itself named: `in={"A":"new"}` replaces the field `A`, although no entry of the
form has its name `a`. -/
theorem C60_refuted : ∃ v', Demo.bindT (.struct [.zero, .zero, .zero, .struct [.string b!"old", .zero], .zero, .zero, .zero])
    [(b!"in", [b!"{\"A\":\"new\"}"])] = (.ok, v') ∧ get v' [3, 0] = .string b!"new" := by
  exact ⟨_, rfl, rfl⟩

/-! ### C61 -/

/-- C61: after a successful `Bind` every field that was looked at, at any depth, could be set. -/
theorem C61_ok {f n : Nat} {v v' : Val} {p : List Nat} {fd : Field} {x : Val} (hv : ∀ w, v ≠ .ptr w)
    (ho : Occurs E (fun _ => True) n v p fd x) (hx : fd.exported = true) (hz : Sized fd.ty)
    (h : bindForm o E f check (.struct n v) form files tag = (.ok, .struct n v')) :
    (∃ t z w, Sets o form files tag fd t z w ∧ (t = fd.ty ∨ fd.ty = .ptr t)) ∧
    (Scalar fd → ∃ w, Sets o form files tag fd fd.ty x w) := by
  obtain ⟨_, h2, _⟩ := bindForm_struct h
  have hok := h2 rfl
  refine ⟨?_, ?_⟩
  · obtain ⟨t, z, w, h1, h2⟩ := all_set f hok ho (Or.inl hx)
    refine ⟨t, z, w, (trySet_spec hx ?_).1 h1, h2⟩
    rcases h2 with h2 | h2
    · rw [h2]; exact hz
    · rw [h2] at hz; exact hz
  · intro hp
    rcases fate (o := o) (form := form) (files := files) (tag := tag) (fun _ => mapField_plain hp) f hv ho with h | h | h
    · exact absurd hok h.1
    · exact absurd hok h.1
    · exact ⟨_, (trySet_spec hx hz).1 (Prod.ext h.1 rfl)⟩

/-- C61: if binding ends with an error (and it is not the validator's), then there is one field, at some depth, that could not
be set; every field treated before it could be set, and every field after it holds what it held before. -/
theorem C61_first {f n : Nat} {v v' : Val} {e : BErr} (hty : HasTy E (.struct n) v)
    (hz : ∀ n fd, fd ∈ E n → Sized fd.ty) (he : ∀ k, e ≠ .invalid k)
    (h : bindForm o E f check (.struct n v) form files tag = (.err e, .struct n v')) :
    ∃ p fd x, Occurs E (fun _ => True) n v p fd x ∧ Visible fd ∧
      (fd.exported = true → ∃ t z, (t = fd.ty ∨ fd.ty = .ptr t) ∧ ¬ ∃ w, Sets o form files tag fd t z w) ∧
      (Scalar fd → ¬ ∃ w, Sets o form files tag fd fd.ty x w) ∧
      (∀ q fd' x', Occurs E (fun _ => True) n v q fd' x' → Scalar fd' → Earlier q p → ∃ w, Sets o form files tag fd' fd'.ty x' w) ∧
      (∀ q fd' x', Occurs E (fun _ => True) n v q fd' x' → Sooner p q → get v' q = x') := by
  have hmem : ∀ {q fd' x'}, Occurs E (fun _ => True) n v q fd' x' → Sized fd'.ty := by
    intro q fd' x' ho
    have : ∀ {n v q fd' x'}, Occurs E (fun _ => True) n v q fd' x' → ∃ m, fd' ∈ E m := by
      intro n v q fd' x' ho
      induction ho with
      | here h1 => exact ⟨_, List.mem_of_getElem? h1⟩
      | inside _ _ _ _ _ ih => exact ih
    obtain ⟨m, hm⟩ := this ho
    exact hz m _ hm
  obtain ⟨h1, _, h3⟩ := bindForm_struct h
  have herr : (mapForm o E form files tag f (.struct n) v).1 = .err e := by
    by_cases hok : (mapForm o E form files tag f (.struct n) v).1 = .ok
    · unfold bindForm MapForm at h
      simp only at h
      rcases hr : mapForm o E form files tag f (.struct n) v with ⟨o1, w⟩
      rw [hr] at h hok
      simp only at hok
      subst hok
      simp only at h
      split at h
      · cases h; exact absurd rfl (he _)
      · cases h
    · exact (h3 hok).symm
  obtain ⟨p, fd, x, t, z, i1, i2, i3, i4, i5, i6, i7⟩ := first_bad f hty herr
  have hnot : ∀ {t z}, fd.exported = true → Sized t → (tryToSetValue2 o form files tag fd t z).1 = .err e →
      ¬ ∃ w, Sets o form files tag fd t z w := by
    rintro t z hx hs hc ⟨w, hw⟩
    rw [(trySet_spec hx hs).2 hw] at hc
    cases hc
  refine ⟨p, fd, x, i1, i2, ?_, ?_, ?_, ?_⟩
  · intro hx
    refine ⟨t, z, i4, hnot hx ?_ i3⟩
    have := hmem i1
    rcases i4 with i4 | i4
    · rw [i4]; exact this
    · rw [i4] at this; exact this
  · intro hp
    obtain ⟨rfl, rfl⟩ := i5 hp
    exact hnot hp.1 (hmem i1) i3
  · intro q fd' x' ho hp hq
    exact ⟨_, (trySet_spec hp.1 (hmem ho)).1 (Prod.ext (i6 q fd' x' ho hp hq) rfl)⟩
  · intro q fd' x' ho hq
    rw [h1]
    exact i7 q fd' x' ho hq

/-- without embedded fields other than structs, and with at least one value for each name, nothing panics -/
theorem no_panic (hE : ∀ n fd, fd ∈ E n → fd.anonymous = true → Embeddable fd) (hform : ∀ k, form.at k ≠ some [])
    (hfiles : ∀ k, files.at k ≠ some [])
    (hq : ∀ n fd, fd ∈ E n → fd.anonymous = true → fd.exported = false → Quiet form files tag fd)
    (f n : Nat) (v : Val) : (mapForm o E form files tag f (.struct n) v).1 ≠ .panic := by
  have hkind : ∀ opt t s v name, (setKind o opt t s v name).1 ≠ .panic := by
    intro opt t s v name
    cases t with
    | int bits => simp only [setKind]; rcases parseInt 64 (if s = [] then b!"0" else s) with ⟨i, _ | e⟩ <;> simp
    | uint bits => simp only [setKind]; rcases parseUint 64 (if s = [] then b!"0" else s) with ⟨i, _ | e⟩ <;> simp
    | duration => simp only [setKind]; rcases parseInt 64 (if s = [] then b!"0" else s) with ⟨i, _ | e⟩ <;> simp
    | bool => simp only [setKind]; rcases parseBool (if s = [] then b!"false" else s) with ⟨i, _ | e⟩ <;> simp
    | float bits => simp only [setKind]; cases o.float bits (if s = [] then b!"0.0" else s) <;> simp
    | time =>
      simp only [setKind]
      unfold setTimeField2
      generalize (if opt.timeFormat = [] then rfc3339 else opt.timeFormat) = tf
      simp only
      split
      · rcases parseInt 64 s with ⟨i, _ | e⟩ <;> simp
      · split
        · simp
        · split
          · simp
          · split <;> simp
    | file => simp only [setKind]; rcases o.json .file s v with ⟨_ | e, i⟩ <;> simp
    | struct n => simp only [setKind]; rcases o.json (.struct n) s v with ⟨_ | e, i⟩ <;> simp
    | map k el => simp only [setKind]; rcases o.json (.map k el) s v with ⟨_ | e, i⟩ <;> simp
    | _ => simp [setKind]
  have hwith : ∀ opt t s v name, (setWithProperType2 o opt t s v name).1 ≠ .panic := by
    intro opt t s v name
    cases t <;> exact hkind _ _ _ _ _
  have helems : ∀ opt t name ss, (setElems o opt t name ss).1 ≠ .panic := by
    intro opt t name ss
    induction ss with
    | nil => simp [setElems]
    | cons s ss ih =>
      unfold setElems
      have := hwith opt t s .zero name
      rcases hr : setWithProperType2 o opt t s .zero name with ⟨out, w⟩
      rw [hr] at this
      cases out with
      | ok => exact ih
      | panic => exact absurd rfl this
      | _ => simp
  have htry : ∀ fd t v, fd.exported = true → (tryToSetValue2 o form files tag fd t v).1 ≠ .panic := by
    intro fd t v hx
    unfold tryToSetValue2
    rcases parseFormName fd tag with ⟨nm, opt⟩
    simp only [hx, Bool.not_true, Bool.false_eq_true, if_false]
    split
    · simp
    · cases hf : formValues form nm opt with
      | some vs =>
        have hne : vs ≠ [] := by
          rintro rfl
          unfold formValues at hf
          split at hf
          · rename_i h; cases hf; exact hform _ h
          · split at hf <;> cases hf
        simp only
        unfold setFromValues
        split
        · rename_i el c cs
          have := helems opt el nm (c :: cs)
          rcases hr : setElems o opt el nm (c :: cs) with ⟨out, xs⟩
          rw [hr] at this
          cases out with
          | panic => exact absurd rfl this
          | _ => simp
        · exact absurd rfl hne
        · exact hwith _ _ _ _ _
      | none =>
        simp only
        cases hfi : files.at nm with
        | none => simp
        | some fs =>
          have hne : fs ≠ [] := by rintro rfl; exact hfiles _ hfi
          simp only
          unfold setFromFiles
          split
          · simp
          · simp
          · exact absurd rfl hne
          · simp
  induction f generalizing n v with
  | zero => simp [mapForm]
  | succ f ih =>
    rw [mapForm_struct]
    simp only
    intro hc
    rcases (mapFields_spec (mapField o form files tag (mapForm o E form files tag f)) (E n) (fieldVals (E n).length v)).2 with
      ⟨h1, _⟩ | ⟨k, fd, x, y, k1, k2, k3, k4, _⟩
    · rw [h1] at hc; cases hc
    · rw [hc] at k3
      have ha := hE n fd (List.mem_of_getElem? k1)
      have hqu := hq n fd (List.mem_of_getElem? k1)
      have hset : Visible fd → ∀ t v, (tryToSetValue2 o form files tag fd t v).1 ≠ .panic := by
        intro hv t v
        by_cases hx : fd.exported = true
        · exact htry fd t v hx
        · have hx : fd.exported = false := by simpa using hx
          have han : fd.anonymous = true := by
            rcases hv with h | h
            · rw [hx] at h; cases h
            · exact h
          rw [trySet_quiet (hqu han hx)]
          simp
      rw [mapField_eq] at k3
      split at k3
      · cases k3
      · rename_i hv
        have hvis : Visible fd := by
          unfold Visible
          cases hx : fd.exported <;> cases han : fd.anonymous <;> simp_all
        cases hal : allocates fd x with
        | some t =>
          have hx : fd.exported = true ∧ (descends fd t = true → (mapForm o E form files tag f t .zero).1 ≠ .panic) := by
            unfold allocates at hal
            split at hal
            · cases hal
            · cases hal
            · rename_i htt _
              split at hal
              · rename_i hcond
                cases hal
                cases han : fd.anonymous with
                | true =>
                  have hem := ha han
                  unfold Embeddable at hem
                  rw [htt] at hem
                  cases t <;> simp at hem
                  · exact ⟨hem, fun _ => by cases f <;> simp [mapForm]⟩
                  · exact ⟨hem, fun _ => ih _ _⟩
                | false =>
                  refine ⟨?_, ?_⟩
                  · rcases hvis with h | h
                    · exact h
                    · rw [han] at h; cases h
                  · intro hd
                    simp only [descends, han, Bool.or_false, Bool.and_eq_true] at hd
                    cases t <;> simp [Ty.isStruct] at hd
                    · cases f <;> simp [mapForm]
                    · exact ih _ _
              · cases hal
            · cases hal
          obtain ⟨hx, hwalk⟩ := hx
          rw [hal] at k3
          simp only [hx, Bool.not_true, Bool.false_eq_true, if_false] at k3
          have : (if descends fd t = true then mapForm o E form files tag f t .zero else (BOut.ok, Val.zero)).1 ≠ .panic := by
            split
            · exact hwalk (by assumption)
            · simp
          generalize (if descends fd t = true then mapForm o E form files tag f t .zero else (BOut.ok, Val.zero)) = r at this k3
          obtain ⟨o1, z⟩ := r
          cases o1 with
          | ok => simp only [afterAlloc, Prod.mk.injEq] at k3; exact hset hvis _ _ k3.1
          | panic => exact absurd rfl this
          | _ => simp [afterAlloc] at k3
        | none =>
          have hwalk : descends fd fd.ty = true → (mapForm o E form files tag f fd.ty x).1 ≠ .panic := by
            intro hd
            cases han : fd.anonymous with
            | false =>
              simp only [descends, han, Bool.or_false, Bool.and_eq_true] at hd
              generalize fd.ty = t at hd
              cases t <;> simp [Ty.isStruct] at hd
              · cases f <;> simp [mapForm]
              · exact ih _ _
            | true =>
              have hem := ha han
              unfold Embeddable at hem
              split at hem
              · rename_i ht; rw [ht]; exact ih _ _
              · rename_i ht; rw [ht]; cases f <;> simp [mapForm]
              · rename_i ht; rw [ht]; cases f <;> simp [mapForm]
              · rename_i m ht
                rw [ht]
                unfold allocates at hal
                rw [ht] at hal
                cases x with
                | ptr y =>
                  cases f with
                  | zero => simp [mapForm]
                  | succ f =>
                    have := ih m y
                    rw [mapForm_struct] at this
                    simp only [mapForm]
                    exact this
                | _ => simp [han] at hal
              · rename_i ht
                rw [ht]
                unfold allocates at hal
                rw [ht] at hal
                cases x with
                | ptr y => cases f <;> simp [mapForm]
                | _ => simp [han] at hal
              · exact absurd hem (by simp)
          rw [hal] at k3
          simp only at k3
          have : (if descends fd fd.ty = true then mapForm o E form files tag f fd.ty x else (BOut.ok, x)).1 ≠ .panic := by
            split
            · exact hwalk (by assumption)
            · simp
          generalize (if descends fd fd.ty = true then mapForm o E form files tag f fd.ty x else (BOut.ok, x)) = r at this k3
          obtain ⟨o1, z⟩ := r
          cases o1 with
          | ok => simp only [afterWalk] at k3; exact hset hvis _ _ (by rw [k3])
          | panic => exact absurd rfl this
          | _ => simp [afterWalk] at k3

/-- C61, partial: mapping a form returns an error if and only if some field cannot be set; for struct types in which
structs are embedded at most and without recursion, forms as they come from a request (at least one value for each name), and no JSON
for whole structs. Missing: embedded fields that are not structs panic (`C61_refuted`), recursive types do not terminate
(`C64_refuted`), and whether JSON can be set depends on what was set inside before. -/
theorem C61_iff_partial {f n : Nat} {v : Val} (hty : HasTy E (.struct n) v) (hz : ∀ n fd, fd ∈ E n → Sized fd.ty)
    (hE : ∀ n fd, fd ∈ E n → fd.anonymous = true → Embeddable fd) (hform : ∀ k, form.at k ≠ some [])
    (hfiles : ∀ k, files.at k ≠ some []) (rank : Nat → Nat)
    (hr : ∀ n fd m, fd ∈ E n → Visible fd → (fd.ty = .struct m ∨ fd.ty = .ptr (.struct m)) → rank m < rank n)
    (hf : rank n + 1 < f)
    (hq : ∀ n fd, fd ∈ E n → Visible fd → Scalar fd ∨ Quiet form files tag fd) :
    (∃ e, (MapForm o E f (.struct n v) form files tag).1 = .err e) ↔
      ∃ p fd x, Occurs E (fun _ => True) n v p fd x ∧ Scalar fd ∧ ¬ ∃ w, Sets o form files tag fd fd.ty x w := by
  have hM : (MapForm o E f (.struct n v) form files tag).1 = (mapForm o E form files tag f (.struct n) v).1 := rfl
  rw [hM]
  have hbind : bindForm o E f (fun _ => none) (.struct n v) form files tag =
      ((mapForm o E form files tag f (.struct n) v).1, .struct n (mapForm o E form files tag f (.struct n) v).2) := by
    unfold bindForm MapForm
    simp only
    rcases mapForm o E form files tag f (.struct n) v with ⟨o1, w⟩
    cases o1 <;> rfl
  constructor
  · rintro ⟨e, he⟩
    obtain ⟨p, fd, x, t, z, i1, i2, i3, i4, i5, i6, i7⟩ := first_bad f hty he
    have hmem : ∀ {n v q fd' x'}, Occurs E (fun _ => True) n v q fd' x' → ∃ m, fd' ∈ E m := by
      intro n v q fd' x' ho
      induction ho with
      | here h1 => exact ⟨_, List.mem_of_getElem? h1⟩
      | inside _ _ _ _ _ ih => exact ih
    obtain ⟨m, hm⟩ := hmem i1
    rcases hq m fd hm i2 with hp | hqu
    · refine ⟨p, fd, x, i1, hp, ?_⟩
      rintro ⟨w, hw⟩
      obtain ⟨rfl, rfl⟩ := i5 hp
      rw [(trySet_spec hp.1 (hz m fd hm)).2 hw] at i3
      cases i3
    · rw [trySet_quiet hqu] at i3
      cases i3
  · rintro ⟨p, fd, x, ho, hp, hno⟩
    cases hout : (mapForm o E form files tag f (.struct n) v).1 with
    | ok =>
      exfalso
      rw [hout] at hbind
      have hmem : ∀ {n v q fd' x'}, Occurs E (fun _ => True) n v q fd' x' → ∃ m, fd' ∈ E m := by
        intro n v q fd' x' ho
        induction ho with
        | here h1 => exact ⟨_, List.mem_of_getElem? h1⟩
        | inside _ _ _ _ _ ih => exact ih
      obtain ⟨m, hm⟩ := hmem ho
      exact hno ((C61_ok (hasTy_notPtr hty) ho hp.1 (hz m fd hm) hbind).2 hp)
    | err e => exact ⟨e, rfl⟩
    | panic => exact absurd hout (no_panic hE hform hfiles (by
        intro n fd hm ha hx
        rcases hq n fd hm (.inr ha) with hp | hqu
        · rw [hp.1] at hx; cases hx
        · exact hqu) f n v)
    | fuel => exact absurd hout ((enough rank hr f).1 n v hf)

/-- C61 does not hold: a struct with an embedded integer type (`type T struct { ID }`, `type ID int`) makes every form panic,
though no value is bad. -/
theorem C61_refuted (o : BOracle) (form : Form) (files : FormFiles) (tag : Str) (v : Val) (f : Nat) :
    (bindForm o (fun _ => [{ Demo.fld b!"ID" b!"id" (.int 64) with anonymous := true }]) (f + 2) (fun _ => none)
      (.struct 0 (.struct [v])) form files tag).1 = .panic := by
  unfold bindForm MapForm
  simp only
  rw [mapForm_struct]
  rfl

/-! ### C62 -/

/-- C62: after a successful `Bind`, a slice field for which values were submitted has exactly one element for each, in order,
each converted from its text alone. -/
theorem C62_slice {f n : Nat} {v v' : Val} {p : List Nat} {fd : Field} {x : Val} {el : Ty} {ss : List Str}
    (hv : ∀ w, v ≠ .ptr w) (ho : Occurs E (Quiet form files tag) n v p fd x) (hp : Scalar fd) (hz : Sized el)
    (hty : fd.ty = .slice el) (hin : input form tag fd = some ss)
    (h : bindForm o E f check (.struct n v) form files tag = (.ok, .struct n v')) :
    ∃ ws : List Val, get v' p = .slice ws ∧ ws.length = ss.length ∧
      ∀ (i : Nat) s w, ss[i]? = some s → ws[i]? = some w → ConvP o fd el s .zero w := by
  have hs := bound h hv ho hp (by rw [hty]; exact hz)
  rw [hty] at hs
  generalize get v' p = y at hs
  cases hs with
  | quiet h => have := h.1; rw [hin] at this; cases this
  | value _ h => exact absurd rfl (h _)
  | slice h1 h2 h3 h4 =>
    rw [hin] at h1
    cases h1
    exact ⟨_, rfl, h3, h4⟩
  | files h => rw [hin] at h; cases h

/-- C62, for strings: the field holds exactly the submitted texts. -/
theorem C62_strings {f n : Nat} {v v' : Val} {p : List Nat} {fd : Field} {x : Val} {ss : List Str}
    (hv : ∀ w, v ≠ .ptr w) (ho : Occurs E (Quiet form files tag) n v p fd x) (hp : Scalar fd)
    (hty : fd.ty = .slice .string) (hin : input form tag fd = some ss)
    (h : bindForm o E f check (.struct n v) form files tag = (.ok, .struct n v')) : get v' p = .slice (ss.map .string) := by
  obtain ⟨ws, h1, h2, h3⟩ := C62_slice hv ho hp (by trivial) hty hin h
  rw [h1]
  congr 1
  refine List.ext_getElem? ?_
  intro i
  rw [List.getElem?_map]
  cases hs : ss[i]? with
  | none =>
    rw [List.getElem?_eq_none_iff] at hs
    simp only [Option.map_none, List.getElem?_eq_none_iff]
    omega
  | some s =>
    have hi : i < ws.length := by rw [h2]; exact (List.getElem?_eq_some_iff.1 hs).1
    have hw : ws[i]? = some ws[i] := List.getElem?_eq_getElem hi
    have := h3 i s _ hs hw
    rw [hw]
    simp only [Option.map_some, Option.some.injEq]
    generalize ws[i] = w at this
    cases this with
    | value _ h =>
      cases h with
      | string => rfl
      | json h => simp at h

/-! ### C64 -/

/-- C64, partial: binding terminates (no depth larger than the rank of the type is needed, and any depth that suffices gives
the same result) for every struct type that does not contain itself through visible struct or pointer-to-struct fields.
Missing: types that do (`C64_refuted`). Recursion through slices, maps or unexported fields is allowed here. -/
theorem C64_terminates_partial (rank : Nat → Nat)
    (hr : ∀ n fd m, fd ∈ E n → Visible fd → (fd.ty = .struct m ∨ fd.ty = .ptr (.struct m)) → rank m < rank n)
    (n : Nat) (v : Val) :
    (bindForm o E (rank n + 2) check (.struct n v) form files tag).1 ≠ .fuel ∧
    ∀ f, rank n + 2 ≤ f →
      bindForm o E f check (.struct n v) form files tag = bindForm o E (rank n + 2) check (.struct n v) form files tag := by
  have h := (enough (o := o) (form := form) (files := files) (tag := tag) rank hr (rank n + 2)).1 n v (by omega)
  refine ⟨?_, ?_⟩
  · unfold bindForm MapForm
    simp only
    rcases hm : mapForm o E form files tag (rank n + 2) (.struct n) v with ⟨o1, w⟩
    rw [hm] at h
    cases o1 with
    | ok => simp only; split <;> simp
    | fuel => exact absurd rfl h
    | _ => simp
  · intro f hf
    unfold bindForm MapForm
    simp only
    rw [mapForm_mono hf _ _ h]

/-- C64 does not hold: binding any form without a value `v` to `struct { V int; Next *Node }` does not terminate, whatever
the depth: each nil `Next` is allocated and walked into. -/
theorem C64_refuted (o : BOracle) (form : Form) (check : Target → Option Nat) (h : form.at b!"v" = none) (f : Nat) :
    (bindForm o Demo.nodeEnv f check (.struct 0 .zero) form [] b!"form").1 = .fuel := by
  have := endless (o := o) (E := Demo.nodeEnv) (form := form) (files := []) (tag := b!"form") (n := 0) (i := 1)
    (fd := Demo.fld b!"Next" [] (.ptr (.struct 0))) rfl rfl rfl ?_ f
  · unfold bindForm MapForm
    simp only
    rcases hm : mapForm o Demo.nodeEnv form [] b!"form" f (.struct 0) .zero with ⟨o1, w⟩
    rw [hm] at this
    simp only at this
    subst this
    rfl
  · intro j fd hj hfd
    left
    have : j = 0 := by omega
    subst this
    simp only [Demo.nodeEnv, List.getElem?_cons_zero, Option.some.injEq] at hfd
    subst hfd
    have hb : bindName (Demo.fld b!"V" b!"v" (.int 64)) b!"form" = some b!"v" := by decide
    have hd : bindDefault (Demo.fld b!"V" b!"v" (.int 64)) b!"form" = none := by decide
    refine ⟨⟨rfl, rfl, trivial⟩, ?_, ?_⟩
    · unfold input
      rw [hb]
      simp [h, hd]
    · intro n _
      rfl

end

/-! ### examples -/

namespace Demo

example : Occurs bindEnv (Quiet [(b!"a", [b!"x"])] [] b!"form") 0 .zero [3, 0] (fld b!"A" b!"a" .string) .zero := by
  refine .inside (fd := fld b!"In" b!"in" (.struct 1)) (m := 1) rfl rfl ⟨by decide, by intro n hn; rfl⟩ (.value (Or.inl rfl) rfl (by simp)) ?_
  exact .here rfl rfl

example : (bindT .zero [(b!"id", [b!"-5"]), (b!"on", [b!"T"]), (b!"a", [b!"x", b!"y"]), (b!"tags", [b!"p", b!"q"]), (b!"n", [b!"12"])]).1 = .ok ∧
    same (bindT .zero [(b!"id", [b!"-5"]), (b!"on", [b!"T"]), (b!"a", [b!"x", b!"y"]), (b!"tags", [b!"p", b!"q"]), (b!"n", [b!"12"])]).2
      (.struct [.int (-5), .int 7, .bool true, .struct [.string b!"x", .ptr (.int 12)], .slice [.string b!"p", .string b!"q"], .zero,
        .ptr (.struct [.string b!"x", .ptr (.int 12)])]) = true := by decide +kernel

/-- the third field is bad: the first two are set, the others not -/
example : (bindT .zero [(b!"id", [b!"5"]), (b!"on", [b!"maybe"]), (b!"tags", [b!"p"])]).1 = .err (.value b!"on" b!"maybe") ∧
    same (bindT .zero [(b!"id", [b!"5"]), (b!"on", [b!"maybe"]), (b!"tags", [b!"p"])]).2
      (.struct [.int 5, .int 7, .zero, .zero, .zero, .zero, .zero]) = true := by decide +kernel

example : HasTy bindEnv (.struct 0) .zero := .zero

/-- `T` does not contain itself -/
example : ∀ n fd m, fd ∈ bindEnv n → Visible fd → (fd.ty = .struct m ∨ fd.ty = .ptr (.struct m)) →
    (fun n => if n = 0 then 1 else 0 : Nat → Nat) m < (fun n => if n = 0 then 1 else 0 : Nat → Nat) n := by
  intro n fd m hfd _ hty
  by_cases hn : n = 0
  · subst hn
    have : m = 1 := by
      simp only [bindEnv, if_true, List.mem_cons, List.not_mem_nil, or_false] at hfd
      rcases hfd with h | h | h | h | h | h | h <;> subst h <;> simp [fld] at hty
      · exact hty.symm
      · exact hty.symm
    subst this
    decide
  · simp only [bindEnv, hn, if_false, List.mem_cons, List.not_mem_nil, or_false] at hfd
    rcases hfd with h | h <;> subst h <;> simp [fld] at hty

/-- `type T struct { u; *V; Size int8 }` with two embedded structs, one of an unexported type -/
def embedEnv : TyEnv := fun n =>
  if n = 0 then
    [{ fld b!"u" [] (.struct 1) with exported := false, anonymous := true }, { fld b!"V" [] (.ptr (.struct 1)) with anonymous := true },
     fld b!"Size" b!"size" (.int 8)]
  else [fld b!"N" b!"n" (.int 64)]

/-- embedded structs meet the conditions of `C61_iff_partial`; the bad field is inside one -/
example : (∀ fd ∈ embedEnv 0, fd.anonymous = true → Embeddable fd) ∧
    (∀ fd ∈ embedEnv 0, Visible fd → Scalar fd ∨ Quiet [(b!"n", [b!"x"])] [] b!"form" fd) ∧
    (MapForm bindO embedEnv 4 (.struct 0 .zero) [(b!"n", [b!"x"])] [] b!"form").1 = .err (.value b!"n" b!"x") ∧
    (MapForm bindO embedEnv 4 (.struct 0 .zero) [(b!"n", [b!"3"])] [] b!"form").1 = .ok := by
  refine ⟨?_, ?_, by decide +kernel, by decide +kernel⟩
  · intro fd h ha
    simp only [embedEnv, if_true, List.mem_cons, List.not_mem_nil, or_false] at h
    rcases h with h | h | h <;> subst h
    · trivial
    · rfl
    · cases ha
  · intro fd h _
    simp only [embedEnv, if_true, List.mem_cons, List.not_mem_nil, or_false] at h
    rcases h with h | h | h <;> subst h
    · exact .inr ⟨by decide, by intro n hn; rfl⟩
    · exact .inr ⟨by decide, by intro n hn; rfl⟩
    · exact .inl ⟨rfl, rfl, trivial⟩

end Demo

end Water
