import Verif.Lemmas.Ends
import Verif.Props.Mapping
/-
C64 and C73 once more: exactly when binding a struct comes to an end.
-/
namespace Water
open Spec

section
variable {o : BOracle} {E : TyEnv} {form : Form} {files : FormFiles} {tag : Str} {check : Target → Option Nat}

/-- C64: `Bind` ends, whatever is in the request, if going down from the struct through the fields it walks into comes to an
end. Unlike in `C64_terminates_partial` the value counts: a pointer that is not nil is only followed if it is embedded. -/
theorem C64_ends {n : Nat} {v : Val} (hv : HasTy E (.struct n) v) (h : Acc (Down E) (n, v)) :
    ∃ F, ∀ f, F ≤ f → (bindForm o E f check (.struct n v) form files tag).1 ≠ .fuel := by
  obtain ⟨F, hF⟩ := down_ends (o := o) (form := form) (files := files) (tag := tag) h hv
  refine ⟨F, fun f hf => ?_⟩
  have := hF f hf
  unfold bindForm MapForm
  simp only
  rcases hm : mapForm o E form files tag f (.struct n) v with ⟨o1, w⟩
  rw [hm] at this
  cases o1 with
  | ok => simp only; split <;> simp
  | fuel => exact absurd rfl this
  | _ => simp

/-- C64: and if that does not come to an end, `Bind` never succeeds: it fails at some field, panics, or does not end. -/
theorem C64_finite {n : Nat} {v : Val} {f : Nat} (h : (bindForm o E f check (.struct n v) form files tag).1 = .ok) :
    Acc (Down E) (n, v) := by
  unfold bindForm MapForm at h
  simp only at h
  rcases hm : mapForm o E form files tag f (.struct n) v with ⟨o1, w⟩
  rw [hm] at h
  cases o1 with
  | ok => exact ok_down (o := o) (form := form) (files := files) (tag := tag) (f := f) (by rw [hm])
  | _ => simp at h

/-- C64: on a request that says nothing about the fields, and with no embedding that panics, `Bind` ends exactly if going down
does. -/
theorem C64_iff {n : Nat} {v : Val} (hv : HasTy E (.struct n) v)
    (hq : ∀ m, Within E n m → ∀ fd ∈ E m, Visible fd → Quiet form files tag fd ∧ Sound fd) :
    (∃ f, (bindForm o E f check (.struct n v) form files tag).1 ≠ .fuel) ↔ Acc (Down E) (n, v) := by
  constructor
  · rintro ⟨f, hf⟩
    rcases quiet_calm (o := o) hq f n v .refl hv with h | h
    · exact ok_down h
    · exfalso
      apply hf
      unfold bindForm MapForm
      simp only
      rcases hm : mapForm o E form files tag f (.struct n) v with ⟨o1, w⟩
      rw [hm] at h
      simp only at h
      subst h
      rfl
  · intro h
    obtain ⟨F, hF⟩ := C64_ends (o := o) (form := form) (files := files) (tag := tag) (check := check) hv h
    exact ⟨F, hF F (Nat.le_refl F)⟩

end

section
variable {o : BOracle} {E : TyEnv} {src : Source} {tag : Str} {check : Val → Option Nat}

/-- C73: `Bind2` ends, on any value, if going down from the struct type through the fields that are embedded or not mentioned
comes to an end. -/
theorem C73_ends {n : Nat} (h : Acc (Leads E src tag) n) :
    ∃ F, ∀ fuel, F ≤ fuel → ∀ v, (bind2 o E fuel check src tag n v).1 ≠ .fuel := by
  obtain ⟨F, hF⟩ := leads_ends (o := o) h
  refine ⟨F + 2, fun fuel hf v => ?_⟩
  obtain ⟨f, rfl⟩ : ∃ f, fuel = f + 2 := ⟨fuel - 2, by omega⟩
  have hw := hF f (by omega) v
  rw [(bind2_eq check f n v).2]
  by_cases h : (walkAll o E src tag f n v).1 = .ok
  · rw [if_pos h]
    cases check (.struct (walkAll o E src tag f n v).2.2) <;> simp
  · rw [if_neg h]; exact hw

/-- C73: and if that does not come to an end, `Bind2` never succeeds. -/
theorem C73_finite {n fuel : Nat} {v : Val} (hv : HasTy E (.struct n) v) (h : (bind2 o E fuel check src tag n v).1 = .ok) :
    Acc (Leads E src tag) n := by
  by_cases hf : fuel < 2
  · rw [bind2_low hf] at h; cases h
  · obtain ⟨f, rfl⟩ : ∃ f, fuel = f + 2 := ⟨fuel - 2, by omega⟩
    rw [(bind2_eq check f n v).2] at h
    by_cases hw : (walkAll o E src tag f n v).1 = .ok
    · exact ok_leads f hv hw
    · rw [if_neg hw] at h; exact absurd h hw

/-- C73: if every field that `Bind2` comes to can take what is said about it, and unexported embedded fields are structs, it
ends exactly if going down does. -/
theorem C73_iff {n : Nat} {v : Val} (hv : HasTy E (.struct n) v) (hz : ∀ n, ∀ fd ∈ E n, Sized2 fd.ty)
    (hx : ∀ n, ∀ fd ∈ E n, fd.anonymous = true → fd.exported = true ∨ ∃ m, fd.ty = .struct m)
    (hg : ∀ p fd x, Reaches E src tag n v p fd x → Own fd → ¬ Silent src tag fd → ∃ w, Takes o src tag fd (bare fd.ty) (under x) w) :
    (∃ fuel, (bind2 o E fuel check src tag n v).1 ≠ .fuel) ↔ Acc (Leads E src tag) n := by
  constructor
  · rintro ⟨fuel, hf⟩
    have hne : (bind2 o E fuel (fun _ => none) src tag n v).1 ≠ .fuel := by
      by_cases h2 : fuel < 2
      · rw [bind2_low h2] at hf; exact absurd rfl hf
      · obtain ⟨f, rfl⟩ : ∃ f, fuel = f + 2 := ⟨fuel - 2, by omega⟩
        rw [(bind2_eq check f n v).2] at hf
        rw [(bind2_eq _ f n v).2]
        by_cases hw : (walkAll o E src tag f n v).1 = .ok
        · rw [if_pos hw]; simp
        · rw [if_neg hw] at hf ⊢; exact hf
    rcases hb : bind2 o E fuel (fun _ => none) src tag n v with ⟨out, v'⟩
    rw [hb] at hne
    cases out with
    | ok => exact C73_finite (o := o) (fuel := fuel) (check := fun _ => none) hv (by rw [hb])
    | err e =>
      obtain ⟨q, fd, x, a, b, c, d, _⟩ := C72_first hb hv hz
      obtain ⟨m, hm⟩ := reaches_mem a
      have ho : fd.exported = true := by
        rcases (reaches_tag a).2 with h | h
        · exact h
        · rcases hx m fd hm h with h' | ⟨k, h'⟩
          · exact h'
          · have := b h; rw [h'] at this; cases this
      exact absurd (hg q fd x a ⟨ho, b⟩ c) d
    | panic =>
      obtain ⟨q, fd, x, h1, h2, h3⟩ := C72_panic hb hv hz
      obtain ⟨m, hm⟩ := reaches_mem h1
      rcases (reaches_tag h1).2 with h | h
      · rw [h] at h2; cases h2
      · rcases hx m fd hm h with h | ⟨k, h⟩
        · rw [h] at h2; cases h2
        · rcases h3 with ⟨t, h3⟩ | h3
          · rw [h] at h3; cases h3
          · exact absurd h (h3 k)
    | fuel => exact absurd rfl hne
  · intro h
    obtain ⟨F, hF⟩ := C73_ends (o := o) (check := check) h
    exact ⟨F, hF F (Nat.le_refl F) v⟩

end

namespace Demo

/-- a list of two nodes: `Bind` does not follow the pointer, which is not nil -/
def twoNodes : Val := .struct [.int 1, .ptr (.struct [.int 2, .zero])]

theorem twoNodes_ty : HasTy nodeEnv (.struct 0) twoNodes := by
  refine .struct rfl ?_
  intro i fd x hi hx
  match i, hi, hx with
  | 0, hi, hx => cases hi; cases hx; exact .plain (by intro n h; cases h) (by intro n h; cases h) (by intro n h; cases h)
  | 1, hi, hx =>
    cases hi; cases hx
    refine .ptr (.struct rfl ?_)
    intro i fd x hi hx
    match i, hi, hx with
    | 0, hi, hx => cases hi; cases hx; exact .plain (by intro n h; cases h) (by intro n h; cases h) (by intro n h; cases h)
    | 1, hi, hx => cases hi; cases hx; exact .zero

/-- so going down from it ends at once, -/
theorem twoNodes_down : Acc (Down nodeEnv) (0, twoNodes) := by
  refine ⟨_, fun b hb => ?_⟩
  obtain ⟨m, y⟩ := b
  obtain ⟨i, fd, x, h1, h2, he⟩ := hb
  match i, h1, h2 with
  | 0, h1, h2 => cases h1; cases h2; cases he with | value _ h => cases h
  | 1, h1, h2 =>
    cases h1; cases h2
    cases he with
    | value _ h => cases h
    | embedded h => cases h

/-- and binding ends, -/
example : ∃ F, ∀ f, F ≤ f → (bindForm bindO nodeEnv f (fun _ => none) (.struct 0 twoNodes) [(b!"v", [b!"7"])] [] b!"form").1 ≠ .fuel :=
  C64_ends twoNodes_ty twoNodes_down

example : (bindForm bindO nodeEnv 3 (fun _ => none) (.struct 0 twoNodes) [(b!"v", [b!"7"])] [] b!"form").1 = .ok := by decide +kernel

/-- while from the zero value going down does not end. -/
theorem node_down : ¬ Acc (Down nodeEnv) (0, .zero) := by
  intro h
  generalize ha : (0, Val.zero) = a at h
  induction h with
  | intro a _ ih =>
    subst ha
    exact ih (0, .zero) ⟨1, fld b!"Next" [] (.ptr (.struct 0)), .zero, rfl, rfl, .alloc rfl rfl⟩ rfl

/-- No form without a value `v` is bound to it. -/
example (form : Form) (h : form.at b!"v" = none) : ¬ ∃ f, (bindForm bindO nodeEnv f (fun _ => none) (.struct 0 .zero) form [] b!"form").1 ≠ .fuel := by
  rw [C64_iff .zero]
  · exact node_down
  · intro m _ fd hfd hv
    have hb : bindName (Demo.fld b!"V" b!"v" (.int 64)) b!"form" = some b!"v" := by decide
    have hd : bindDefault (Demo.fld b!"V" b!"v" (.int 64)) b!"form" = none := by decide
    have hn : bindName (Demo.fld b!"Next" [] (.ptr (.struct 0))) b!"form" = none := by decide
    simp only [nodeEnv, List.mem_cons, List.not_mem_nil, or_false] at hfd
    rcases hfd with rfl | rfl
    · refine ⟨⟨?_, fun _ _ => rfl⟩, fun h => (by cases h)⟩
      unfold input
      rw [hb]
      simp [h, hd]
    · refine ⟨⟨?_, fun _ _ => rfl⟩, fun h => (by cases h)⟩
      unfold input
      rw [hn]
      rfl

/-- `Bind2` follows every pointer: it ends on no list, unless `Next` is said to be something. -/
example (src : Source) (h : Silent src b!"form" (fld b!"Next" [] (.ptr (.struct 0)))) : ¬ Acc (Leads nodeEnv src b!"form") 0 := by
  intro ha
  generalize h0 : 0 = a at ha
  induction ha with
  | intro a _ ih =>
    subst h0
    exact ih 0 ⟨_, by simp [nodeEnv], Or.inl rfl, by decide, rfl, Or.inr h⟩ rfl

example (src : Source) (h : ¬ Silent src b!"form" (fld b!"Next" [] (.ptr (.struct 0)))) : Acc (Leads nodeEnv src b!"form") 0 := by
  refine ⟨_, fun m hm => ?_⟩
  obtain ⟨fd, hfd, _, _, h1, h2⟩ := hm
  simp only [nodeEnv, List.mem_cons, List.not_mem_nil, or_false] at hfd
  rcases hfd with rfl | rfl
  · cases h1
  · rcases h2 with h2 | h2
    · cases h2
    · exact absurd h2 h

end Demo

end Water
