import Verif.Lemmas.HeaderStrip
import Verif.Props.HeaderTrip
/-
C147: what exactly comes back from binding.Header, for all texts.
-/
namespace Water
open Spec

/-- lines that are as they are written have texts that a header line can hold -/
theorem strip_fixed {ls : List (Str × Str)} (h : ls = ls.map stripLine) : ∀ l ∈ ls, FieldSafe l.2 := by
  induction ls with
  | nil => exact fun l hl => absurd hl List.not_mem_nil
  | cons x ls ih =>
    intro l hl
    rw [List.map_cons, List.cons.injEq] at h
    rcases List.mem_cons.1 hl with rfl | hl
    · exact (C147_text l.2).1 (congrArg Prod.snd h.1).symm
    · exact ih h.2 l hl

/-- **C147 (partial), exactly.** A struct with any texts is sent in header lines. `Bind` gives the struct with each text as a header line
holds it, and this is the struct that was sent if and only if a header line can hold all of its texts. Missing: fields that net/http takes
for itself (`C147_refuted_host`). -/
theorem C147_exact_partial (o : BOracle) (E : TyEnv) {f g n : Nat} (hg : f ≤ g) {v : Val} (hs : Sendable E b!"header" f n v)
    (hnd : (namesOf E b!"header" f n).Nodup) {ls before after : List (Str × Str)} (hl : SameLines (send E b!"header" f n v) ls)
    (ho : ∀ l ∈ before ++ after, ∀ k ∈ namesOf E b!"header" f n, ¬ SameHeader l.1 k) (ht : TokenNames (before ++ ls ++ after))
    (hres : ∀ k ∈ namesOf E b!"header" f n, k ∉ reservedFields) (rest : Str) (check : Target → Option Nat) (hc : ∀ t, check t = none) :
    ∃ h, readMIMEHeader (wireHeader (before ++ ls ++ after) ++ rest) = .ok h rest ∧ ∀ F, ListsHeader (serverHeader h) F →
      ∃ w, bindForm o E g check (.struct n .zero) F [] b!"header" = (.ok, .struct n w) ∧ SameVal E (.struct n) (stripVal v) w ∧
        (SameVal E (.struct n) v w ↔ ∀ l ∈ send E b!"header" f n v, FieldSafe l.2) := by
  obtain ⟨hs', hsend⟩ := strip_send E b!"header" f n v hs
  have hsafe : ∀ l ∈ send E b!"header" f n (stripVal v), FieldSafe l.2 := by
    intro l h
    rw [hsend] at h
    obtain ⟨x, _, rfl⟩ := List.mem_map.1 h
    exact fieldText_safe x.2
  obtain ⟨h, hr, hF⟩ := C147_bind_partial o E hg hs' hnd (ls := ls.map stripLine) (before := before) (after := after)
    (hsend ▸ sameLines_strip hl) ho (tokens_strip ht) hsafe hres rest check hc
  rw [wire_strip] at hr
  refine ⟨h, hr, fun F hf => ?_⟩
  obtain ⟨w, hw, hsame⟩ := hF F hf
  refine ⟨w, hw, hsame, fun hv => ?_, fun hv => ?_⟩
  · exact strip_fixed (by rw [← hsend, same_send E _ f n _ _ hv, same_send E _ f n _ _ hsame])
  · obtain ⟨h2, hr2, hF2⟩ := C147_bind_partial o E hg hs hnd hl ho ht hv hres rest check hc
    rw [hr] at hr2
    cases hr2
    obtain ⟨w2, hw2, hs2⟩ := hF2 F hf
    rw [hw] at hw2
    cases hw2
    exact hs2

/-- **C147 (partial), exactly, `Bind2`**: the same, and pointers that were nil are nil. -/
theorem C147_exact2_partial (o : BOracle) (E : TyEnv) {f g n : Nat} (hg : f ≤ g) {v : Val}
    (hs : SendableOld E true b!"header" f (.struct n) emptyField v) (hnd : (namesOld E true b!"header" f (.struct n) emptyField).Nodup)
    {ls before after : List (Str × Str)} (hl : SameLines (sendOld E true b!"header" f (.struct n) emptyField v) ls)
    (ho : ∀ l ∈ before ++ after, ∀ k ∈ namesOld E true b!"header" f (.struct n) emptyField, ¬ SameHeader l.1 k)
    (ht : TokenNames (before ++ ls ++ after))
    (hres : ∀ k ∈ namesOld E true b!"header" f (.struct n) emptyField, k ∉ reservedFields) (rest : Str)
    (check : Val → Option Nat) (hc : ∀ t, check t = none) :
    ∃ h, readMIMEHeader (wireHeader (before ++ ls ++ after) ++ rest) = .ok h rest ∧ ∀ F, ListsHeader (serverHeader h) F →
      ∃ w, bind2 o E (g + 1) check ⟨F, [], true⟩ b!"header" n .zero = (.ok, w) ∧ SameVal E (.struct n) (stripVal v) w ∧
        (SameVal E (.struct n) v w ↔ ∀ l ∈ sendOld E true b!"header" f (.struct n) emptyField v, FieldSafe l.2) := by
  obtain ⟨hs', hsend⟩ := strip_sendOld E true b!"header" f (.struct n) emptyField v hs
  have hsafe : ∀ l ∈ sendOld E true b!"header" f (.struct n) emptyField (stripVal v), FieldSafe l.2 := by
    intro l h
    rw [hsend] at h
    obtain ⟨x, _, rfl⟩ := List.mem_map.1 h
    exact fieldText_safe x.2
  obtain ⟨h, hr, hF⟩ := C147_bind2_partial o E hg hs' hnd (ls := ls.map stripLine) (before := before) (after := after)
    (hsend ▸ sameLines_strip hl) ho (tokens_strip ht) hsafe hres rest check hc
  rw [wire_strip] at hr
  refine ⟨h, hr, fun F hf => ?_⟩
  obtain ⟨w, hw, hsame⟩ := hF F hf
  refine ⟨w, hw, hsame, fun hv => ?_, fun hv => ?_⟩
  · exact strip_fixed (by rw [← hsend, same_sendOld E _ _ f _ _ _ _ hv, same_sendOld E _ _ f _ _ _ _ hsame])
  · obtain ⟨h2, hr2, hF2⟩ := C147_bind2_partial o E hg hs hnd hl ho ht hv hres rest check hc
    rw [hr] at hr2
    cases hr2
    obtain ⟨w2, hw2, hs2⟩ := hF2 F hf
    rw [hw] at hw2
    cases hw2
    exact hs2

open Demo in
/-- Beside the theorem: a text with a blank in front and a line break inside. -/
theorem Demo.C147_exact_demo :
    stripVal (.struct [.string b!" a\nb"]) = .struct [.string b!"a b"] ∧
    ∃ h F w, readMIMEHeader (wireHeader ([] ++ [(b!"x-note", b!" a\nb")] ++ []) ++ []) = .ok h [] ∧ ListsHeader (serverHeader h) F ∧
      bindForm bindO lineEnv 1 (fun _ => none) (.struct 0 .zero) F [] b!"header" = (.ok, .struct 0 w) ∧
      SameVal lineEnv (.struct 0) (.struct [.string b!"a b"]) w ∧ ¬ SameVal lineEnv (.struct 0) (.struct [.string b!" a\nb"]) w := by
  have e : stripVal (.struct [.string b!" a\nb"]) = .struct [.string b!"a b"] := by
    simp only [stripVal, stripVals]
    rw [show fieldText b!" a\nb" = b!"a b" by decide +kernel]
  refine ⟨e, ?_⟩
  have ht : TokenNames ([] ++ [(b!"x-note", b!" a\nb")] ++ []) := by unfold TokenNames; decide +kernel
  obtain ⟨h, hh, hF⟩ := C147_exact_partial bindO lineEnv (Nat.le_refl 1)
    (oneField_sendable (E := lineEnv) rfl rfl rfl rfl (by decide +kernel) b!" a\nb") (by decide +kernel) (ls := [(b!"x-note", b!" a\nb")])
    (before := []) (after := []) (sameLines_check (by decide +kernel)) (fun l hl => absurd hl List.not_mem_nil) ht (by decide +kernel) []
    (fun _ => none) (fun _ => rfl)
  obtain ⟨h', F, hh', hF'⟩ := C147_listed _ ht []
  rw [hh] at hh'
  cases hh'
  obtain ⟨w, hw, hs, hi⟩ := hF F hF'
  rw [e] at hs
  refine ⟨h, F, w, hh, hF', hw, hs, fun hv => ?_⟩
  have := hi.1 hv (b!"X-Note", b!" a\nb") (by decide +kernel)
  rw [← C147_text] at this
  exact absurd this (by decide +kernel)

namespace Demo

/-- `type Pair struct { P [2]string `header:"x-pair"`; Q *int16 `header:"X-Q"` }` -/
def pairEnv : TyEnv := fun _ => [tripFld b!"P" b!"x-pair" (.array 2 .string), tripFld b!"Q" b!"X-Q" (.ptr (.int 16))]

/-- two texts, the second with a blank, and a nil pointer -/
def pairVal : Val := .struct [.slice [.string b!"a", .string b!"b "], .zero]

theorem pair_sendable : SendableOld pairEnv true b!"header" 3 (.struct 0) emptyField pairVal := by
  refine .inr ⟨by decide +kernel, .inr (by decide +kernel), trivial, rfl, ?_⟩
  intro i fd x h1 h2
  have hi : i = 0 ∨ i = 1 := by
    have : i < 2 := (List.getElem?_eq_some_iff.1 h1).1
    omega
  rcases hi with rfl | rfl <;> cases h1 <;> cases h2
  · refine .inr ⟨by decide +kernel, .inr ⟨by decide +kernel, rfl, by decide +kernel, by decide, trivial, .inr ⟨_, rfl, rfl⟩, ?_⟩⟩
    intro i hi
    have : i = 0 ∨ i = 1 := by omega
    rcases this with rfl | rfl <;> exact ⟨trivial, trivial, trivial⟩
  · exact .inr ⟨by decide +kernel, .inr ⟨by decide +kernel, .inl ⟨rfl, .inr (by decide +kernel)⟩⟩⟩

end Demo

open Demo in
/-- Beside the theorem for `Bind2`: an array and a nil pointer; the blank is lost. -/
theorem Demo.C147_exact2_demo :
    ∃ h F w, readMIMEHeader (wireHeader ([(b!"Host", b!"h")] ++ [(b!"X-PAIR", b!"a"), (b!"x-pair", b!"b ")] ++ []) ++ []) = .ok h [] ∧
      ListsHeader (serverHeader h) F ∧ bind2 bindO pairEnv 4 (fun _ => none) ⟨F, [], true⟩ b!"header" 0 .zero = (.ok, w) ∧
      SameVal pairEnv (.struct 0) (stripVal pairVal) w ∧ ¬ SameVal pairEnv (.struct 0) pairVal w := by
  have ht : TokenNames ([(b!"Host", b!"h")] ++ [(b!"X-PAIR", b!"a"), (b!"x-pair", b!"b ")] ++ []) := by unfold TokenNames; decide +kernel
  obtain ⟨h, hh, hF⟩ := C147_exact2_partial bindO pairEnv (Nat.le_refl 3) pair_sendable (by decide +kernel)
    (ls := [(b!"X-PAIR", b!"a"), (b!"x-pair", b!"b ")]) (before := [(b!"Host", b!"h")]) (after := []) (sameLines_check (by decide +kernel))
    (by
      intro l hl k hk hsame
      have : ∀ l ∈ [(b!"Host", b!"h")] ++ [], ∀ k ∈ namesOld pairEnv true b!"header" 3 (.struct 0) emptyField, canonKey l.1 ≠ canonKey k := by
        decide +kernel
      exact this l hl k hk (canonKey_eq.2 hsame))
    ht (by decide +kernel) [] (fun _ => none) (fun _ => rfl)
  obtain ⟨h', F, hh', hF'⟩ := C147_listed _ ht []
  rw [hh] at hh'
  cases hh'
  obtain ⟨w, hw, hs, hi⟩ := hF F hF'
  refine ⟨h, F, w, hh, hF', hw, hs, fun hv => ?_⟩
  have := hi.1 hv (b!"X-Pair", b!"b ") (by decide +kernel)
  rw [← C147_text] at this
  exact absurd this (by decide +kernel)

end Water
