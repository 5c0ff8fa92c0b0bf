import Verif.Props.Mapping
import Verif.Lemmas.Duration
/-
C102: fields of type `time.Duration`.
-/
namespace Water
open Spec

section
variable {o : BOracle} {E : TyEnv} {form : Form} {files : FormFiles} {tag : Str}

/-- C102 (partial: a number of nanoseconds): after a successful `Bind`, a field of type `time.Duration` for which a text was
submitted holds the number written, as nanoseconds. Missing: texts with a unit are refused (`C102_refuted`). -/
theorem C102_bind_partial {check : Target → Option Nat} {f n : Nat} {v v' : Val} {p : List Nat} {fd : Field} {x : Val} {s : Str} {ss : List Str}
    (hv : ∀ w, v ≠ .ptr w) (ho : Occurs E (Quiet form files tag) n v p fd x) (hp : Scalar fd)
    (hty : fd.ty = .duration) (hin : input form tag fd = some (s :: ss))
    (h : bindForm o E f check (.struct n v) form files tag = (.ok, .struct n v')) :
    ∃ i : Int, NumberOf s i ∧ FitsInt 64 i ∧ get v' p = .int i := by
  have hs := bound h hv ho hp (by rw [hty]; trivial)
  rw [hty] at hs
  generalize get v' p = y at hs
  cases hs with
  | quiet h => have := h.1; rw [hin] at this; cases this
  | value h1 _ h2 =>
    rw [hin] at h1
    cases h1
    cases h2 with
    | value _ h2 =>
      cases h2 with
      | duration h3 h4 => exact ⟨_, h3, h4, rfl⟩
      | json h => simp at h

/-- C102: after a successful `Bind2`, a field of type `time.Duration`, or pointers to it, for which a text was submitted holds
what `time.ParseDuration` reads in it. -/
theorem C102_bind2 {check : Val → Option Nat} {src : Source} {fuel n : Nat} {v v' : Val} {p : List Nat} {fd : Field} {x : Val} {s : Str}
    {ss : List Str} (h : bind2 o E fuel check src tag n v = (.ok, v')) (hv : HasTy E (.struct n) v) (hr : Reaches E src tag n v p fd x)
    (how : Own fd) (hty : bare fd.ty = .duration) (hin : given src tag fd = some (s :: ss)) :
    ∃ i : Int, o.duration s = some i ∧ under (reach v' p) = .int i := by
  obtain ⟨w, h1, h2⟩ := C72_ok h hv hr how (given_loud hin) (by rw [hty]; trivial)
  rw [hty] at h1
  cases takes_texts hin h1 with
  | one _ _ h3 =>
    cases h3 with
    | duration h4 => exact ⟨_, h4, h2⟩
    | json h => simp at h

/-- C102: which texts `time.ParseDuration` reads, and as what; every text as one duration at most. -/
theorem C102_texts (frac : Nat → Nat → Nat → Nat) (s : Str) :
    (∀ d, parseDuration frac s = some d ↔ DurationOf frac s d) ∧ ∀ d d', DurationOf frac s d → DurationOf frac s d' → d = d' := by
  refine ⟨parseDuration_iff frac s, fun d d' h h' => ?_⟩
  rw [← parseDuration_iff] at h h'
  rw [h] at h'
  exact Option.some.inj h'

/-- C102: after a successful `Bind2`, a field of type `time.Duration`, or pointers to it, holds the duration that its text denotes. -/
theorem C102_bind2_text {frac : Nat → Nat → Nat → Nat} (hd : o.duration = parseDuration frac) {check : Val → Option Nat} {src : Source}
    {fuel n : Nat} {v v' : Val} {p : List Nat} {fd : Field} {x : Val} {s : Str}
    {ss : List Str} (h : bind2 o E fuel check src tag n v = (.ok, v')) (hv : HasTy E (.struct n) v) (hr : Reaches E src tag n v p fd x)
    (how : Own fd) (hty : bare fd.ty = .duration) (hin : given src tag fd = some (s :: ss)) :
    ∃ i : Int, DurationOf frac s i ∧ under (reach v' p) = .int i := by
  obtain ⟨i, h1, h2⟩ := C102_bind2 h hv hr how hty hin
  rw [hd] at h1
  exact ⟨i, (parseDuration_iff frac s i).1 h1, h2⟩

/-- a text is read by both mappers only if it is a zero -/
theorem both_zero {frac : Nat → Nat → Nat → Nat} {s : Str} {i j : Int} (h1 : NumberOf s i) (h2 : DurationOf frac s j) :
    (s = b!"0" ∨ s = b!"+0" ∨ s = b!"-0") ∧ i = 0 ∧ j = 0 := by
  have digits : ∀ u w, (∀ c ∈ u, IsDigit c) → ¬ Amounts frac u w := by
    intro u w hu ha
    obtain ⟨c, hc, hx⟩ := amounts_unit ha
    exact ((unitByte_iff c).1 hx).2 (hu c hc)
  have start : ∀ c u w, (c = 43 ∨ c = 45) → ¬ Amounts frac (c :: u) w := by
    intro c u w hc ha
    obtain ⟨c', u', he, hx⟩ := amounts_head ha
    cases he
    rcases hc with rfl | rfl <;> cases hx
  cases h2 with
  | @zero sign hs =>
    simp only [List.mem_cons, List.not_mem_nil, or_false] at hs
    have hi : i = 0 := by
      rcases h1 with h1 | ⟨_, h1⟩
      · rw [signed_iff] at h1
        rw [h1.2]
        rcases hs with rfl | rfl | rfl <;> decide
      · exact h1
    rcases hs with rfl | rfl | rfl
    · exact ⟨.inl rfl, hi, rfl⟩
    · exact ⟨.inr (.inl rfl), hi, rfl⟩
    · exact ⟨.inr (.inr rfl), hi, rfl⟩
  | plain ha _ =>
    rcases h1 with h1 | ⟨rfl, _⟩
    · cases h1 with
      | plain hn => exact absurd ha (digits _ _ hn.2)
      | plus _ => exact absurd ha (start _ _ _ (.inl rfl))
      | minus _ => exact absurd ha (start _ _ _ (.inr rfl))
    · exact absurd ha (digits _ _ (by simp))
  | @plus u _ ha _ =>
    rcases h1 with h1 | ⟨h1, _⟩
    · have := (signed_iff.1 h1).1.2
      exact absurd ha (digits u _ this)
    · cases h1
  | @minus u _ ha _ =>
    rcases h1 with h1 | ⟨h1, _⟩
    · have := (signed_iff.1 h1).1.2
      exact absurd ha (digits u _ this)
    · cases h1

/-- C102: `Bind` and `Bind2` take the same text for a field of type `time.Duration` only if it is a zero: `0`, `+0` or `-0`. -/
theorem C102_common {frac : Nat → Nat → Nat → Nat} (hd : o.duration = parseDuration frac) {s : Str} {ss : List Str}
    {check : Target → Option Nat} {f n : Nat} {v v' : Val} {p : List Nat} {fd : Field} {x : Val}
    (hv : ∀ w, v ≠ .ptr w) (ho : Occurs E (Quiet form files tag) n v p fd x) (hp : Scalar fd)
    (hty : fd.ty = .duration) (hin : input form tag fd = some (s :: ss))
    (h : bindForm o E f check (.struct n v) form files tag = (.ok, .struct n v'))
    {E2 : TyEnv} {tag2 : Str} {check2 : Val → Option Nat} {src : Source} {fuel n2 : Nat} {v2 v2' : Val} {p2 : List Nat} {fd2 : Field} {x2 : Val} {ss2 : List Str}
    (h2 : bind2 o E2 fuel check2 src tag2 n2 v2 = (.ok, v2')) (hv2 : HasTy E2 (.struct n2) v2) (hr : Reaches E2 src tag2 n2 v2 p2 fd2 x2)
    (how : Own fd2) (hty2 : bare fd2.ty = .duration) (hin2 : given src tag2 fd2 = some (s :: ss2)) :
    (s = b!"0" ∨ s = b!"+0" ∨ s = b!"-0") ∧ get v' p = .int 0 ∧ under (reach v2' p2) = .int 0 := by
  obtain ⟨i, a1, _, a2⟩ := C102_bind_partial hv ho hp hty hin h
  obtain ⟨j, b1, b2⟩ := C102_bind2_text hd h2 hv2 hr how hty2 hin2
  obtain ⟨h3, rfl, rfl⟩ := both_zero a1 b1
  exact ⟨h3, a2, b2⟩

/-- C102: hours, minutes and seconds as `time.Duration.String` writes whole seconds of an hour or more. -/
theorem C102_clock (frac : Nat → Nat → Nat → Nat) (h m s : Nat) (hlt : 3600 * h + 60 * m + s ≤ 9223372036) :
    parseDuration frac (itoaNat h ++ b!"h" ++ (itoaNat m ++ b!"m" ++ (itoaNat s ++ b!"s"))) =
      some (((3600 * h + 60 * m + s) * 1000000000 : Nat) : Int) := by
  rw [parseDuration_iff]
  have hh := itoaNat_spec h
  have hm := itoaNat_spec m
  have hs := itoaNat_spec s
  have a1 : Amount frac (itoaNat h ++ b!"h") (value (itoaNat h) * 3600000000000) := .whole hh.1 (by decide)
  have a2 : Amount frac (itoaNat m ++ b!"m") (value (itoaNat m) * 60000000000) := .whole hm.1 (by decide)
  have a3 : Amount frac (itoaNat s ++ b!"s") (value (itoaNat s) * 1000000000) := .whole hs.1 (by decide)
  rw [hh.2] at a1
  rw [hm.2] at a2
  rw [hs.2] at a3
  have e : (3600 * h + 60 * m + s) * 1000000000 = h * 3600000000000 + (m * 60000000000 + s * 1000000000) := by omega
  rw [e]
  exact .plain (.more a1 (.more a2 (.one a3))) (by omega)

end

namespace Demo

/-- `type T struct { Wait time.Duration }` -/
def waitEnv : TyEnv := fun n => if n = 0 then [fld b!"Wait" b!"wait" .duration] else []

/-- the form `wait=...` -/
def waitForm (s : Str) : Form := [(b!"wait", [s])]

example : Occurs waitEnv (Quiet (waitForm b!"5") [] b!"form") 0 .zero [0] (fld b!"Wait" b!"wait" .duration) .zero := .here rfl rfl

/-- `Bind` takes a plain number, `Bind2` a number with a unit -/
example : (bindForm bindO waitEnv 3 (fun _ => none) (.struct 0 .zero) (waitForm b!"5") [] b!"form").1 = .ok ∧
    (bind2 bindO waitEnv 4 (fun _ => none) ⟨waitForm b!"1s", [], false⟩ b!"form" 0 .zero).1 = .ok := by decide +kernel

/-- the arithmetic of fractions, without `float64` -/
def exactFrac (f k unit : Nat) : Nat := f * unit / 10 ^ k

/-- reading with `time.ParseDuration` -/
def durO : BOracle := { bindO with duration := parseDuration exactFrac }

/-- texts of the documentation of `time.ParseDuration`, and others -/
example : parseDuration exactFrac b!"300ms" = some 300000000 ∧ parseDuration exactFrac b!"-1.5h" = some (-5400000000000) ∧
    parseDuration exactFrac b!"2h45m" = some 9900000000000 ∧ parseDuration exactFrac b!".5s" = some 500000000 ∧
    parseDuration exactFrac b!"1µs2μs" = some 3000 ∧ parseDuration exactFrac b!"+0" = some 0 ∧
    parseDuration exactFrac b!"9223372036854775807ns" = some 9223372036854775807 := by
  refine ⟨?_, ?_, ?_, ?_, ?_, ?_, ?_⟩ <;> decide +kernel

example : parseDuration exactFrac b!"" = none ∧ parseDuration exactFrac b!"5" = none ∧ parseDuration exactFrac b!".s" = none ∧
    parseDuration exactFrac b!"1d" = none ∧ parseDuration exactFrac b!"9223372036854775808ns" = none ∧
    parseDuration exactFrac b!"1 s" = none ∧ parseDuration exactFrac b!"00" = none := by
  refine ⟨?_, ?_, ?_, ?_, ?_, ?_, ?_⟩ <;> decide +kernel

/-- a zero is taken by both -/
example : (bindForm durO waitEnv 3 (fun _ => none) (.struct 0 .zero) (waitForm b!"-0") [] b!"form").1 = .ok ∧
    (bind2 durO waitEnv 4 (fun _ => none) ⟨waitForm b!"-0", [], false⟩ b!"form" 0 .zero).1 = .ok := by decide +kernel

/-- no text is 0 for `Bind` and an error for `Bind2` -/
example : (bindForm durO waitEnv 3 (fun _ => none) (.struct 0 .zero) (waitForm b!"") [] b!"form").1 = .ok ∧
    (bind2 durO waitEnv 4 (fun _ => none) ⟨waitForm b!"", [], false⟩ b!"form" 0 .zero).1 = .err .duration := by decide +kernel

end Demo

/-- C102 does not hold: the two mappers do not read the same texts. What is written with a unit is refused by `Bind`, and what
is written without is refused by `Bind2` if `time.ParseDuration` refuses it. -/
theorem C102_refuted (o : BOracle) (i : Int) (h1 : o.duration b!"1s" = some i) (h2 : o.duration b!"5" = none) :
    (∃ v, bind2 o Demo.waitEnv 4 (fun _ => none) ⟨Demo.waitForm b!"1s", [], false⟩ b!"form" 0 .zero = (.ok, v) ∧ reach v [0] = .int i) ∧
    (bindForm o Demo.waitEnv 3 (fun _ => none) (.struct 0 .zero) (Demo.waitForm b!"1s") [] b!"form").1 = .err (.value b!"wait" b!"1s") ∧
    (bindForm o Demo.waitEnv 3 (fun _ => none) (.struct 0 .zero) (Demo.waitForm b!"5") [] b!"form").1 = .ok ∧
    (bind2 o Demo.waitEnv 4 (fun _ => none) ⟨Demo.waitForm b!"5", [], false⟩ b!"form" 0 .zero).1 = .err .duration := by
  have key : ∀ s, setProper o (Demo.fld b!"Wait" b!"wait" .duration) .duration s .zero =
      match o.duration s with
      | none => (.err .duration, .zero)
      | some i => (.ok, .int i) := fun s => rfl
  have trip : ∀ s out w, setProper o (Demo.fld b!"Wait" b!"wait" .duration) .duration s .zero = (out, w) →
      bind2 o Demo.waitEnv 4 (fun _ => none) ⟨Demo.waitForm s, [], false⟩ b!"form" 0 .zero = (out, .struct [w]) := by
    intro s out w hw
    have e : mapping o Demo.waitEnv ⟨Demo.waitForm s, [], false⟩ b!"form" 2 .duration (Demo.fld b!"Wait" b!"wait" .duration) .zero =
        (out, true, w) := by
      show (match ((setProper o (Demo.fld b!"Wait" b!"wait" .duration) .duration s .zero).1, true,
          (setProper o (Demo.fld b!"Wait" b!"wait" .duration) .duration s .zero).2) with
        | (BOut.ok, false, x) => mapStruct _ _ _ x
        | r => r) = _
      rw [hw]
      cases out <;> rfl
    have hl : (walkAll o Demo.waitEnv ⟨Demo.waitForm s, [], false⟩ b!"form" 2 0 .zero).1 = out ∧
        (walkAll o Demo.waitEnv ⟨Demo.waitForm s, [], false⟩ b!"form" 2 0 .zero).2.2 = [w] := by
      unfold walkAll
      show (mapLoop _ [Demo.fld b!"Wait" b!"wait" .duration] [.zero]).1 = _ ∧ (mapLoop _ [Demo.fld b!"Wait" b!"wait" .duration] [.zero]).2.2 = _
      unfold mapLoop
      rw [if_neg (by decide), show (Demo.fld b!"Wait" b!"wait" .duration).ty = .duration from rfl, e]
      cases out <;> exact ⟨rfl, rfl⟩
    obtain ⟨b1, b2⟩ := bind2_eq (o := o) (E := Demo.waitEnv) (src := ⟨Demo.waitForm s, [], false⟩) (tag := b!"form") (fun _ => none) 2 0 .zero
    refine Prod.ext ?_ ?_
    · rw [b2, hl.1]; cases out <;> rfl
    · rw [b1, hl.2]
  refine ⟨⟨.struct [.int i], trip _ _ _ (by rw [key, h1]), rfl⟩, by rfl, by rfl, ?_⟩
  rw [trip _ _ _ (by rw [key, h2])]

/-- the same with `time.ParseDuration` as modelled, whatever the arithmetic of fractions -/
theorem C102_refuted_go (frac : Nat → Nat → Nat → Nat) (o : BOracle) (hd : o.duration = parseDuration frac) :
    (∃ v, bind2 o Demo.waitEnv 4 (fun _ => none) ⟨Demo.waitForm b!"1s", [], false⟩ b!"form" 0 .zero = (.ok, v) ∧
      reach v [0] = .int 1000000000) ∧
    (bindForm o Demo.waitEnv 3 (fun _ => none) (.struct 0 .zero) (Demo.waitForm b!"1s") [] b!"form").1 = .err (.value b!"wait" b!"1s") ∧
    (bindForm o Demo.waitEnv 3 (fun _ => none) (.struct 0 .zero) (Demo.waitForm b!"5") [] b!"form").1 = .ok ∧
    (bind2 o Demo.waitEnv 4 (fun _ => none) ⟨Demo.waitForm b!"5", [], false⟩ b!"form" 0 .zero).1 = .err .duration := by
  refine C102_refuted o _ ?_ ?_
  · rw [hd, parseDuration_iff]
    have ha : Amount frac (b!"1" ++ b!"s") (value b!"1" * 1000000000) := .whole (u := b!"s") ⟨by decide, by decide⟩ (by decide)
    exact .plain (.one ha) (by decide)
  · rw [hd]; rfl

end Water
