import Verif.Model.Duration
import Verif.Spec.Duration
import Verif.Lemmas.Strconv
import Verif.Lemmas.Util
/- `time.ParseDuration` reads exactly the durations. -/
namespace Water
open Spec

theorem digit_test {c : UInt8} : ¬ (c < 48 ∨ c > 57) ↔ IsDigit c := by
  unfold IsDigit
  rw [not_or, UInt8.not_lt, UInt8.not_lt]

/-- does not begin with a digit -/
def noDigit (r : Str) : Prop := ∀ c, r.head? = some c → ¬ IsDigit c

theorem noDigit_cons {c : UInt8} {r : Str} (h : noDigit (c :: r)) : ¬ IsDigit c := h c rfl

theorem value_from (s : Str) : value s = valueFrom 0 s := rfl

theorem leadingInt_stop {r : Str} (h : noDigit r) (x : Nat) : leadingInt x r = some (x, r) := by
  cases r with
  | nil => rfl
  | cons c r =>
    rw [leadingInt, if_pos (Classical.not_not.1 (fun hc => noDigit_cons h (digit_test.1 hc)))]

theorem leadingInt_digits : ∀ (i : Str) (x : Nat) (r : Str), (∀ c ∈ i, IsDigit c) → noDigit r → x ≤ maxInt64 →
    leadingInt x (i ++ r) = if valueFrom x i ≤ maxInt64 then some (valueFrom x i, r) else none := by
  intro i
  induction i with
  | nil => intro x r _ hr hx; rw [List.nil_append, leadingInt_stop hr, valueFrom_nil, if_pos hx]
  | cons c i ih =>
    intro x r hi hr hx
    have hc := hi c List.mem_cons_self
    have hb := digit_bounds hc
    have hge := valueFrom_ge i (10 * x + (c.toNat - 48))
    rw [List.cons_append, leadingInt, if_neg (digit_test.2 hc), valueFrom_cons]
    have e : x * 10 + (c.toNat - 48) = 10 * x + (c.toNat - 48) := by omega
    have hm : maxInt64 = 9223372036854775807 := rfl
    split
    · rw [if_neg]; omega
    · split
      · rw [if_neg]; omega
      · rw [ih _ r (fun d hd => hi d (List.mem_cons_of_mem _ hd)) hr (by omega), e]

theorem leadingFraction_stop {r : Str} (h : noDigit r) (x k : Nat) (b : Bool) : leadingFraction x k b r = (x, k, r) := by
  cases r with
  | nil => rfl
  | cons c r =>
    rw [leadingFraction, if_pos (Classical.not_not.1 (fun hc => noDigit_cons h (digit_test.1 hc)))]

theorem leadingFraction_over : ∀ (q : Str) (x k : Nat) (r : Str), (∀ c ∈ q, IsDigit c) → noDigit r →
    leadingFraction x k true (q ++ r) = (x, k, r) := by
  intro q
  induction q with
  | nil => intro x k r _ hr; exact leadingFraction_stop hr x k true
  | cons c q ih =>
    intro x k r hq hr
    rw [List.cons_append, leadingFraction, if_neg (digit_test.2 (hq c List.mem_cons_self)), if_pos rfl]
    exact ih x k r (fun d hd => hq d (List.mem_cons_of_mem _ hd)) hr

theorem leadingFraction_kept : ∀ (p : Str) (x k : Nat) (q r : Str), (∀ c ∈ p ++ q, IsDigit c) → noDigit r →
    valueFrom x p ≤ maxInt64 → (∀ c, q.head? = some c → maxInt64 < valueFrom x (p ++ [c])) →
    leadingFraction x k false (p ++ q ++ r) = (valueFrom x p, k + p.length, r) := by
  have hm : maxInt64 = 9223372036854775807 := rfl
  intro p
  induction p with
  | nil =>
    intro x k q r hd hr hx hq
    rw [List.nil_append]
    cases q with
    | nil => exact leadingFraction_stop hr x k false
    | cons c q =>
      have hc := hd c (by simp)
      have h1 := hq c rfl
      rw [List.nil_append, valueFrom_cons, valueFrom_nil] at h1
      have hq' : ∀ d ∈ q, IsDigit d := fun d h => hd d (by simp [h])
      rw [List.cons_append, leadingFraction, if_neg (digit_test.2 hc), if_neg (by simp)]
      split
      · exact leadingFraction_over q x k r hq' hr
      · rw [if_pos (by omega)]
        exact leadingFraction_over q x k r hq' hr
  | cons c p ih =>
    intro x k q r hd hr hx hq
    have hc := hd c (by simp)
    rw [valueFrom_cons] at hx
    have hge := valueFrom_ge p (10 * x + (c.toNat - 48))
    have e : x * 10 + (c.toNat - 48) = 10 * x + (c.toNat - 48) := by omega
    rw [List.cons_append, List.cons_append, leadingFraction, if_neg (digit_test.2 hc), if_neg (by simp), if_neg (by omega), if_neg (by omega), e,
      ih _ _ q r (fun d h => hd d (by simp at h ⊢; exact .inr h)) hr hx (fun d h => by
        have := hq d h
        rwa [List.cons_append, valueFrom_cons] at this), valueFrom_cons, List.length_cons]
    congr 2
    omega

theorem kept_exists (d : Str) : ∃ p, KeptDigits d p := by
  have key : ∀ (q p : Str), p ++ q = d → value p < 2 ^ 63 → ∃ p, KeptDigits d p := by
    intro q
    induction q with
    | nil =>
      intro p he hp
      rw [List.append_nil] at he
      subst he
      refine ⟨p, List.prefix_refl _, hp, fun c hc => ?_⟩
      have := hc.length_le
      simp at this
      omega
    | cons c q ih =>
      intro p he hp
      by_cases h : value (p ++ [c]) < 2 ^ 63
      · exact ih (p ++ [c]) (by rw [← he]; simp) h
      · refine ⟨p, ⟨c :: q, he⟩, hp, fun c' hc' => ?_⟩
        obtain ⟨q', hq'⟩ := hc'
        rw [← he, List.append_assoc] at hq'
        have := List.append_cancel_left hq'
        simp at this
        rw [this.1]
        omega
  exact key d [] rfl (by decide)

theorem leadingFraction_spec {d p r : Str} (hk : KeptDigits d p) (hd : ∀ c ∈ d, IsDigit c) (hr : noDigit r) :
    leadingFraction 0 0 false (d ++ r) = (value p, p.length, r) := by
  obtain ⟨⟨q, rfl⟩, h1, h2⟩ := hk
  have hm : maxInt64 = 9223372036854775807 := rfl
  rw [leadingFraction_kept p 0 0 q r hd hr (by rw [← value_from]; omega), Nat.zero_add, value_from]
  intro c hc
  have := h2 c (by
    cases q with
    | nil => cases hc
    | cons c' q => cases hc; exact ⟨q, by simp⟩)
  rw [← value_from]
  omega

/-! ### units -/

theorem unit_iff (u : Str) (n : Nat) : durationUnit u = some n ↔ (u, n) ∈ timeUnits := by
  constructor
  · intro h
    unfold durationUnit at h
    repeat' split at h
    all_goals cases h
    · subst_vars; decide
    · rename_i hu
      rcases hu with rfl | rfl | rfl <;> decide
    all_goals (subst_vars; decide)
  · intro h
    simp only [timeUnits, List.mem_cons, Prod.mk.injEq, List.not_mem_nil, or_false] at h
    rcases h with ⟨rfl, rfl⟩ | ⟨rfl, rfl⟩ | ⟨rfl, rfl⟩ | ⟨rfl, rfl⟩ | ⟨rfl, rfl⟩ | ⟨rfl, rfl⟩ | ⟨rfl, rfl⟩ | ⟨rfl, rfl⟩ <;> rfl

theorem unit_bytes {u : Str} {n : Nat} (h : (u, n) ∈ timeUnits) : u ≠ [] ∧ (∀ c ∈ u, unitByte c = true) ∧ 0 < n := by
  have key : ∀ x ∈ timeUnits, x.1 ≠ [] ∧ (∀ c ∈ x.1, unitByte c = true) ∧ 0 < x.2 := by decide +kernel
  exact key _ h

theorem unitByte_iff (c : UInt8) : unitByte c = true ↔ c ≠ 46 ∧ ¬ IsDigit c := by
  revert c
  refine all_bytes ?_
  decide +kernel

/-- begins with a digit or a point, or is empty -/
def startsAmount (r : Str) : Prop := ∀ c, r.head? = some c → unitByte c = false

theorem takeWhile_unit {u r : Str} (hu : ∀ c ∈ u, unitByte c = true) (hr : startsAmount r) :
    (u ++ r).takeWhile unitByte = u ∧ (u ++ r).dropWhile unitByte = r := by
  induction u with
  | nil =>
    cases r with
    | nil => exact ⟨rfl, rfl⟩
    | cons c r =>
      have := hr c rfl
      constructor
      · rw [List.nil_append, List.takeWhile_cons_of_neg (by simp [this])]
      · rw [List.nil_append, List.dropWhile_cons_of_neg (by simp [this])]
  | cons c u ih =>
    have hc := hu c List.mem_cons_self
    obtain ⟨h1, h2⟩ := ih (fun d hd => hu d (List.mem_cons_of_mem _ hd))
    constructor
    · rw [List.cons_append, List.takeWhile_cons_of_pos hc, h1]
    · rw [List.cons_append, List.dropWhile_cons_of_pos hc, h2]

/-! ### one amount -/

/-- what `durationPart` does behind the number -/
def amountTail (frac : Nat → Nat → Nat → Nat) (v f k : Nat) (s2 : Str) : Option (Nat × Str) :=
  let u := s2.takeWhile unitByte
  if u = [] then none
  else
    match durationUnit u with
    | none => none
    | some unit =>
      if v > maxInt64 / unit then none
      else
        let w := if f > 0 then v * unit + frac f k unit else v * unit
        if w > maxInt64 then none else some (w, s2.dropWhile unitByte)

theorem amountTail_iff {frac : Nat → Nat → Nat → Nat} {v f k : Nat} {s2 r : Str} {w : Nat} :
    amountTail frac v f k s2 = some (w, r) ↔ w ≤ maxInt64 ∧ startsAmount r ∧ ∃ u n, s2 = u ++ r ∧ (u, n) ∈ timeUnits ∧
      w = v * n + if f = 0 then 0 else frac f k n := by
  have hw : ∀ n, (if f > 0 then v * n + frac f k n else v * n) = v * n + if f = 0 then 0 else frac f k n := by
    intro n
    by_cases h : f = 0
    · rw [if_neg (by omega), if_pos h]; omega
    · rw [if_pos (by omega), if_neg h]
  constructor
  · intro h
    unfold amountTail at h
    dsimp only at h
    split at h
    · cases h
    rename_i hu
    split at h
    · cases h
    rename_i n hn
    rw [hw n] at h
    have hz : ∃ z, z = v * n + if f = 0 then 0 else frac f k n := ⟨_, rfl⟩
    obtain ⟨z, hz⟩ := hz
    rw [← hz] at h
    split at h
    · cases h
    split at h
    · cases h
    rename_i hle
    cases h
    refine ⟨by omega, ?_, _, n, (List.takeWhile_append_dropWhile).symm, (unit_iff _ _).1 hn, hz⟩
    intro c hc
    have := List.head?_dropWhile_not unitByte s2
    rw [hc] at this
    simpa using this
  · rintro ⟨h1, h2, u, n, rfl, h3, h4⟩
    obtain ⟨hu1, hu2, hn⟩ := unit_bytes h3
    obtain ⟨e1, e2⟩ := takeWhile_unit hu2 h2
    unfold amountTail
    dsimp only
    rw [e1, e2, if_neg hu1, (unit_iff u n).2 h3]
    dsimp only
    have h5 : v * n ≤ maxInt64 := by omega
    have h6 := (Nat.le_div_iff_mul_le hn).2 h5
    rw [hw n, ← h4, if_neg (Nat.not_lt.2 h6), if_neg (by omega)]

theorem durationPart_eq (frac : Nat → Nat → Nat → Nat) (i fr r : Str) (hi : ∀ c ∈ i, IsDigit c) (h : noDigit (fr ++ r)) :
    durationPart frac (i ++ (fr ++ r)) =
      if i = [] ∧ (fr ++ r).head? ≠ some 46 then none
      else if value i ≤ maxInt64 then
        let x := if (fr ++ r).head? = some 46 then leadingFraction 0 0 false (fr ++ r).tail else (0, 0, fr ++ r)
        if i = [] ∧ ¬ ((fr ++ r).head? = some 46 ∧ x.2.2.length ≠ (fr ++ r).tail.length) then none
        else amountTail frac (value i) x.1 x.2.1 x.2.2
      else none := by
  unfold durationPart
  have hhead : ((i ++ (fr ++ r)).head?.any (fun c => c == 46 || (decide (48 ≤ c) && decide (c ≤ 57))) = false) ↔
      (i = [] ∧ (fr ++ r).head? ≠ some 46) := by
    cases i with
    | nil =>
      rw [List.nil_append]
      cases hx : fr ++ r with
      | nil => simp
      | cons c u =>
        have hc : ¬ (48 ≤ c ∧ c ≤ 57) := h c (by rw [hx]; rfl)
        simp
        intro _ h48
        exact UInt8.not_le.1 (fun h57 => hc ⟨h48, h57⟩)
    | cons c i =>
      obtain ⟨h1, h2⟩ := hi c List.mem_cons_self
      simp [h1, h2]
  by_cases h0 : i = [] ∧ (fr ++ r).head? ≠ some 46
  · rw [if_pos (hhead.2 h0), if_pos h0]
  rw [if_neg (fun hc => h0 (hhead.1 hc)), if_neg h0, leadingInt_digits i 0 _ hi h (Nat.zero_le _), ← value_from]
  by_cases hv : value i ≤ maxInt64
  · rw [if_pos hv, if_pos hv]
    dsimp only
    have hpre : ¬ ((fr ++ r).length ≠ (i ++ (fr ++ r)).length) ↔ i = [] := by
      rw [List.length_append (as := i)]
      constructor
      · intro hx
        exact List.length_eq_zero_iff.1 (by omega)
      · rintro rfl; simp
    simp only [hpre]
    rfl
  · rw [if_neg hv, if_neg hv]

theorem noDigit_unit {u : Str} {n : Nat} (h : (u, n) ∈ timeUnits) (r : Str) : noDigit (u ++ r) ∧ (u ++ r).head? ≠ some 46 := by
  obtain ⟨h1, h2, _⟩ := unit_bytes h
  cases u with
  | nil => exact absurd rfl h1
  | cons c u =>
    have := (unitByte_iff c).1 (h2 c List.mem_cons_self)
    exact ⟨fun d hd => by cases hd; exact this.2, fun hd => this.1 (Option.some.inj hd)⟩

theorem split_digits (s : Str) : ∃ i r, s = i ++ r ∧ (∀ c ∈ i, IsDigit c) ∧ noDigit r := by
  induction s with
  | nil => exact ⟨[], [], rfl, by simp, fun c h => by cases h⟩
  | cons c s ih =>
    by_cases hc : IsDigit c
    · obtain ⟨i, r, rfl, h1, h2⟩ := ih
      exact ⟨c :: i, r, rfl, by simpa [hc] using h1, h2⟩
    · exact ⟨[], c :: s, rfl, by simp, fun d hd => by cases hd; exact hc⟩

theorem durationPart_iff (frac : Nat → Nat → Nat → Nat) (s r : Str) (v : Nat) :
    durationPart frac s = some (v, r) ↔ v ≤ maxInt64 ∧ startsAmount r ∧ ∃ t, s = t ++ r ∧ Amount frac t v := by
  constructor
  · intro h
    obtain ⟨i, q, rfl, hi, hq⟩ := split_digits s
    rw [← List.nil_append q, durationPart_eq frac i [] q hi hq, List.nil_append] at h
    split at h
    · cases h
    rename_i h0
    split at h
    · rename_i hv
      dsimp only at h
      by_cases hp : q.head? = some 46
      · rw [if_pos hp] at h
        obtain ⟨q', rfl⟩ : ∃ q', q = 46 :: q' := by
          cases q with
          | nil => cases hp
          | cons c q' => cases hp; exact ⟨q', rfl⟩
        rw [List.tail_cons] at h
        obtain ⟨d, q2, rfl, hd, hq2⟩ := split_digits q'
        obtain ⟨p, hk⟩ := kept_exists d
        rw [leadingFraction_spec hk hd hq2] at h
        dsimp only at h
        split at h
        · cases h
        rename_i hne
        obtain ⟨h1, h2, u, n, rfl, h3, h4⟩ := amountTail_iff.1 h
        refine ⟨h1, h2, i ++ [46] ++ d ++ u, by simp, ?_⟩
        rw [h4]
        refine .point hi hd ?_ hk h3
        by_cases hi0 : i = []
        · right
          rintro rfl
          exact hne ⟨hi0, by simp⟩
        · exact .inl hi0
      · rw [if_neg hp] at h
        dsimp only at h
        split at h
        · cases h
        obtain ⟨h1, h2, u, n, rfl, h3, h4⟩ := amountTail_iff.1 h
        refine ⟨h1, h2, i ++ u, by simp, ?_⟩
        rw [h4, if_pos rfl, Nat.add_zero]
        exact .whole ⟨fun h => h0 ⟨h, hp⟩, hi⟩ h3
    · cases h
  · rintro ⟨h1, h2, t, rfl, ha⟩
    cases ha with
    | @whole i u n hi hu =>
      obtain ⟨hnd, hnp⟩ := noDigit_unit hu r
      obtain ⟨_, _, hn⟩ := unit_bytes hu
      have hv : value i ≤ maxInt64 := Nat.le_trans (Nat.le_mul_of_pos_right _ hn) h1
      rw [List.append_assoc, durationPart_eq frac i u r hi.2 hnd, if_neg (fun h => hi.1 h.1), if_pos hv, if_neg hnp]
      dsimp only
      rw [if_neg (fun h => hi.1 h.1)]
      exact amountTail_iff.2 ⟨h1, h2, u, n, rfl, hu, by rw [if_pos rfl, Nat.add_zero]⟩
    | @point i d p u n hi hd hne hk hu =>
      obtain ⟨hnd, _⟩ := noDigit_unit hu r
      obtain ⟨_, _, hn⟩ := unit_bytes hu
      have hv : value i ≤ maxInt64 := Nat.le_trans (Nat.le_mul_of_pos_right _ hn) (by omega)
      have e : i ++ [46] ++ d ++ u ++ r = i ++ ((46 :: d) ++ (u ++ r)) := by simp
      rw [e, durationPart_eq frac i (46 :: d) (u ++ r) hi (fun c hc => by cases hc; decide), if_neg (fun h => h.2 rfl), if_pos hv]
      dsimp only
      rw [if_pos (show ((46 :: d) ++ (u ++ r)).head? = some 46 from rfl), List.cons_append, List.tail_cons, leadingFraction_spec hk hd hnd]
      dsimp only
      rw [if_neg]
      · exact amountTail_iff.2 ⟨h1, h2, u, n, rfl, hu, rfl⟩
      · rintro ⟨hi0, hx⟩
        refine hx ⟨rfl, ?_⟩
        rcases hne with h | h
        · exact absurd hi0 h
        · have : d.length ≠ 0 := fun h0 => h (List.length_eq_zero_iff.1 h0)
          rw [List.length_append (as := d)]
          omega

/-! ### amounts -/

theorem amount_head {frac : Nat → Nat → Nat → Nat} {t : Str} {v : Nat} (h : Amount frac t v) :
    ∃ c u, t = c :: u ∧ unitByte c = false := by
  have digit : ∀ c, IsDigit c → unitByte c = false := by
    intro c hc
    have := mt (unitByte_iff c).1 (fun h => h.2 hc)
    simpa using this
  cases h with
  | @whole i u n hi hu =>
    cases i with
    | nil => exact absurd rfl hi.1
    | cons c i => exact ⟨c, i ++ u, rfl, digit c (hi.2 c List.mem_cons_self)⟩
  | @point i d p u n hi hd hne hk hu =>
    cases i with
    | nil => exact ⟨46, d ++ u, by simp, by decide⟩
    | cons c i => exact ⟨c, _, rfl, digit c (hi c List.mem_cons_self)⟩

theorem amounts_head {frac : Nat → Nat → Nat → Nat} {t : Str} {v : Nat} (h : Amounts frac t v) :
    ∃ c u, t = c :: u ∧ unitByte c = false := by
  cases h with
  | one h => exact amount_head h
  | more h _ =>
    obtain ⟨c, u, rfl, hc⟩ := amount_head h
    exact ⟨c, _, rfl, hc⟩

theorem amount_unit {frac : Nat → Nat → Nat → Nat} {t : Str} {v : Nat} (h : Amount frac t v) : ∃ c ∈ t, unitByte c = true := by
  have key : ∀ (u : Str) (n : Nat) (a : Str), (u, n) ∈ timeUnits → ∃ c ∈ a ++ u, unitByte c = true := by
    intro u n a hu
    obtain ⟨h1, h2, _⟩ := unit_bytes hu
    obtain ⟨c, hc⟩ := List.exists_mem_of_ne_nil u h1
    exact ⟨c, List.mem_append_right _ hc, h2 c hc⟩
  cases h with
  | whole _ hu => exact key _ _ _ hu
  | point _ _ _ _ hu => exact key _ _ _ hu

theorem amounts_unit {frac : Nat → Nat → Nat → Nat} {t : Str} {v : Nat} (h : Amounts frac t v) : ∃ c ∈ t, unitByte c = true := by
  cases h with
  | one h => exact amount_unit h
  | more h _ =>
    obtain ⟨c, hc, h⟩ := amount_unit h
    exact ⟨c, List.mem_append_left _ hc, h⟩

theorem durationLoop_iff (frac : Nat → Nat → Nat → Nat) : ∀ (fuel d : Nat) (s : Str) (e : Nat), s.length ≤ fuel → s ≠ [] → d ≤ maxInt64 →
    (durationLoop frac fuel d s = some e ↔ ∃ w, Amounts frac s w ∧ d + w ≤ maxInt64 ∧ e = d + w) := by
  intro fuel
  induction fuel with
  | zero => intro d s e hf hs; exact absurd (List.length_eq_zero_iff.1 (by omega)) hs
  | succ fuel ih =>
    intro d s e hf hs hd
    obtain ⟨c, s, rfl⟩ : ∃ c u, s = c :: u := by
      cases s with
      | nil => exact absurd rfl hs
      | cons c u => exact ⟨c, u, rfl⟩
    rw [durationLoop]
    constructor
    · intro h
      split at h
      · cases h
      rename_i v r hp
      split at h
      · cases h
      rename_i hle
      obtain ⟨h1, h2, t, ht, ha⟩ := (durationPart_iff frac _ _ _).1 hp
      by_cases hr : r = []
      · subst hr
        rw [List.append_nil] at ht
        have hl : durationLoop frac fuel (d + v) [] = some (d + v) := by cases fuel <;> rfl
        rw [hl] at h
        cases h
        exact ⟨v, ht ▸ .one ha, by omega, rfl⟩
      · have hlen : r.length < (c :: s).length := by
          obtain ⟨c', u', rfl, _⟩ := amount_head ha
          rw [ht, List.length_append, List.length_cons]
          omega
        obtain ⟨w, hw1, hw2, hw3⟩ := (ih (d + v) r e (by simp at hlen hf; omega) hr (by omega)).1 h
        exact ⟨v + w, ht ▸ .more ha hw1, by omega, by omega⟩
    · rintro ⟨w, hw, hle, rfl⟩
      obtain ⟨t, r, v, ht, ha, hr⟩ : ∃ t r v, c :: s = t ++ r ∧ Amount frac t v ∧ ((r = [] ∧ w = v) ∨ ∃ w', Amounts frac r w' ∧ w = v + w') := by
        generalize c :: s = x at hw
        cases hw with
        | one ha => exact ⟨_, [], _, (List.append_nil _).symm, ha, .inl ⟨rfl, rfl⟩⟩
        | more ha hu => exact ⟨_, _, _, rfl, ha, .inr ⟨_, hu, rfl⟩⟩
      rcases hr with ⟨rfl, rfl⟩ | ⟨w', hu, rfl⟩
      · rw [(durationPart_iff frac (c :: s) [] w).2 ⟨by omega, fun c hc => (by cases hc), t, ht, ha⟩]
        dsimp only
        rw [if_neg (by omega)]
        cases fuel <;> rfl
      · obtain ⟨c', u', hcu, hc'⟩ := amounts_head hu
        have hlen : r.length < (c :: s).length := by
          obtain ⟨c', u', rfl, _⟩ := amount_head ha
          rw [ht, List.length_append, List.length_cons]
          omega
        rw [(durationPart_iff frac (c :: s) r v).2 ⟨by omega, fun x hx => (by rw [hcu] at hx; cases hx; exact hc'), t, ht, ha⟩]
        dsimp only
        rw [if_neg (by omega)]
        exact (ih (d + v) r _ (by simp at hlen hf; omega) (by rw [hcu]; simp) (by omega)).2 ⟨w', hu, by omega, by omega⟩

/-- `time.ParseDuration` in full. -/
theorem parseDuration_iff (frac : Nat → Nat → Nat → Nat) (s : Str) (d : Int) : parseDuration frac s = some d ↔ DurationOf frac s d := by
  have hm : maxInt64 = 2 ^ 63 - 1 := rfl
  -- behind the sign
  have body : ∀ (u : Str) (neg : Prop) [Decidable neg], (if u = b!"0" then some (0 : Int) else if u = [] then none
        else (durationLoop frac u.length 0 u).map (fun (d : Nat) => if neg then - (d : Int) else (d : Int))) = some d ↔
      (u = b!"0" ∧ d = 0) ∨ ∃ w, Amounts frac u w ∧ w < 2 ^ 63 ∧ d = if neg then - (w : Int) else w := by
    intro u neg _
    have hz : ∀ w, ¬ Amounts frac b!"0" w := by
      intro w hw
      obtain ⟨c, hc, h⟩ := amounts_unit hw
      rw [List.mem_singleton.1 hc] at h
      cases h
    by_cases h0 : u = b!"0"
    · rw [if_pos h0]
      constructor
      · intro h; exact .inl ⟨h0, (Option.some.inj h).symm⟩
      · rintro (⟨_, rfl⟩ | ⟨w, hw, _⟩)
        · rfl
        · exact absurd (h0 ▸ hw) (hz w)
    rw [if_neg h0]
    by_cases h1 : u = []
    · rw [if_pos h1]
      constructor
      · intro h; cases h
      · rintro (⟨h, _⟩ | ⟨w, hw, _⟩)
        · exact absurd h h0
        · obtain ⟨c, x, hc, _⟩ := amounts_head hw
          rw [h1] at hc; cases hc
    rw [if_neg h1, Option.map_eq_some_iff]
    constructor
    · rintro ⟨e, he, rfl⟩
      obtain ⟨w, hw1, hw2, rfl⟩ := (durationLoop_iff frac _ 0 u e (Nat.le_refl _) h1 (Nat.zero_le _)).1 he
      exact .inr ⟨w, hw1, by omega, by rw [Nat.zero_add]⟩
    · rintro (⟨h, _⟩ | ⟨w, hw1, hw2, rfl⟩)
      · exact absurd h h0
      · exact ⟨w, (durationLoop_iff frac _ 0 u w (Nat.le_refl _) h1 (Nat.zero_le _)).2 ⟨w, hw1, by omega, by omega⟩, rfl⟩
  unfold parseDuration
  dsimp only
  rw [body]
  constructor
  · intro h
    by_cases h45 : s.head? = some 45
    · obtain ⟨u, rfl⟩ : ∃ u, s = 45 :: u := by
        cases s with
        | nil => cases h45
        | cons c u => cases h45; exact ⟨u, rfl⟩
      rw [if_pos (.inl rfl), List.tail_cons] at h
      rcases h with ⟨rfl, rfl⟩ | ⟨w, h1, h2, rfl⟩
      · exact .zero (sign := b!"-") (by simp)
      · rw [if_pos (show (45 :: u : Str).head? = some 45 from rfl)]; exact .minus h1 h2
    by_cases h43 : s.head? = some 43
    · obtain ⟨u, rfl⟩ : ∃ u, s = 43 :: u := by
        cases s with
        | nil => cases h43
        | cons c u => cases h43; exact ⟨u, rfl⟩
      rw [if_pos (.inr rfl), List.tail_cons] at h
      rcases h with ⟨rfl, rfl⟩ | ⟨w, h1, h2, rfl⟩
      · exact .zero (sign := b!"+") (by simp)
      · rw [if_neg h45]; exact .plus h1 h2
    · rw [if_neg (not_or.2 ⟨h45, h43⟩)] at h
      rcases h with ⟨rfl, rfl⟩ | ⟨w, h1, h2, rfl⟩
      · exact .zero (sign := []) (by simp)
      · rw [if_neg h45]; exact .plain h1 h2
  · intro h
    cases h with
    | @zero sign hs =>
      left
      simp only [List.mem_cons, List.not_mem_nil, or_false] at hs
      rcases hs with rfl | rfl | rfl <;> exact ⟨rfl, rfl⟩
    | @plain _ w h1 h2 =>
      right
      obtain ⟨c, u, rfl, hc⟩ := amounts_head h1
      have e1 : ¬ (c :: u).head? = some 45 := by intro he; cases he; cases hc
      have e2 : ¬ (c :: u).head? = some 43 := by intro he; cases he; cases hc
      rw [if_neg (not_or.2 ⟨e1, e2⟩)]
      exact ⟨w, h1, h2, by rw [if_neg e1]⟩
    | plus h1 h2 => exact .inr ⟨_, h1, h2, rfl⟩
    | minus h1 h2 => exact .inr ⟨_, h1, h2, rfl⟩

end Water
