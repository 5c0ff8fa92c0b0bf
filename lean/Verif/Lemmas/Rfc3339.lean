import Verif.Lemmas.Calendar
import Verif.Lemmas.Duration
/- `time.Parse` with the layout of RFC 3339 reads exactly the texts of `Reads3339`. -/
namespace Water
open Spec

theorem timeDigit_iff (c : UInt8) : timeDigit c = true ↔ IsDigit c := by
  unfold timeDigit IsDigit
  simp

theorem digit_back : ∀ c : UInt8, timeDigit c = true → c = UInt8.ofNat (48 + (c.toNat - 48)) ∧ c.toNat - 48 < 10 := by
  refine all_bytes ?_
  decide +kernel

theorem digit_forth {n : Nat} (h : n < 10) : timeDigit (UInt8.ofNat (48 + n)) = true ∧ (UInt8.ofNat (48 + n)).toNat - 48 = n :=
  ⟨(timeDigit_iff _).2 (digit_isDigit h), by rw [digit_toNat h]; omega⟩

theorem two_pair {a b : UInt8} (ha : timeDigit a = true) (hb : timeDigit b = true) :
    [a, b] = two ((a.toNat - 48) * 10 + (b.toNat - 48)) ∧ (a.toNat - 48) * 10 + (b.toNat - 48) < 100 := by
  obtain ⟨a1, a2⟩ := digit_back a ha
  obtain ⟨b1, b2⟩ := digit_back b hb
  refine ⟨?_, by omega⟩
  unfold two
  have e1 : ((a.toNat - 48) * 10 + (b.toNat - 48)) / 10 % 10 = a.toNat - 48 := by omega
  have e2 : ((a.toNat - 48) * 10 + (b.toNat - 48)) % 10 = b.toNat - 48 := by omega
  rw [e1, e2, ← a1, ← b1]

theorem two_digits {n : Nat} (h : n < 100) : ∃ a b, two n = [a, b] ∧ timeDigit a = true ∧ timeDigit b = true ∧
    (a.toNat - 48) * 10 + (b.toNat - 48) = n := by
  obtain ⟨h1, h2⟩ := digit_forth (n := n / 10 % 10) (by omega)
  obtain ⟨h3, h4⟩ := digit_forth (n := n % 10) (by omega)
  exact ⟨_, _, rfl, h1, h3, by omega⟩

theorem skipByte_iff {c : UInt8} {s r : Str} : skipByte c s = some r ↔ s = c :: r := by
  unfold skipByte
  cases s with
  | nil => simp
  | cons d s => simp

theorem getnum_true {s r : Str} {n : Nat} : getnum true s = some (n, r) ↔ n < 100 ∧ s = two n ++ r := by
  constructor
  · intro h
    match s with
    | [] => cases h
    | [a] => rw [getnum, if_neg (by simp)] at h; cases h
    | a :: b :: s =>
      rw [getnum] at h
      by_cases ha : timeDigit a = true
      · by_cases hb : timeDigit b = true
        · rw [if_neg (by simp [ha]), if_neg (by simp [hb])] at h
          cases h
          obtain ⟨h1, h2⟩ := two_pair ha hb
          exact ⟨h2, by rw [← h1]; rfl⟩
        · rw [if_neg (by simp [ha]), if_pos (by simpa using hb), if_pos rfl] at h; cases h
      · rw [if_pos (by simpa using ha)] at h; cases h
  · rintro ⟨h, rfl⟩
    obtain ⟨a, b, e, ha, hb, hn⟩ := two_digits h
    rw [e]
    show getnum true (a :: b :: r) = _
    rw [getnum, if_neg (by simp [ha]), if_neg (by simp [hb]), hn]

theorem getnum_false {s r : Str} {n : Nat} : getnum false s = some (n, r) ↔
    (n < 100 ∧ s = two n ++ r) ∨ (n < 10 ∧ s = UInt8.ofNat (48 + n) :: r ∧ noDigit r) := by
  constructor
  · intro h
    match s with
    | [] => cases h
    | [a] =>
      rw [getnum] at h
      by_cases ha : timeDigit a = true
      · rw [if_pos (by simp [ha])] at h
        cases h
        obtain ⟨h1, h2⟩ := digit_back a ha
        exact .inr ⟨h2, by rw [← h1], fun c hc => by cases hc⟩
      · rw [if_neg (by simp [ha])] at h; cases h
    | a :: b :: s =>
      rw [getnum] at h
      by_cases ha : timeDigit a = true
      · by_cases hb : timeDigit b = true
        · rw [if_neg (by simp [ha]), if_neg (by simp [hb])] at h
          cases h
          obtain ⟨h1, h2⟩ := two_pair ha hb
          exact .inl ⟨h2, by rw [← h1]; rfl⟩
        · rw [if_neg (by simp [ha]), if_pos (by simpa using hb), if_neg (by simp)] at h
          cases h
          obtain ⟨h1, h2⟩ := digit_back a ha
          exact .inr ⟨h2, by rw [← h1], fun c hc => by cases hc; exact fun hd => hb ((timeDigit_iff b).2 hd)⟩
      · rw [if_pos (by simpa using ha)] at h; cases h
  · rintro (⟨h, rfl⟩ | ⟨h, rfl, hr⟩)
    · obtain ⟨a, b, e, ha, hb, hn⟩ := two_digits h
      rw [e]
      show getnum false (a :: b :: r) = _
      rw [getnum, if_neg (by simp [ha]), if_neg (by simp [hb]), hn]
    · obtain ⟨h1, h2⟩ := digit_forth h
      cases r with
      | nil => rw [getnum, h1, h2]; rfl
      | cons b r =>
        have hb : ¬ timeDigit b = true := fun hd => hr b rfl ((timeDigit_iff b).1 hd)
        rw [getnum, h1, if_neg (by simp), if_pos (by simpa using hb), if_neg (by simp), h2]

/-! ### `time.atoi` -/

theorem leadingInt_all {s : Str} {q : Nat} : leadingInt 0 s = some (q, []) ↔ (∀ c ∈ s, IsDigit c) ∧ value s ≤ maxInt64 ∧ q = value s := by
  constructor
  · intro h
    obtain ⟨i, r, rfl, hi, hr⟩ := split_digits s
    rw [leadingInt_digits i 0 r hi hr (Nat.zero_le _)] at h
    split at h
    · cases h
      rw [List.append_nil]
      exact ⟨hi, by rwa [value_from], rfl⟩
    · cases h
  · rintro ⟨h1, h2, rfl⟩
    have := leadingInt_digits s 0 [] h1 (fun c h => by cases h) (Nat.zero_le _)
    rw [List.append_nil] at this
    rw [this, ← value_from, if_pos h2]

theorem timeAtoi_digits {s : Str} (h : s.head? ≠ some 45 ∧ s.head? ≠ some 43) {v : Int} :
    timeAtoi s = some v ↔ (∀ c ∈ s, IsDigit c) ∧ value s ≤ maxInt64 ∧ v = value s := by
  unfold timeAtoi
  rw [if_neg (not_or.2 h)]
  constructor
  · intro hx
    split at hx
    · rename_i q hq
      obtain ⟨h1, h2, rfl⟩ := leadingInt_all.1 hq
      rw [if_neg h.1] at hx
      cases hx
      exact ⟨h1, h2, rfl⟩
    · cases hx
  · rintro ⟨h1, h2, rfl⟩
    rw [leadingInt_all.2 ⟨h1, h2, rfl⟩]
    dsimp only
    rw [if_neg h.1]

theorem timeAtoi_signed {c : UInt8} (hc : c = 45 ∨ c = 43) {s : Str} {v : Int} :
    timeAtoi (c :: s) = some v ↔ (∀ d ∈ s, IsDigit d) ∧ value s ≤ maxInt64 ∧ v = if c = 45 then - (value s : Int) else (value s : Int) := by
  unfold timeAtoi
  have h1 : (c :: s).head? = some 45 ∨ (c :: s).head? = some 43 := by
    rcases hc with rfl | rfl
    · exact .inl rfl
    · exact .inr rfl
  have h2 : ((c :: s).head? = some 45) ↔ c = 45 := by simp
  rw [if_pos h1, List.tail_cons]
  simp only [h2]
  constructor
  · intro hx
    split at hx
    · rename_i q hq
      obtain ⟨g1, g2, rfl⟩ := leadingInt_all.1 hq
      cases hx
      exact ⟨g1, g2, rfl⟩
    · cases hx
  · rintro ⟨g1, g2, rfl⟩
    rw [leadingInt_all.2 ⟨g1, g2, rfl⟩]

theorem value_two {n : Nat} (h : n < 100) : value (two n) = n := by
  obtain ⟨a, b, e, ha, hb, hn⟩ := two_digits h
  rw [e]
  show 10 * (10 * 0 + (a.toNat - 48)) + (b.toNat - 48) = n
  omega

theorem two_all {n : Nat} (h : n < 100) : ∀ c ∈ two n, IsDigit c := by
  obtain ⟨a, b, e, ha, hb, _⟩ := two_digits h
  rw [e]
  intro c hc
  simp only [List.mem_cons, List.not_mem_nil, or_false] at hc
  rcases hc with rfl | rfl
  · exact (timeDigit_iff _).1 ha
  · exact (timeDigit_iff _).1 hb

theorem digit_head {c : UInt8} (h : IsDigit c) : c ≠ 45 ∧ c ≠ 43 ∧ c ≠ 46 ∧ c ≠ 90 := by
  have : ∀ c : UInt8, IsDigit c → c ≠ 45 ∧ c ≠ 43 ∧ c ≠ 46 ∧ c ≠ 90 := by
    unfold IsDigit
    refine all_bytes ?_
    decide +kernel
  exact this c h

theorem value_one {n : Nat} (h : n < 10) : value [UInt8.ofNat (48 + n)] = n := by
  have := (digit_forth h).2
  show 10 * 0 + ((UInt8.ofNat (48 + n)).toNat - 48) = n
  omega

theorem twoChars_iff {a b : UInt8} {v : Int} : timeAtoi [a, b] = some v ↔ TwoChars [a, b] v := by
  have hmax : ∀ u : Str, u.length ≤ 2 → (∀ c ∈ u, IsDigit c) → value u ≤ maxInt64 := by
    intro u hu hd
    have h1 := value_lt hd
    have h2 : 10 ^ u.length ≤ 10 ^ 2 := Nat.pow_le_pow_right (by decide) hu
    have : maxInt64 = 9223372036854775807 := rfl
    omega
  by_cases hs : a = 45 ∨ a = 43
  · rw [timeAtoi_signed hs]
    constructor
    · rintro ⟨h1, _, rfl⟩
      have hb := h1 b (by simp)
      obtain ⟨e1, e2⟩ := digit_back b ((timeDigit_iff b).2 hb)
      have ev : value [b] = b.toNat - 48 := by show 10 * 0 + _ = _; omega
      rcases hs with rfl | rfl
      · rw [if_pos rfl, ev, e1]
        have := TwoChars.minus e2
        rw [← e1] at this ⊢
        exact this
      · rw [if_neg (by decide), ev]
        have := TwoChars.plus e2
        rw [← e1] at this
        exact this
    · intro h
      generalize hx : [a, b] = x at h
      cases h with
      | digits hn =>
        obtain ⟨a', b', e, ha, _, _⟩ := two_digits hn
        rw [e] at hx
        cases hx
        have := digit_head ((timeDigit_iff a).1 ha)
        rcases hs with rfl | rfl
        · exact absurd rfl this.1
        · exact absurd rfl this.2.1
      | plus hn =>
        cases hx
        obtain ⟨h1, h2⟩ := digit_forth hn
        have hd : ∀ c ∈ [UInt8.ofNat (48 + _)], IsDigit c := fun c hc => by rw [List.mem_singleton.1 hc]; exact (timeDigit_iff _).1 h1
        refine ⟨hd, hmax _ (by simp) hd, ?_⟩
        rw [if_neg (by decide)]
        rw [value_one hn]
      | minus hn =>
        cases hx
        obtain ⟨h1, h2⟩ := digit_forth hn
        have hd : ∀ c ∈ [UInt8.ofNat (48 + _)], IsDigit c := fun c hc => by rw [List.mem_singleton.1 hc]; exact (timeDigit_iff _).1 h1
        refine ⟨hd, hmax _ (by simp) hd, ?_⟩
        rw [if_pos rfl]
        rw [value_one hn]
  · rw [timeAtoi_digits (by simp only [List.head?_cons, ne_eq, Option.some.injEq]; exact not_or.1 hs)]
    constructor
    · rintro ⟨h1, _, rfl⟩
      obtain ⟨e, hlt⟩ := two_pair ((timeDigit_iff a).2 (h1 a (by simp))) ((timeDigit_iff b).2 (h1 b (by simp)))
      have ev : value [a, b] = (a.toNat - 48) * 10 + (b.toNat - 48) := by
        show 10 * (10 * 0 + (a.toNat - 48)) + (b.toNat - 48) = _; omega
      rw [ev, e]
      exact .digits hlt
    · intro h
      generalize hx : [a, b] = x at h
      cases h with
      | digits hn => exact ⟨two_all hn, hmax _ (by simp [two]) (two_all hn), by rw [value_two hn]⟩
      | plus hn => cases hx; exact absurd (.inr rfl) hs
      | minus hn => cases hx; exact absurd (.inl rfl) hs

theorem twoChars_length {a : Str} {v : Int} (h : TwoChars a v) : a.length = 2 := by cases h <;> rfl

/-! ### year -/

theorem year_iff {s : Str} {y : Int} : (¬ (s.length < 4 ∨ s.head?.any timeDigit = false) ∧ timeAtoi (s.take 4) = some y) ↔
    ∃ n r, n < 10000 ∧ s = four n ++ r ∧ y = n := by
  constructor
  · rintro ⟨h1, h2⟩
    match s with
    | [] => simp at h1
    | [_] => simp at h1
    | [_, _] => simp at h1
    | [_, _, _] => simp at h1
    | a :: b :: c :: d :: r =>
      have ha : timeDigit a = true := by simpa using h1
      have hh := digit_head ((timeDigit_iff a).1 ha)
      have hd := (timeAtoi_digits (s := [a, b, c, d]) ⟨fun h => hh.1 (Option.some.inj h), fun h => hh.2.1 (Option.some.inj h)⟩).1 h2
      obtain ⟨g1, _, rfl⟩ := hd
      obtain ⟨e1, l1⟩ := two_pair ha ((timeDigit_iff b).2 (g1 b (by simp)))
      obtain ⟨e2, l2⟩ := two_pair ((timeDigit_iff c).2 (g1 c (by simp))) ((timeDigit_iff d).2 (g1 d (by simp)))
      generalize hx : (a.toNat - 48) * 10 + (b.toNat - 48) = x at e1 l1
      generalize hy : (c.toNat - 48) * 10 + (d.toNat - 48) = y at e2 l2
      refine ⟨x * 100 + y, r, by omega, ?_, ?_⟩
      · have t1 : two ((x * 100 + y) / 100) = two x := by congr 1; omega
        have t2 : two (x * 100 + y) = two y := by
          unfold two
          have a1 : (x * 100 + y) / 10 % 10 = y / 10 % 10 := by omega
          have a2 : (x * 100 + y) % 10 = y % 10 := by omega
          rw [a1, a2]
        unfold four
        rw [t1, t2, ← e1, ← e2]
        rfl
      · have : value [a, b, c, d] = x * 100 + y := by
          show 10 * (10 * (10 * (10 * 0 + (a.toNat - 48)) + (b.toNat - 48)) + (c.toNat - 48)) + (d.toNat - 48) = _
          omega
        rw [this]
  · rintro ⟨n, r, hn, rfl, rfl⟩
    obtain ⟨a, b, e1, ha, hb, hx⟩ := two_digits (n := n / 100) (by omega)
    obtain ⟨c, d, e2, hc, hd, hy⟩ := two_digits (n := n % 100) (by omega)
    have e3 : two n = two (n % 100) := by
      unfold two
      have a1 : n / 10 % 10 = n % 100 / 10 % 10 := by omega
      have a2 : n % 10 = n % 100 % 10 := by omega
      rw [a1, a2]
    have e : four n ++ r = a :: b :: c :: d :: r := by unfold four; rw [e3, e1, e2]; rfl
    rw [e]
    have hh := digit_head ((timeDigit_iff a).1 ha)
    refine ⟨by simp [ha], (timeAtoi_digits (s := [a, b, c, d]) ⟨fun h => hh.1 (Option.some.inj h), fun h => hh.2.1 (Option.some.inj h)⟩).2 ?_⟩
    have hval : value [a, b, c, d] = n := by
      show 10 * (10 * (10 * (10 * 0 + (a.toNat - 48)) + (b.toNat - 48)) + (c.toNat - 48)) + (d.toNat - 48) = _
      omega
    refine ⟨?_, ?_, by rw [hval]⟩
    · intro x hx
      simp only [List.mem_cons, List.not_mem_nil, or_false] at hx
      rcases hx with rfl | rfl | rfl | rfl <;> exact (timeDigit_iff _).1 (by assumption)
    · rw [hval]
      have : maxInt64 = 9223372036854775807 := rfl
      omega

theorem four_length (n : Nat) : (four n).length = 4 := rfl

/-! ### fraction -/

theorem takeWhile_digits {ds r : Str} (h : ∀ c ∈ ds, IsDigit c) (hr : noDigit r) :
    (ds ++ r).takeWhile timeDigit = ds ∧ (ds ++ r).dropWhile timeDigit = r := by
  induction ds with
  | nil =>
    cases r with
    | nil => exact ⟨rfl, rfl⟩
    | cons c r =>
      have : ¬ timeDigit c = true := fun hc => hr c rfl ((timeDigit_iff c).1 hc)
      constructor
      · rw [List.nil_append, List.takeWhile_cons_of_neg this]
      · rw [List.nil_append, List.dropWhile_cons_of_neg this]
  | cons c ds ih =>
    have hc := (timeDigit_iff c).2 (h c List.mem_cons_self)
    obtain ⟨h1, h2⟩ := ih (fun d hd => h d (List.mem_cons_of_mem _ hd))
    constructor
    · rw [List.cons_append, List.takeWhile_cons_of_pos hc, h1]
    · rw [List.cons_append, List.dropWhile_cons_of_pos hc, h2]

theorem fraction_iff {fr : Str} {ns : Nat} : (Fraction fr ns ∨ LongFraction fr ns) ↔
    (fr = [] ∧ ns = 0) ∨ ∃ ds, Numeral ds ∧ fr = 46 :: ds ∧ value ds < 10 ^ 9 ∧ ns = value ds * 10 ^ (9 - ds.length) := by
  constructor
  · rintro (h | h)
    · cases h with
      | none => exact .inl ⟨rfl, rfl⟩
      | @some ds h1 h2 =>
        refine .inr ⟨ds, h1, rfl, ?_, rfl⟩
        exact Nat.lt_of_lt_of_le (value_lt h1.2) (Nat.pow_le_pow_right (by decide) h2)
    · cases h with
      | mk h1 h2 h3 =>
        refine .inr ⟨_, h1, rfl, h3, ?_⟩
        have : 9 - _ = 0 := Nat.sub_eq_zero_of_le (Nat.le_of_succ_le h2)
        rw [this, Nat.pow_zero, Nat.mul_one]
  · rintro (⟨rfl, rfl⟩ | ⟨ds, h1, rfl, h2, rfl⟩)
    · exact .inl .none
    · by_cases h : ds.length ≤ 9
      · exact .inl (.some h1 h)
      · right
        have : 9 - ds.length = 0 := by omega
        rw [this, Nat.pow_zero, Nat.mul_one]
        exact .mk h1 (by omega) h2

theorem timeFraction_iff {s r : Str} {ns : Nat} (hr : noDigit r ∧ r.head? ≠ some 46) :
    timeFraction s = some (ns, r) ↔ ∃ fr, s = fr ++ r ∧ (Fraction fr ns ∨ LongFraction fr ns) := by
  have hm : maxInt64 = 9223372036854775807 := rfl
  constructor
  · intro h
    unfold timeFraction at h
    split at h
    · rename_i hc
      obtain ⟨s', rfl⟩ : ∃ s', s = 46 :: s' := by
        cases s with
        | nil => simp at hc
        | cons c s' => exact ⟨s', by simp at hc; rw [hc.1]⟩
      rw [List.tail_cons] at h
      obtain ⟨ds, q, rfl, hd, hq⟩ := split_digits s'
      obtain ⟨e1, e2⟩ := takeWhile_digits hd hq
      rw [e1, e2] at h
      dsimp only at h
      split at h
      · cases h
      rename_i v hv
      split at h
      · cases h
      rename_i hr2
      cases h
      have hne : ds ≠ [] := by
        rintro rfl
        have := hc.2
        rw [List.nil_append] at this
        cases r with
        | nil => simp at this
        | cons c r => exact hq c rfl ((timeDigit_iff c).1 (by simpa using this))
      have hhead : ds.head? ≠ some 45 ∧ ds.head? ≠ some 43 := by
        cases ds with
        | nil => exact absurd rfl hne
        | cons c ds =>
          have := digit_head (hd c (by simp))
          exact ⟨fun h => this.1 (Option.some.inj h), fun h => this.2.1 (Option.some.inj h)⟩
      obtain ⟨_, _, rfl⟩ := (timeAtoi_digits hhead).1 hv
      refine ⟨46 :: ds, by simp, fraction_iff.2 (.inr ⟨ds, ⟨hne, hd⟩, rfl, by omega, ?_⟩)⟩
      rw [Int.toNat_natCast]
    · cases h
      exact ⟨[], rfl, .inl .none⟩
  · rintro ⟨fr, rfl, h⟩
    rcases fraction_iff.1 h with ⟨rfl, rfl⟩ | ⟨ds, h1, rfl, h2, rfl⟩
    · unfold timeFraction
      rw [List.nil_append, if_neg (fun hc => hr.2 hc.1)]
    · obtain ⟨e1, e2⟩ := takeWhile_digits h1.2 hr.1
      have hhead : ds.head? ≠ some 45 ∧ ds.head? ≠ some 43 := by
        cases ds with
        | nil => exact absurd rfl h1.1
        | cons c ds =>
          have := digit_head (h1.2 c (by simp))
          exact ⟨fun h => this.1 (Option.some.inj h), fun h => this.2.1 (Option.some.inj h)⟩
      have hv := (timeAtoi_digits hhead (v := (value ds : Int))).2 ⟨h1.2, by omega, rfl⟩
      unfold timeFraction
      rw [if_pos, List.cons_append, List.tail_cons, e1, e2]
      · dsimp only
        rw [hv]
        dsimp only
        rw [if_neg (by omega), Int.toNat_natCast]
      · refine ⟨rfl, ?_⟩
        cases ds with
        | nil => exact absurd rfl h1.1
        | cons c ds => simpa using (timeDigit_iff c).2 (h1.2 c (by simp))

/-! ### offset -/

theorem timeZone_iff {s : Str} {o : Int} : timeZone s = some (o, []) ↔ AnyOffset s o := by
  constructor
  · intro h
    unfold timeZone at h
    split at h
    · rename_i hz
      have h' := Option.some.inj h
      cases s with
      | nil => cases hz
      | cons c s =>
        cases hz
        rw [List.tail_cons] at h'
        cases h'
        exact .utc
    split at h
    · cases h
    rename_i hl
    split at h
    · cases h
    rename_i h3
    match s with
    | [] | [_] | [_, _] | [_, _, _] | [_, _, _, _] | [_, _, _, _, _] => simp at hl
    | c :: a :: b :: d :: e :: f :: r =>
      have hd : d = 58 := by simpa using h3
      subst hd
      simp only [List.drop_succ_cons, List.drop_zero, List.take_succ_cons, List.take_zero] at h
      split at h
      · rename_i hr mm h1 h2
        have t1 := twoChars_iff.1 h1
        have t2 := twoChars_iff.1 h2
        split at h
        · rename_i hs
          cases h
          have hc : c = 43 := Option.some.inj hs
          subst hc
          exact .east t1 t2
        · split at h
          · rename_i hs
            cases h
            have hc : c = 45 := Option.some.inj hs
            subst hc
            exact .west t1 t2
          · cases h
      · cases h
  · intro h
    have pair : ∀ {a : Str} {v : Int}, TwoChars a v → ∃ x y, a = [x, y] ∧ timeAtoi [x, y] = some v := by
      intro a v h
      have hl := twoChars_length h
      match a, hl with
      | [x, y], _ => exact ⟨x, y, rfl, twoChars_iff.2 h⟩
    cases h with
    | utc => rfl
    | east t1 t2 =>
      obtain ⟨x, y, rfl, h1⟩ := pair t1
      obtain ⟨z, w, rfl, h2⟩ := pair t2
      show timeZone [43, x, y, 58, z, w] = _
      unfold timeZone
      rw [if_neg (by simp), if_neg (by simp), if_neg (by simp)]
      simp only [List.drop_succ_cons, List.drop_zero, List.take_succ_cons, List.take_zero, h1, h2]
      rfl
    | west t1 t2 =>
      obtain ⟨x, y, rfl, h1⟩ := pair t1
      obtain ⟨z, w, rfl, h2⟩ := pair t2
      show timeZone [45, x, y, 58, z, w] = _
      unfold timeZone
      rw [if_neg (by simp), if_neg (by simp), if_neg (by simp)]
      simp only [List.drop_succ_cons, List.drop_zero, List.take_succ_cons, List.take_zero, h1, h2]
      rfl

theorem offset_any {z : Str} {o : Int} (ho : Offset z o) : AnyOffset z o := by
  cases ho with
  | utc => exact .utc
  | @east h m h1 h2 =>
    have := AnyOffset.east (.digits (n := h) (by omega)) (.digits (n := m) (by omega))
    simpa using this
  | @west h m h1 h2 =>
    have := AnyOffset.west (.digits (n := h) (by omega)) (.digits (n := m) (by omega))
    simpa using this

theorem offset_head {z : Str} {o : Int} (h : AnyOffset z o) : noDigit z ∧ z.head? ≠ some 46 := by
  cases h with
  | utc => exact ⟨fun c hc => by cases hc; decide, by decide⟩
  | east _ _ => exact ⟨fun c hc => by cases hc; decide, fun h => absurd (Option.some.inj h) (by decide)⟩
  | west _ _ => exact ⟨fun c hc => by cases hc; decide, fun h => absurd (Option.some.inj h) (by decide)⟩

/-! ### the whole -/

/-- the steps of `parse3339` -/
theorem parse_steps {s : Str} {u : Int} {ns : Nat} : parse3339 s = some (u, ns) ↔
    ∃ year s1 month s2 s3 day s4 s5 hour s6 s7 min s8 s9 sec s10 s11 offset,
      (¬ (s.length < 4 ∨ s.head?.any timeDigit = false) ∧ timeAtoi (s.take 4) = some year) ∧ skipByte 45 (s.drop 4) = some s1 ∧
      getnum true s1 = some (month, s2) ∧ ¬ (month = 0 ∨ 12 < month) ∧ skipByte 45 s2 = some s3 ∧ getnum true s3 = some (day, s4) ∧
      skipByte 84 s4 = some s5 ∧ getnum false s5 = some (hour, s6) ∧ ¬ 24 ≤ hour ∧ skipByte 58 s6 = some s7 ∧ getnum true s7 = some (min, s8) ∧
      ¬ 60 ≤ min ∧ skipByte 58 s8 = some s9 ∧ getnum true s9 = some (sec, s10) ∧ ¬ 60 ≤ sec ∧ timeFraction s10 = some (ns, s11) ∧
      timeZone s11 = some (offset, []) ∧ ¬ (day < 1 ∨ daysIn month year.toNat < day) ∧
      u = unixDate year.toNat month day hour min sec - offset := by
  unfold parse3339
  simp only [Option.bind_eq_some_iff, Option.ite_none_left_eq_some, Prod.exists]
  constructor
  · rintro ⟨h0, year, hy, s1, e1, month, s2, e2, hm, s3, e3, day, s4, e4, s5, e5, hour, s6, e6, hh, s7, e7, min, s8, e8, hmin, s9, e9, sec, s10,
      e10, hs, nsec, s11, e11, offset, s12, e12, he, hd, hu⟩
    have he' : s12 = [] := Decidable.not_not.1 he
    subst he'
    have hu' := Option.some.inj hu
    cases hu'
    exact ⟨year, s1, month, s2, s3, day, s4, s5, hour, s6, s7, min, s8, s9, sec, s10, s11, offset, ⟨h0, hy⟩, e1, e2, hm, e3, e4, e5, e6, hh, e7,
      e8, hmin, e9, e10, hs, e11, e12, hd, rfl⟩
  · rintro ⟨year, s1, month, s2, s3, day, s4, s5, hour, s6, s7, min, s8, s9, sec, s10, s11, offset, ⟨h0, hy⟩, e1, e2, hm, e3, e4, e5, e6, hh, e7,
      e8, hmin, e9, e10, hs, e11, e12, hd, rfl⟩
    exact ⟨h0, year, hy, s1, e1, month, s2, e2, hm, s3, e3, day, s4, e4, s5, e5, hour, s6, e6, hh, s7, e7, min, s8, e8, hmin, s9, e9, sec, s10,
      e10, hs, ns, s11, e11, offset, [], e12, fun h => h rfl, hd, rfl⟩

theorem hour_iff {s r : Str} {n : Nat} : (∃ q, getnum false s = some (n, q) ∧ ¬ 24 ≤ n ∧ skipByte 58 q = some r) ↔
    ∃ hh, AnyHour hh n ∧ s = hh ++ 58 :: r := by
  constructor
  · rintro ⟨q, h, hn, hq⟩
    rw [skipByte_iff] at hq
    subst hq
    rcases getnum_false.1 h with ⟨_, rfl⟩ | ⟨h1, rfl, _⟩
    · exact ⟨_, .two (by omega), rfl⟩
    · exact ⟨_, .one h1, rfl⟩
  · rintro ⟨hh, h, rfl⟩
    have hr : noDigit (58 :: r) := fun c hc => by cases hc; decide
    cases h with
    | two h => exact ⟨_, getnum_false.2 (.inl ⟨by omega, rfl⟩), by omega, skipByte_iff.2 rfl⟩
    | one h => exact ⟨_, getnum_false.2 (.inr ⟨h, rfl, hr⟩), by omega, skipByte_iff.2 rfl⟩

theorem parse3339_iff (s : Str) (u : Int) (ns : Nat) :
    parse3339 s = some (u, ns) ↔ ∃ t, Reads3339 s t ∧ t.Unix u ∧ t.ns = ns := by
  rw [parse_steps]
  constructor
  · rintro ⟨year, s1, month, s2, s3, day, s4, s5, hour, s6, s7, min, s8, s9, sec, s10, s11, offset, h0, e1, e2, hm, e3, e4, e5, e6, hh, e7,
      e8, hmin, e9, e10, hs, e11, e12, hd, hu⟩
    obtain ⟨y, r, hy, rfl, rfl⟩ := year_iff.1 h0
    rw [Int.toNat_natCast] at hd hu
    rw [skipByte_iff] at e1 e3 e5 e9
    obtain ⟨_, rfl⟩ := getnum_true.1 e2
    obtain ⟨_, rfl⟩ := getnum_true.1 e4
    obtain ⟨_, rfl⟩ := getnum_true.1 e8
    obtain ⟨_, rfl⟩ := getnum_true.1 e10
    obtain ⟨hw, hhw, e6'⟩ := hour_iff.1 ⟨s6, e6, hh, e7⟩
    have hz := timeZone_iff.1 e12
    obtain ⟨fr, rfl, hfr⟩ := (timeFraction_iff (offset_head hz)).1 e11
    have hv : Date.Valid ⟨y, month, day⟩ := by
      have hm' : 1 ≤ month ∧ month ≤ 12 := by omega
      refine ⟨hm'.1, hm'.2, ?_, ?_⟩
      · show 1 ≤ day; omega
      · show day ≤ monthDays y month
        rw [← daysIn_eq hm'.1 hm'.2]; omega
    refine ⟨⟨⟨y, month, day⟩, hour, min, sec, ns, offset⟩, ?_, (unixDate_iff hv u).2 hu, rfl⟩
    have := Reads3339.mk (t := ⟨⟨y, month, day⟩, hour, min, sec, ns, offset⟩) hy hv hhw (by show min < 60; omega) (by show sec < 60; omega) hfr hz
    have e1' : r = 45 :: (two month ++ s2) := by
      rw [List.drop_left' (four_length y)] at e1; exact e1
    rw [e1', e3, e5, e6', e9]
    simpa using this
  · rintro ⟨t, h, hu, rfl⟩
    cases h with
    | @mk _ hh fr z hy hv hhh hmin hsec hfr hz =>
    have hv' := hv
    obtain ⟨m1, m2, d1, d2⟩ := hv'
    obtain ⟨q, g1, g2, g3⟩ := (hour_iff (r := two t.min ++ 58 :: (two t.sec ++ (fr ++ z)))).2 ⟨hh, hhh, rfl⟩
    refine ⟨t.date.y, _, t.date.m, _, _, t.date.d, _, _, t.h, q, _, t.min, _, _, t.sec, _, _, t.offset,
      year_iff.2 ⟨t.date.y, 45 :: (two t.date.m ++ 45 :: (two t.date.d ++ 84 :: (hh ++ 58 :: (two t.min ++ 58 :: (two t.sec ++ (fr ++ z)))))), hy,
        by simp, rfl⟩, ?_, getnum_true.2 ⟨by omega, rfl⟩, by omega, skipByte_iff.2 rfl, getnum_true.2 ⟨?_, rfl⟩, skipByte_iff.2 rfl, g1, g2, g3,
      getnum_true.2 ⟨by omega, rfl⟩, by omega, skipByte_iff.2 rfl, getnum_true.2 ⟨by omega, rfl⟩, by omega,
      (timeFraction_iff (offset_head hz)).2 ⟨fr, rfl, hfr⟩, timeZone_iff.2 hz, ?_, ?_⟩
    · rw [skipByte_iff]
      simp only [List.append_assoc]
      rw [List.drop_left' (four_length _)]
      rfl
    · have : monthDays t.date.y t.date.m ≤ 31 := (monthDays_pos _ _).2
      omega
    · rw [Int.toNat_natCast, daysIn_eq m1 m2]
      omega
    · rw [Int.toNat_natCast]
      exact (unixDate_iff hv u).1 hu

theorem timeFraction_numeral {ds z : Str} (h : Numeral ds) (hz : noDigit z) :
    timeFraction (46 :: ds ++ z) = if value ds < 10 ^ 9 then some (value ds * 10 ^ (9 - ds.length), z) else none := by
  have hm : maxInt64 = 9223372036854775807 := rfl
  obtain ⟨e1, e2⟩ := takeWhile_digits h.2 hz
  have hhead : ds.head? ≠ some 45 ∧ ds.head? ≠ some 43 := by
    cases ds with
    | nil => exact absurd rfl h.1
    | cons c ds =>
      have := digit_head (h.2 c (by simp))
      exact ⟨fun h => this.1 (Option.some.inj h), fun h => this.2.1 (Option.some.inj h)⟩
  have hc : (46 :: ds ++ z).head? = some 46 ∧ ((46 :: ds ++ z).drop 1).head?.any timeDigit = true := by
    refine ⟨rfl, ?_⟩
    cases ds with
    | nil => exact absurd rfl h.1
    | cons c ds => simpa using (timeDigit_iff c).2 (h.2 c (by simp))
  unfold timeFraction
  rw [if_pos hc, List.cons_append, List.tail_cons, e1, e2]
  dsimp only
  by_cases hv : value ds ≤ maxInt64
  · rw [(timeAtoi_digits hhead (v := (value ds : Int))).2 ⟨h.2, hv, rfl⟩]
    dsimp only
    by_cases hlt : value ds < 10 ^ 9
    · rw [if_neg (by omega), if_pos hlt, Int.toNat_natCast]
    · rw [if_pos (by omega), if_neg hlt]
  · have : timeAtoi ds = none := by
      cases ht : timeAtoi ds with
      | none => rfl
      | some v => exact absurd ((timeAtoi_digits hhead).1 ht).2.1 hv
    rw [this, if_neg (by omega)]

/-- reading a text with the given parts -/
theorem parse_text {date : Date} {c : UInt8} {h min sec : Nat} {fr z : Str} (hy : date.y < 10000) (hv : date.Valid) (hh : h < 24)
    (hmin : min < 60) (hsec : sec < 100) : parse3339 (rfcText date c h min sec fr z) =
    if c ≠ 84 ∨ 60 ≤ sec then none else
    (timeFraction (fr ++ z)).bind fun x => (timeZone x.2).bind fun w => if w.2 ≠ [] then none
      else some (unixDate date.y date.m date.d h min sec - w.1, x.1) := by
  obtain ⟨m1, m2, d1, d2⟩ := hv
  have hd := (monthDays_pos date.y date.m).2
  obtain ⟨g1, g2⟩ := year_iff.2 ⟨date.y, 45 :: (two date.m ++ 45 :: (two date.d ++ c :: (two h ++ 58 :: (two min ++ 58 :: (two sec ++ (fr ++ z)))))), hy,
    rfl, rfl⟩
  have e : rfcText date c h min sec fr z =
      four date.y ++ 45 :: (two date.m ++ 45 :: (two date.d ++ c :: (two h ++ 58 :: (two min ++ 58 :: (two sec ++ (fr ++ z)))))) := by
    simp [rfcText]
  rw [e]
  unfold parse3339
  rw [if_neg g1, g2, List.drop_left' (four_length _), skipByte_iff.2 rfl]
  simp only [Option.bind_some]
  rw [getnum_true.2 ⟨by omega, rfl⟩]
  simp only [Option.bind_some]
  rw [if_neg (by omega), skipByte_iff.2 rfl]
  simp only [Option.bind_some]
  rw [getnum_true.2 ⟨by omega, rfl⟩]
  simp only [Option.bind_some]
  by_cases hc : c = 84
  · subst hc
    rw [skipByte_iff.2 rfl]
    simp only [Option.bind_some]
    rw [getnum_false.2 (.inl ⟨by omega, rfl⟩)]
    simp only [Option.bind_some]
    rw [if_neg (by omega), skipByte_iff.2 rfl]
    simp only [Option.bind_some]
    rw [getnum_true.2 ⟨by omega, rfl⟩]
    simp only [Option.bind_some]
    rw [if_neg (by omega), skipByte_iff.2 rfl]
    simp only [Option.bind_some]
    rw [getnum_true.2 ⟨by omega, rfl⟩]
    simp only [Option.bind_some]
    by_cases hs : 60 ≤ sec
    · rw [if_pos hs, if_pos (.inr hs)]
    · rw [if_neg hs, if_neg (by simpa using hs)]
      congr 1
      funext x
      congr 1
      funext w
      split
      · rfl
      · rw [Int.toNat_natCast, daysIn_eq m1 m2, if_neg (by omega)]
  · have : skipByte 84 (c :: (two h ++ 58 :: (two min ++ 58 :: (two sec ++ (fr ++ z))))) = none := by
      unfold skipByte
      rw [List.head?_cons, if_neg (fun h => hc (Option.some.inj h))]
    rw [this, if_pos (.inl hc)]
    rfl

/-- Every text of RFC 3339 is read, as what it says. -/
theorem rfc3339_reads {s : Str} {t : Stamp} (h : Rfc3339 s t) : Reads3339 s t := by
  cases h with
  | mk hy hv hh hm hs hf ho => exact .mk hy hv (.two hh) hm hs (.inl hf) (offset_any ho)

theorem fraction_lt {fr : Str} {ns : Nat} (h : Fraction fr ns ∨ LongFraction fr ns) : ns < 10 ^ 9 := by
  rcases h with h | h
  · cases h with
    | none => decide
    | @some ds h1 h2 =>
      have e : 10 ^ 9 = 10 ^ ds.length * 10 ^ (9 - ds.length) := by rw [← Nat.pow_add]; congr 1; omega
      rw [e]
      exact Nat.mul_lt_mul_of_pos_right (value_lt h1.2) (Nat.pow_pos (by decide))
  · cases h with
    | mk _ _ h => exact h

theorem unix_unique {t : Stamp} {u u' : Int} (hv : t.date.Valid) (h : t.Unix u) (h' : t.Unix u') : u = u' := by
  rw [(unixDate_iff hv u).1 h, (unixDate_iff hv u').1 h']

end Water
