import Verif.Lemmas.HttpDate
/- The text that is written for a second, `t.UTC().Format(http.TimeFormat)`. -/
namespace Water
open Spec

theorem pad_two {n : Nat} (h : n < 100) : padInt 2 n = two n := by
  have : ∀ n : Fin 100, padInt 2 n.1 = two n.1 := by decide +kernel
  exact this ⟨n, h⟩

theorem decDigitsF_more (f : Nat) : ∀ g n, n < f → n < g → decDigitsF f n = decDigitsF g n := by
  induction f with
  | zero => intro g n h; omega
  | succ f ih =>
    intro g n h1 h2
    cases g with
    | zero => omega
    | succ g =>
      unfold decDigitsF
      split
      · rfl
      · rw [ih g (n / 10) (by omega) (by omega)]

theorem itoaNat_step (n : Nat) : itoaNat n = if n < 10 then [UInt8.ofNat (48 + n)] else itoaNat (n / 10) ++ [UInt8.ofNat (48 + n % 10)] := by
  unfold itoaNat
  rw [decDigitsF]
  split
  · rfl
  · rw [decDigitsF_more n (n / 10 + 1) (n / 10) (by omega) (by omega)]

theorem pad_four {n : Nat} (h : n < 10000) : padInt 4 n = four n := by
  have e1 := itoaNat_step n
  have e2 := itoaNat_step (n / 10)
  have e3 := itoaNat_step (n / 10 / 10)
  have e4 := itoaNat_step (n / 10 / 10 / 10)
  have f1 : four n = [UInt8.ofNat (48 + n / 10 / 10 / 10), UInt8.ofNat (48 + n / 10 / 10 % 10), UInt8.ofNat (48 + n / 10 % 10), UInt8.ofNat (48 + n % 10)] := by
    unfold four two
    rw [show n / 100 / 10 % 10 = n / 10 / 10 / 10 by omega, show n / 100 % 10 = n / 10 / 10 % 10 by omega]
    rfl
  rw [f1]
  unfold padInt
  by_cases h1 : n < 10
  · rw [e1, if_pos h1, show n / 10 / 10 / 10 = 0 by omega, show n / 10 / 10 % 10 = 0 by omega, show n / 10 % 10 = 0 by omega,
      show n % 10 = n by omega]
    rfl
  · rw [if_neg h1] at e1
    by_cases h2 : n / 10 < 10
    · rw [e1, e2, if_pos h2, show n / 10 / 10 / 10 = 0 by omega, show n / 10 / 10 % 10 = 0 by omega, show n / 10 % 10 = n / 10 by omega]
      rfl
    · rw [if_neg h2] at e2
      by_cases h3 : n / 10 / 10 < 10
      · rw [e1, e2, e3, if_pos h3, show n / 10 / 10 / 10 = 0 by omega, show n / 10 / 10 % 10 = n / 10 / 10 by omega]
        rfl
      · rw [if_neg h3] at e3
        rw [e1, e2, e3, e4, if_pos (by omega)]
        rfl

/-- the day of the year -/
theorem yearDay_lt {y m d : Nat} (h1 : 1 ≤ m) (h2 : m ≤ 12) (h3 : 1 ≤ d) (h4 : d ≤ monthDays y m) :
    monthStart y m + (d - 1) < if Leap y then 366 else 365 := by
  have mono : ∀ k, m + k ≤ 12 → monthStart y m + monthDays y m ≤ monthStart y (m + k) + monthDays y (m + k) := by
    intro k
    induction k with
    | zero => intro _; exact Nat.le_refl _
    | succ k ih =>
      intro hk
      have := ih (by omega)
      have := monthStart_next (y := y) (m := m + k) (by omega) (by omega)
      rw [show m + k + 1 = m + (k + 1) by omega] at this
      omega
  have := mono (12 - m) (by omega)
  rw [show m + (12 - m) = 12 by omega, monthStart_end] at this
  omega

theorem century {b X : Nat} (hX : X < 36524 ∨ (X = 36524 ∧ b = 3)) (hb : b = 0 ∨ b = 1 ∨ b = 2 ∨ b = 3) :
    (36524 * b + X) / 36524 - (36524 * b + X) / 36524 / 4 = b := by
  rcases hX with hX | ⟨rfl, rfl⟩
  · have : (36524 * b + X) / 36524 = b := by omega
    rw [this]
    omega
  · rfl

/-- `absDate` finds the year and the day of the year. -/
theorem absYear_start {y r : Nat} (h : r < if Leap y then 366 else 365) :
    absYear (yearStart (y + 292277022399) + r) = (y + 292277022399, r) := by
  generalize hY : y + 292277022399 = Y
  obtain ⟨a, ha⟩ : ∃ a, a = Y / 400 := ⟨_, rfl⟩
  obtain ⟨b, hb⟩ : ∃ b, b = (Y - 400 * a) / 100 := ⟨_, rfl⟩
  obtain ⟨c, hc⟩ : ∃ c, c = (Y - 400 * a - 100 * b) / 4 := ⟨_, rfl⟩
  obtain ⟨e, he⟩ : ∃ e, e = Y - 400 * a - 100 * b - 4 * c := ⟨_, rfl⟩
  have hs : yearStart Y = 146097 * a + 36524 * b + 1461 * c + 365 * e := by
    unfold yearStart
    rw [← ha, ← hb, ← hc, ← he]
  have hYe : Y = 400 * a + 100 * b + 4 * c + e := by omega
  have hb3 : b ≤ 3 := by omega
  have hc24 : c ≤ 24 := by omega
  have he3 : e ≤ 3 := by omega
  have hr : r < 365 ∨ (r = 365 ∧ e = 3 ∧ (c ≠ 24 ∨ b = 3)) := by
    split at h
    · rename_i hl
      obtain ⟨l1, l2⟩ := hl
      rcases Nat.lt_or_ge r 365 with hr | hr
      · exact .inl hr
      · exact .inr ⟨by omega, by omega, by omega⟩
    · exact .inl h
  rw [hs]
  clear hs h ha hb hc he hY
  have n1 : (146097 * a + 36524 * b + 1461 * c + 365 * e + r) / 146097 = a := by omega
  have d1 : 146097 * a + 36524 * b + 1461 * c + 365 * e + r - 146097 * a = 36524 * b + 1461 * c + 365 * e + r := by omega
  have hX : 1461 * c + 365 * e + r < 36524 ∨ (1461 * c + 365 * e + r = 36524 ∧ b = 3) := by omega
  have hbs : b = 0 ∨ b = 1 ∨ b = 2 ∨ b = 3 := by omega
  have n2 : (36524 * b + 1461 * c + 365 * e + r) / 36524 - (36524 * b + 1461 * c + 365 * e + r) / 36524 / 4 = b := by
    have e2 : 36524 * b + 1461 * c + 365 * e + r = 36524 * b + (1461 * c + 365 * e + r) := by omega
    rw [e2]
    exact century hX hbs
  have d2 : 36524 * b + 1461 * c + 365 * e + r - 36524 * b = 1461 * c + 365 * e + r := by omega
  have n3 : (1461 * c + 365 * e + r) / 1461 = c := by omega
  have d3 : 1461 * c + 365 * e + r - 1461 * c = 365 * e + r := by omega
  have n4 : (365 * e + r) / 365 - (365 * e + r) / 365 / 4 = e := by omega
  unfold absYear
  dsimp only
  rw [n1, d1, n2, d2, n3, d3, n4, hYe]
  congr 1
  omega

/-- `absDate` finds the month and the day of the month. -/
theorem absMonth_start {y m d : Nat} (h1 : 1 ≤ m) (h2 : m ≤ 12) (h3 : 1 ≤ d) (h4 : d ≤ monthDays y m) :
    absMonth (isLeap y) (monthStart y m + (d - 1)) = (m, d) := by
  have key : ∀ (l : Bool) (m : Fin 13) (d : Fin 32), 1 ≤ m.1 → 1 ≤ d.1 →
      d.1 ≤ (if m.1 = 2 then if l = true then 29 else 28 else if m.1 ∈ [4, 6, 9, 11] then 30 else 31) →
      absMonth l (daysBefore.getD (m.1 - 1) 0 + (if l = true ∧ 3 ≤ m.1 then 1 else 0) + (d.1 - 1)) = (m.1, d.1) := by decide +kernel
  have hd := (monthDays_pos y m).2
  have h4' : d ≤ (if m = 2 then if isLeap y = true then 29 else 28 else if m ∈ [4, 6, 9, 11] then 30 else 31) := by
    unfold monthDays at h4
    by_cases hl : Leap y
    · rw [if_pos hl] at h4; rw [if_pos ((isLeap_iff y).2 hl)]; exact h4
    · rw [if_neg hl] at h4; rw [if_neg (fun h => hl ((isLeap_iff y).1 h))]; exact h4
  exact key (isLeap y) ⟨m, by omega⟩ ⟨d, by omega⟩ h1 h3 h4'

theorem absLeap_eq (y : Nat) : absLeap (y + 292277022399) = isLeap y := by
  unfold absLeap
  rw [Bool.eq_iff_iff, isLeap_iff, isLeap_iff]
  unfold Leap
  omega

/-- The date of a day is found again. -/
theorem absDate_inverse {D : Date} (h : D.Valid) :
    absYear (absDays D.y D.m D.d) = (D.y + 292277022399, monthStart D.y D.m + (D.d - 1)) ∧
    absMonth (absLeap (D.y + 292277022399)) (monthStart D.y D.m + (D.d - 1)) = (D.m, D.d) := by
  obtain ⟨h1, h2, h3, h4⟩ := h
  refine ⟨?_, ?_⟩
  · rw [absDays_eq, Nat.add_assoc]
    exact absYear_start (yearDay_lt h1 h2 h3 h4)
  · rw [absLeap_eq]
    exact absMonth_start h1 h2 h3 h4

theorem abs_1970 : absDays 1970 1 1 = 106751991073094 := by decide +kernel

/-- the day of the week is the one counted from 1970 -/
theorem weekday_abs {D : Date} (h : D.Valid) : Weekday D ((absDays D.y D.m D.d + 1) % 7) := by
  obtain ⟨n, hn⟩ := dayNo_exists h
  obtain ⟨n0, hn0⟩ := dayNo_exists (D := ⟨1970, 1, 1⟩) ⟨by decide, by decide, by decide, by decide⟩
  refine ⟨n, n0, hn, hn0, ?_⟩
  have e1 := dayNo_abs hn
  have e2 := dayNo_abs hn0
  dsimp only at e2
  rw [abs_1970] at e2
  omega

theorem appendInt_from {y : Nat} (hy : y < 10000) (K : Nat) : appendInt 4 (((y + K : Nat) : Int) - (K : Int)) = four y := by
  unfold appendInt
  rw [if_neg (by omega), show (((y + K : Nat) : Int) - (K : Int)).toNat = y by omega, pad_four hy]

theorem toNat_from {u K : Int} {n : Nat} (h : u = (n : Int) + -K) : (u + K).toNat = n := by omega

theorem clock_split {h m s : Nat} (hh : h < 24) (hm : m < 60) (hs : s < 60) (A : Nat) :
    (A * 86400 + (h * 3600 + m * 60 + s) + 86400) % 604800 / 86400 = (A + 1) % 7 ∧ (A * 86400 + (h * 3600 + m * 60 + s)) / 86400 = A ∧
    (A * 86400 + (h * 3600 + m * 60 + s)) % 86400 = h * 3600 + m * 60 + s ∧ (h * 3600 + m * 60 + s) / 3600 = h ∧
    (h * 3600 + m * 60 + s) % 3600 / 60 = m ∧ (h * 3600 + m * 60 + s) % 60 = s := by
  refine ⟨?_, ?_, ?_, ?_, ?_, ?_⟩ <;> omega

/-- What is written for the second of a stamp is the text for the stamp. -/
theorem format_stamp {t : Int} {st : Stamp} (hy : st.date.y < 10000) (hv : st.date.Valid) (hh : st.h < 24) (hm : st.min < 60) (hs : st.sec < 60)
    (hn : st.ns = 0) (ho : st.offset = 0) (hu : st.Unix (unixOf t)) : ImfDate (formatHttp t) st := by
  have e := (unixDate_iff hv _).1 hu
  rw [ho, Int.sub_zero] at e
  unfold unixDate at e
  obtain ⟨i1, i2⟩ := absDate_inverse hv
  have hw := weekday_abs hv
  generalize hA : absDays st.date.y st.date.m st.date.d = A at e i1 hw
  have e' : (unixOf t + 9223372028715321600).toNat = A * 86400 + (st.h * 3600 + st.min * 60 + st.sec) := toNat_from e
  obtain ⟨f1, f2, f3, f4, f5, f6⟩ := clock_split hh hm hs A
  have f7 : appendInt 4 (((st.date.y + 292277022399 : Nat) : Int) - 292277022399) = four st.date.y := appendInt_from hy 292277022399
  obtain ⟨v1, v2, v3, v4⟩ := hv
  have hd := (monthDays_pos st.date.y st.date.m).2
  have g1 : dayNames[(A + 1) % 7]? = some (shortDayNames.getD ((A + 1) % 7) []) := by
    have : ∀ w : Fin 7, dayNames[w.1]? = some (shortDayNames.getD w.1 []) := by decide +kernel
    exact this ⟨_, Nat.mod_lt _ (by decide)⟩
  have g2 : monthNames[st.date.m - 1]? = some (shortMonthNames.getD (st.date.m - 1) []) := by
    have : ∀ w : Fin 12, monthNames[w.1]? = some (shortMonthNames.getD w.1 []) := by decide +kernel
    exact this ⟨st.date.m - 1, by omega⟩
  have := ImfDate.mk hy ⟨v1, v2, v3, v4⟩ hh hm hs hn ho hw g1 g2
  unfold formatHttp
  dsimp only
  rw [e', f1, f2, f3, f4, f5, f6, i1]
  dsimp only
  rw [i2]
  dsimp only
  rw [f7, pad_two (by omega), pad_two (by omega), pad_two (by omega), pad_two (by omega)]
  exact this

end Water
