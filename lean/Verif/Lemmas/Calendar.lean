import Verif.Model.Rfc3339
import Verif.Spec.Rfc3339
/- `time.Date` counts the days of the calendar. -/
namespace Water
open Spec

theorem isLeap_iff (y : Nat) : isLeap y = true ↔ Leap y := by
  unfold isLeap Leap
  simp

theorem daysIn_eq {y m : Nat} (h1 : 1 ≤ m) (h2 : m ≤ 12) : daysIn m y = monthDays y m := by
  have hm : m = 1 ∨ m = 2 ∨ m = 3 ∨ m = 4 ∨ m = 5 ∨ m = 6 ∨ m = 7 ∨ m = 8 ∨ m = 9 ∨ m = 10 ∨ m = 11 ∨ m = 12 := by omega
  rcases hm with rfl | rfl | rfl | rfl | rfl | rfl | rfl | rfl | rfl | rfl | rfl | rfl
  all_goals try rfl
  unfold daysIn monthDays
  by_cases h : Leap y
  · rw [if_pos ⟨rfl, (isLeap_iff y).2 h⟩, if_pos rfl, if_pos h]
  · rw [if_neg (fun hc => h ((isLeap_iff y).1 hc.2)), if_pos rfl, if_neg h]
    rfl

/-- the days before a year -/
def yearStart (y : Nat) : Nat :=
  146097 * (y / 400) + 36524 * ((y - 400 * (y / 400)) / 100) +
    1461 * ((y - 400 * (y / 400) - 100 * ((y - 400 * (y / 400)) / 100)) / 4) +
    365 * (y - 400 * (y / 400) - 100 * ((y - 400 * (y / 400)) / 100) - 4 * ((y - 400 * (y / 400) - 100 * ((y - 400 * (y / 400)) / 100)) / 4))

theorem yearStart_next (y : Nat) : yearStart (y + 292277022400) = yearStart (y + 292277022399) + if Leap y then 366 else 365 := by
  unfold yearStart
  split
  · rename_i h
    obtain ⟨h1, h2⟩ := h
    omega
  · rename_i h
    have h' : y % 4 ≠ 0 ∨ (y % 100 = 0 ∧ y % 400 ≠ 0) := by
      unfold Leap at h
      omega
    omega

/-- the days of a year before a month -/
def monthStart (y m : Nat) : Nat := daysBefore.getD (m - 1) 0 + if isLeap y = true ∧ 3 ≤ m then 1 else 0

theorem absDays_eq (y m d : Nat) : absDays y m d = yearStart (y + 292277022399) + monthStart y m + (d - 1) := by
  unfold absDays yearStart monthStart
  dsimp only
  omega

theorem monthStart_next {y m : Nat} (h1 : 1 ≤ m) (h2 : m < 12) : monthStart y (m + 1) = monthStart y m + monthDays y m := by
  have hm : m = 1 ∨ m = 2 ∨ m = 3 ∨ m = 4 ∨ m = 5 ∨ m = 6 ∨ m = 7 ∨ m = 8 ∨ m = 9 ∨ m = 10 ∨ m = 11 := by omega
  have hl := isLeap_iff y
  unfold monthStart monthDays
  by_cases h : Leap y
  · simp only [hl.2 h, true_and, if_pos h]
    rcases hm with rfl | rfl | rfl | rfl | rfl | rfl | rfl | rfl | rfl | rfl | rfl <;> rfl
  · have hn : ¬ isLeap y = true := fun hc => h (hl.1 hc)
    simp only [hn, false_and, if_neg h]
    rcases hm with rfl | rfl | rfl | rfl | rfl | rfl | rfl | rfl | rfl | rfl | rfl <;> rfl

theorem monthStart_end (y : Nat) : monthStart y 12 + monthDays y 12 = if Leap y then 366 else 365 := by
  unfold monthStart
  by_cases h : Leap y
  · rw [if_pos ⟨(isLeap_iff y).2 h, by decide⟩, if_pos h]; rfl
  · rw [if_neg (fun hc => h ((isLeap_iff y).1 hc.1)), if_neg h]; rfl

theorem monthStart_one (y : Nat) : monthStart y 1 = 0 := by
  unfold monthStart
  rw [if_neg (by omega)]
  rfl

theorem monthDays_pos (y m : Nat) : 28 ≤ monthDays y m ∧ monthDays y m ≤ 31 := by
  unfold monthDays
  split
  · split <;> decide
  · split <;> decide

theorem valid_next {D : Date} (h : D.Valid) : D.next.Valid := by
  obtain ⟨h1, h2, h3, h4⟩ := h
  unfold Date.next
  split
  · exact ⟨h1, h2, by simp, by show D.d + 1 ≤ monthDays D.y D.m; omega⟩
  · split
    · exact ⟨by simp, by simp; omega, by simp, by have := monthDays_pos D.y (D.m + 1); simp; omega⟩
    · exact ⟨by simp, by simp, by simp, by have := monthDays_pos (D.y + 1) 1; simp; omega⟩

theorem absDays_next {D : Date} (h : D.Valid) : absDays D.next.y D.next.m D.next.d = absDays D.y D.m D.d + 1 := by
  obtain ⟨h1, h2, h3, h4⟩ := h
  unfold Date.next
  split
  · rw [absDays_eq, absDays_eq]
    dsimp only
    omega
  · split
    · rw [absDays_eq, absDays_eq]
      dsimp only
      rw [monthStart_next h1 (by omega)]
      omega
    · rw [absDays_eq, absDays_eq]
      dsimp only
      have hm : D.m = 12 := by omega
      have e := monthStart_end D.y
      have e2 := yearStart_next D.y
      rw [monthStart_one, hm]
      rw [hm] at h4
      have : D.y + 1 + 292277022399 = D.y + 292277022400 := by omega
      rw [this, e2, ← e]
      rename_i h5 _
      rw [hm] at h5
      omega

theorem dayNo_valid {n : Nat} {D : Date} (h : DayNo n D) : D.Valid := by
  induction h with
  | first => exact ⟨by decide, by decide, by decide, by decide⟩
  | next _ ih => exact valid_next ih

theorem dayNo_abs {n : Nat} {D : Date} (h : DayNo n D) : absDays D.y D.m D.d = absDays 0 1 1 + n := by
  induction h with
  | first => rfl
  | next hD ih => rw [absDays_next (dayNo_valid hD), ih]; rfl

/-- every day has a number -/
theorem dayNo_exists {D : Date} (h : D.Valid) : ∃ n, DayNo n D := by
  have days : ∀ y m n, DayNo n ⟨y, m, 1⟩ → ∀ d, 1 ≤ d → d ≤ monthDays y m → ∃ n', DayNo n' ⟨y, m, d⟩ := by
    intro y m n h0 d
    induction d with
    | zero => intro h; omega
    | succ d ih =>
      intro _ hd
      by_cases h : d = 0
      · subst h; exact ⟨n, h0⟩
      · obtain ⟨n', hn'⟩ := ih (by omega) (by omega)
        refine ⟨n' + 1, ?_⟩
        have := DayNo.next hn'
        unfold Date.next at this
        rwa [if_pos (show d < monthDays y m by omega)] at this
  have turn : ∀ y m n, DayNo n ⟨y, m, 1⟩ → ∃ n', DayNo n' (Date.next ⟨y, m, monthDays y m⟩) := by
    intro y m n h0
    have := monthDays_pos y m
    obtain ⟨n', hn'⟩ := days y m n h0 (monthDays y m) (by omega) (Nat.le_refl _)
    exact ⟨n' + 1, .next hn'⟩
  have months : ∀ y n, DayNo n ⟨y, 1, 1⟩ → ∀ m, 1 ≤ m → m ≤ 12 → ∃ n', DayNo n' ⟨y, m, 1⟩ := by
    intro y n h0 m
    induction m with
    | zero => intro h; omega
    | succ m ih =>
      intro _ hm
      by_cases h : m = 0
      · subst h; exact ⟨n, h0⟩
      · obtain ⟨n', hn'⟩ := ih (by omega) (by omega)
        obtain ⟨n2, h2⟩ := turn y m n' hn'
        refine ⟨n2, ?_⟩
        unfold Date.next at h2
        rwa [if_neg (show ¬ monthDays y m < monthDays y m from Nat.lt_irrefl _), if_pos (show m < 12 by omega)] at h2
  have years : ∀ y, ∃ n, DayNo n ⟨y, 1, 1⟩ := by
    intro y
    induction y with
    | zero => exact ⟨0, .first⟩
    | succ y ih =>
      obtain ⟨n, hn⟩ := ih
      obtain ⟨n', hn'⟩ := months y n hn 12 (by decide) (by decide)
      obtain ⟨n2, h2⟩ := turn y 12 n' hn'
      refine ⟨n2, ?_⟩
      unfold Date.next at h2
      rwa [if_neg (show ¬ monthDays y 12 < monthDays y 12 from Nat.lt_irrefl _), if_neg (show ¬ 12 < 12 by decide)] at h2
  obtain ⟨h1, h2, h3, h4⟩ := h
  obtain ⟨n, hn⟩ := years D.y
  obtain ⟨n', hn'⟩ := months D.y n hn D.m h1 h2
  exact days D.y D.m n' hn' D.d h3 h4

/-- `time.Date` is the moment in seconds. -/
theorem unixDate_iff {t : Stamp} (h : t.date.Valid) (u : Int) :
    t.Unix u ↔ u = unixDate t.date.y t.date.m t.date.d t.h t.min t.sec - t.offset := by
  have e0 : absDays 1970 1 1 = absDays 0 1 1 + 719528 := by decide
  have key : ∀ n n0, DayNo n t.date → DayNo n0 ⟨1970, 1, 1⟩ →
      ((n : Int) - n0) * 86400 + t.h * 3600 + t.min * 60 + t.sec - t.offset = unixDate t.date.y t.date.m t.date.d t.h t.min t.sec - t.offset := by
    intro n n0 h1 h2
    have a1 := dayNo_abs h1
    have a2 : absDays 1970 1 1 = absDays 0 1 1 + n0 := dayNo_abs h2
    have hn0 : n0 = 719528 := by omega
    unfold unixDate
    rw [a1, hn0, show absDays 0 1 1 = 106751990353566 from by decide]
    omega
  constructor
  · rintro ⟨n, n0, h1, h2, rfl⟩
    exact key n n0 h1 h2
  · rintro rfl
    obtain ⟨n, h1⟩ := dayNo_exists h
    obtain ⟨n0, h2⟩ := dayNo_exists (D := ⟨1970, 1, 1⟩) ⟨by decide, by decide, by decide, by decide⟩
    exact ⟨n, n0, h1, h2, (key n n0 h1 h2).symm⟩

end Water
