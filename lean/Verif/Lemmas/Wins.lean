import Verif.Lemmas.Select
/- Helper lemmas: the winner is unique. -/
namespace Water
open Spec
variable {α : Type}

theorem Spec.Before.asymm {β : Type} {P Q : β → Prop} {l : List β} (h1 : Before P Q l) (h2 : Before Q P l) : False := by
  obtain ⟨l1, x, l2, rfl, hx1, hx2, hx3⟩ := h1
  obtain ⟨m1, y, m2, he, hy1, hy2, hy3⟩ := h2
  rw [List.append_eq_append_iff] at he
  rcases he with ⟨a, h3, h4⟩ | ⟨a, h3, h4⟩
  · cases a with
    | nil => simp at h4; exact hx2 (h4.1 ▸ hy1)
    | cons z zs =>
      simp at h4
      exact hy3 x (by rw [h3, h4.1]; simp) hx1
  · cases a with
    | nil => simp at h4; exact hx2 (h4.1 ▸ hy1)
    | cons z zs =>
      simp at h4
      exact hx3 y (by rw [h3, h4.1]; simp) hy1

theorem Spec.Differ.unique {r r' : List Str} {c a ra b rb c' a' ra' b' rb'}
    (h1 : Differ r r' c a ra b rb) (h2 : Differ r' r c' b' rb' a' ra') :
    c = c' ∧ a = a' ∧ ra = ra' ∧ b = b' ∧ rb = rb' := by
  induction c generalizing r r' c' with
  | nil =>
    obtain ⟨rfl, rfl, hd⟩ := h1
    obtain ⟨e1, e2, hd'⟩ := h2
    cases c' with
    | nil => simp at e1 e2; simp [e1, e2]
    | cons x xs =>
      simp at e1 e2
      exfalso
      rcases hd with hd | hd | hd
      · exact hd (by rw [e1.1, e2.1])
      · rw [e2.2] at hd; simp at hd
      · rw [e1.2] at hd; simp at hd
  | cons y ys ih =>
    obtain ⟨rfl, rfl, hd⟩ := h1
    obtain ⟨e1, e2, hd'⟩ := h2
    cases c' with
    | nil =>
      simp at e1 e2
      exfalso
      rcases hd' with hd' | hd' | hd'
      · exact hd' (by rw [← e1.1, ← e2.1])
      · rw [← e1.2] at hd'; simp at hd'
      · rw [← e2.2] at hd'; simp at hd'
    | cons x xs =>
      simp at e1 e2
      obtain ⟨h1, h2⟩ := ih ⟨rfl, rfl, hd⟩ ⟨e1.2, e2.2, hd'⟩
      rw [h1, e1.1]; exact ⟨rfl, h2⟩

/-- Two different patterns cannot both win against each other. -/
theorem Spec.Wins.asymm {tbl tbl' : List (Entry α)} {k : Nat} {r r' : List Str}
    (h1 : Wins tbl k r r') (h2 : Wins tbl' k r' r) :
    ∃ c a ra b rb, Differ r r' c a ra b rb ∧ (kind a).rank = (kind b).rank ∧ (ra = [] ↔ rb = []) ∧
      tbl ≠ tbl' := by
  obtain ⟨c, a, ra, b, rb, hd, hw⟩ := h1
  obtain ⟨c', b', rb', a', ra', hd', hw'⟩ := h2
  obtain ⟨rfl, rfl, rfl, rfl, rfl⟩ := hd.unique hd'
  refine ⟨c, a, ra, b, rb, hd, ?_⟩
  rcases hw with ⟨h1, h2, h3⟩ | ⟨h1, h2, h3, h4⟩ | ⟨h1, h2, h3, h4⟩ | ⟨h1, h2, h3, h4, h5, h6⟩ <;>
  rcases hw' with ⟨g1, g2, g3⟩ | ⟨g1, g2, g3, g4⟩ | ⟨g1, g2, g3, g4⟩ | ⟨g1, g2, g3, g4, g5, g6⟩ <;>
  first
  | exact absurd g2 h1
  | exact absurd h2 g1
  | exact absurd g1 h2
  | exact absurd h1 g2
  | (exfalso; omega)
  | skip
  · refine ⟨?_, by simp [h1, h2], ?_⟩
    · rcases h3 with h3 | ⟨h3, _⟩ <;> rcases g3 with g3 | ⟨g3, _⟩ <;> omega
    · rintro rfl
      rcases h3 with h3 | ⟨h3, h4⟩ <;> rcases g3 with g3 | ⟨g3, g4⟩ <;> first | omega | exact h4.asymm g4
  · refine ⟨?_, by simp [h1, h2], ?_⟩
    · rcases h4 with h4 | ⟨h4, _⟩ <;> rcases g4 with g4 | ⟨g4, _⟩ <;> omega
    · rintro rfl
      rcases h4 with h4 | ⟨h4, h5⟩ <;> rcases g4 with g4 | ⟨g4, g5⟩ <;> first | omega | exact h5.asymm g5
  · refine ⟨by rw [h4, h5], by simp [h1, h2], ?_⟩
    rintro rfl
    exact h6.asymm g6

end Water
