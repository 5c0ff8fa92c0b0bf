import Verif.Model.IPv4
import Verif.Spec.IPv4
/- `parseIPv4` accepts exactly four numbers up to 255 with dots between. -/
namespace Water
open Spec

/-- the value of digits behind a number -/
def octFrom (n : Nat) (s : Str) : Nat := s.foldl (fun n c => 10 * n + (c.toNat - 48)) n

theorem octFrom_le (n : Nat) (s : Str) : n ≤ octFrom n s := by
  induction s generalizing n with
  | nil => exact Nat.le_refl _
  | cons c s ih =>
    show n ≤ octFrom (10 * n + (c.toNat - 48)) s
    have := ih (10 * n + (c.toNat - 48))
    omega

private theorem digitB_iff (c : UInt8) : (48 ≤ c && c ≤ 57) = true ↔ IsDigit c := by
  unfold IsDigit
  simp only [Bool.and_eq_true, decide_eq_true_eq]

/-- what `dtoi` reads: all digits at the beginning -/
theorem dtoi_iff (n : Nat) (i : Bool) (s : Str) (m : Nat) (r : Str) (hn : n < dtoiBig) : dtoi n i s = some (m, r) ↔
    ∃ d, s = d ++ r ∧ (∀ c ∈ d, IsDigit c) ∧ (i = true ∨ d ≠ []) ∧ m = octFrom n d ∧ m < dtoiBig ∧ (∀ c t, r = c :: t → ¬ IsDigit c) := by
  induction s generalizing n i with
  | nil =>
    rw [dtoi]
    constructor
    · intro h
      by_cases hi : i = true
      · rw [if_pos hi] at h
        cases h
        exact ⟨[], rfl, by simp, .inl hi, rfl, hn, by simp⟩
      · rw [if_neg hi] at h; cases h
    · rintro ⟨d, e, -, h3, rfl, -, -⟩
      obtain ⟨rfl, rfl⟩ := List.append_eq_nil_iff.1 e.symm
      rcases h3 with h3 | h3
      · rw [if_pos h3]; rfl
      · exact absurd rfl h3
  | cons c s ih =>
    rw [dtoi]
    by_cases hc : IsDigit c
    · rw [if_pos ((digitB_iff c).2 hc)]
      dsimp only
      by_cases hb : n * 10 + (c.toNat - 48) ≥ dtoiBig
      · rw [if_pos hb]
        constructor
        · intro h; cases h
        · rintro ⟨d, e, -, -, rfl, h5, h6⟩
          cases d with
          | nil => exact absurd hc (h6 c s e.symm)
          | cons x d =>
            simp only [List.cons_append, List.cons.injEq] at e
            obtain ⟨rfl, -⟩ := e
            have h7 : octFrom n (c :: d) = octFrom (10 * n + (c.toNat - 48)) d := rfl
            have := octFrom_le (10 * n + (c.toNat - 48)) d
            omega
      · rw [if_neg hb, ih _ _ (Nat.lt_of_not_le hb)]
        have hmul : n * 10 + (c.toNat - 48) = 10 * n + (c.toNat - 48) := by omega
        constructor
        · rintro ⟨d, rfl, h2, -, rfl, h5, h6⟩
          refine ⟨c :: d, rfl, ?_, .inr (by simp), ?_, h5, h6⟩
          · intro x hx
            rcases List.mem_cons.1 hx with rfl | hx
            · exact hc
            · exact h2 x hx
          · rw [hmul]; rfl
        · rintro ⟨d, e, h2, -, rfl, h5, h6⟩
          cases d with
          | nil => exact absurd hc (h6 c s e.symm)
          | cons x d =>
            simp only [List.cons_append, List.cons.injEq] at e
            obtain ⟨rfl, rfl⟩ := e
            refine ⟨d, rfl, fun y hy => h2 y (by simp [hy]), .inl rfl, ?_, h5, h6⟩
            rw [hmul]; rfl
    · rw [if_neg (fun h => hc ((digitB_iff c).1 h))]
      constructor
      · intro h
        by_cases hi : i = true
        · rw [if_pos hi] at h
          cases h
          exact ⟨[], rfl, by simp, .inl hi, rfl, hn, fun x t e => by cases e; exact hc⟩
        · rw [if_neg hi] at h; cases h
      · rintro ⟨d, e, h2, h3, rfl, -, -⟩
        cases d with
        | nil =>
          rcases h3 with h3 | h3
          · rw [if_pos h3, e]; rfl
          · exact absurd rfl h3
        | cons x d =>
          simp only [List.cons_append, List.cons.injEq] at e
          obtain ⟨rfl, -⟩ := e
          exact absurd (h2 c (by simp)) hc

/-- one number of an address: its text and what follows -/
theorem octet_read {s r : Str} {n : Nat} : (dtoi 0 false s = some (n, r) ∧ ¬ n > 0xFF) ↔
    ∃ d, s = d ++ r ∧ Octet d ∧ n = value d ∧ (∀ c t, r = c :: t → ¬ IsDigit c) := by
  rw [dtoi_iff 0 false s n r (by decide)]
  constructor
  · rintro ⟨⟨d, h1, h2, h3, h4, -, h6⟩, h7⟩
    refine ⟨d, h1, ⟨⟨h3.resolve_left (by simp), h2⟩, ?_⟩, h4, h6⟩
    have : value d = octFrom 0 d := rfl
    omega
  · rintro ⟨d, h1, ⟨⟨h2, h3⟩, h4⟩, h5, h6⟩
    refine ⟨⟨d, h1, h3, .inr h2, h5, ?_, h6⟩, by omega⟩
    unfold dtoiBig; omega

private theorem loop_one {k : Nat} {s r : Str} : parseIPv4Loop (k + 1) false s = some r ↔
    ∃ d t, s = 46 :: (d ++ t) ∧ Octet d ∧ (∀ c u, t = c :: u → ¬ IsDigit c) ∧ parseIPv4Loop k false t = some r := by
  constructor
  · intro h
    cases s with
    | nil => rw [parseIPv4Loop] at h; cases h
    | cons c cs =>
      rw [parseIPv4Loop] at h
      by_cases hc : (!false && c != 46) = true
      · rw [if_pos hc] at h; cases h
      · rw [if_neg hc] at h
        have hc : c = 46 := by simpa using hc
        subst hc
        rw [if_neg (by decide)] at h
        cases hd : dtoi 0 false cs with
        | none => rw [hd] at h; cases h
        | some p =>
          obtain ⟨n, t⟩ := p
          rw [hd] at h
          dsimp only at h
          by_cases hn : n > 0xFF
          · rw [if_pos hn] at h; cases h
          · rw [if_neg hn] at h
            obtain ⟨d, rfl, h2, -, h4⟩ := octet_read.1 ⟨hd, hn⟩
            exact ⟨d, t, rfl, h2, h4, h⟩
  · rintro ⟨d, t, rfl, h2, h3, h4⟩
    obtain ⟨e1, e2⟩ := octet_read.2 ⟨d, rfl, h2, rfl, h3⟩
    rw [parseIPv4Loop, if_neg (by decide), if_neg (by decide), e1]
    dsimp only
    rw [if_neg e2, h4]

private theorem loop_first {k : Nat} {s r : Str} : parseIPv4Loop (k + 1) true s = some r ↔
    ∃ d t, s = d ++ t ∧ Octet d ∧ (∀ c u, t = c :: u → ¬ IsDigit c) ∧ parseIPv4Loop k false t = some r := by
  constructor
  · intro h
    cases s with
    | nil => rw [parseIPv4Loop] at h; cases h
    | cons c cs =>
      rw [parseIPv4Loop] at h
      rw [if_neg (by simp), if_pos rfl] at h
      cases hd : dtoi 0 false (c :: cs) with
      | none => rw [hd] at h; cases h
      | some p =>
        obtain ⟨n, t⟩ := p
        rw [hd] at h
        dsimp only at h
        by_cases hn : n > 0xFF
        · rw [if_pos hn] at h; cases h
        · rw [if_neg hn] at h
          obtain ⟨d, e, h2, -, h4⟩ := octet_read.1 ⟨hd, hn⟩
          exact ⟨d, t, e, h2, h4, h⟩
  · rintro ⟨d, t, rfl, h2, h3, h4⟩
    obtain ⟨e1, e2⟩ := octet_read.2 ⟨d, rfl, h2, rfl, h3⟩
    cases hd : d ++ t with
    | nil => exact absurd (List.append_eq_nil_iff.1 hd).1 h2.1.1
    | cons c cs =>
      rw [hd] at e1
      rw [parseIPv4Loop, if_neg (by simp), if_pos rfl, e1]
      dsimp only
      rw [if_neg e2, h4]

private theorem dot_stops (u : Str) : ∀ c t, 46 :: u = c :: t → ¬ IsDigit c := by
  intro c t e
  simp only [List.cons.injEq] at e
  rw [← e.1]; decide

/-- `parseIPv4` accepts exactly the texts of addresses. -/
theorem parseIPv4_iff (s : Str) : parseIPv4 s = true ↔ IPv4Text s := by
  unfold parseIPv4
  rw [decide_eq_true_iff]
  constructor
  · intro h
    obtain ⟨a, t, rfl, ha, -, h⟩ := loop_first.1 h
    obtain ⟨b, u, rfl, hb, -, h⟩ := loop_one.1 h
    obtain ⟨c, v, rfl, hc, -, h⟩ := loop_one.1 h
    obtain ⟨d, w, rfl, hd, -, h⟩ := loop_one.1 h
    rw [parseIPv4Loop] at h
    cases h
    exact ⟨a, b, c, d, by simp, ha, hb, hc, hd⟩
  · rintro ⟨a, b, c, d, rfl, ha, hb, hc, hd⟩
    refine loop_first.2 ⟨a, 46 :: (b ++ 46 :: (c ++ 46 :: d)), by simp, ha, dot_stops _, ?_⟩
    refine loop_one.2 ⟨b, 46 :: (c ++ 46 :: d), rfl, hb, dot_stops _, ?_⟩
    refine loop_one.2 ⟨c, 46 :: d, rfl, hc, dot_stops _, ?_⟩
    refine loop_one.2 ⟨d, [], by simp, hd, by simp, rfl⟩

theorem octet_mem {d : Str} (h : Octet d) : d ≠ [] ∧ d.head? ≠ some 46 ∧ ∀ c ∈ d, IsDigit c := by
  refine ⟨h.1.1, ?_, h.1.2⟩
  intro hh
  cases d with
  | nil => cases hh
  | cons c d =>
    have : c = 46 := by simpa using hh
    subst this
    exact absurd (h.1.2 46 (by simp)) (by decide)

/-- an address is written with numbers and dots -/
theorem ip_dotted {s : Str} (h : parseIPv4 s = true) : Dotted s := by
  obtain ⟨a, b, c, d, rfl, ha, hb, hc, hd⟩ := (parseIPv4_iff s).1 h
  obtain ⟨a1, a2, a3⟩ := octet_mem ha
  refine ⟨by simp, ?_, ?_⟩
  · cases a with
    | nil => exact absurd rfl a1
    | cons x a => exact a2
  · intro x hx
    simp only [List.mem_append, List.mem_singleton] at hx
    rcases hx with (((((hx | hx) | hx) | hx) | hx) | hx) | hx
    · exact .inl (a3 x hx)
    · exact .inr hx
    · exact .inl ((octet_mem hb).2.2 x hx)
    · exact .inr hx
    · exact .inl ((octet_mem hc).2.2 x hx)
    · exact .inr hx
    · exact .inl ((octet_mem hd).2.2 x hx)

theorem ip_no_semi {s : Str} (h : parseIPv4 s = true) : 59 ∉ s := by
  intro hm
  rcases (ip_dotted h).2.2 _ hm with h | h
  · exact absurd h (by decide)
  · exact absurd h (by decide)

end Water
