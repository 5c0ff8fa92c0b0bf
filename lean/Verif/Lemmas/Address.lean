import Verif.Model.UrlParse
import Verif.Spec.Address
import Verif.Lemmas.Url
/- `url.Parse` and RFC 3986. -/
namespace Water
open Spec

theorem escaped_iff (s : Str) : escapesOk s = true ↔ Escaped s :=
  ⟨fun h => ⟨_, encodes_of_ok s.length s (Nat.le_refl _) h⟩, fun ⟨_, h⟩ => (unescape_of_encodes h).1⟩

/-- a text is cut at the first of some byte -/
theorem cut_first {k : UInt8} {x y : Str} (hx : ∀ c ∈ x, c ≠ k) (hy : y = [] ∨ y.head? = some k) :
    (x ++ y).takeWhile (· != k) = x ∧ (x ++ y).dropWhile (· != k) = y := by
  induction x with
  | nil =>
    rcases hy with rfl | hy
    · exact ⟨rfl, rfl⟩
    · cases y with
      | nil => cases hy
      | cons c y =>
        have : c = k := by simpa using hy
        subst this
        simp
  | cons c x ih =>
    have hc : (c != k) = true := by simpa using hx c (List.mem_cons_self ..)
    obtain ⟨a, b⟩ := ih (fun d hd => hx d (List.mem_cons_of_mem _ hd))
    rw [List.cons_append, List.takeWhile_cons, List.dropWhile_cons, if_pos hc, if_pos hc, a]
    exact ⟨rfl, b⟩

theorem take_clear {k : UInt8} (s : Str) : ∀ c ∈ s.takeWhile (· != k), c ≠ k := by
  intro c hc
  have := List.all_takeWhile (p := (· != k)) (l := s)
  rw [List.all_eq_true] at this
  simpa using this _ hc

theorem drop_head {k : UInt8} (s : Str) : s.dropWhile (· != k) = [] ∨ (s.dropWhile (· != k)).head? = some k := by
  cases hd : s.dropWhile (· != k) with
  | nil => exact .inl rfl
  | cons x t =>
    have := List.head?_dropWhile_not (p := (· != k)) (l := s)
    rw [hd] at this
    exact .inr (by simpa using this)

theorem letterB_iff : ∀ c : UInt8, ((97 ≤ c && c ≤ 122) || (65 ≤ c && c ≤ 90)) = true ↔ Letter c := by
  intro c
  unfold Letter
  simp only [Bool.or_eq_true, Bool.and_eq_true, decide_eq_true_eq]
  exact or_comm

theorem schemeB_iff : ∀ c : UInt8, ((48 ≤ c && c ≤ 57) || c == 43 || c == 45 || c == 46) = true ↔ (48 ≤ c ∧ c ≤ 57) ∨ c = 43 ∨ c = 45 ∨ c = 46 := by
  intro c
  simp only [Bool.or_eq_true, Bool.and_eq_true, decide_eq_true_eq, beq_iff_eq, or_assoc]

theorem scheme_rest (u : Str) : getscheme false u ≠ .err ∧ (getscheme false u = .some ↔
    ∃ s r, u = s ++ 58 :: r ∧ ∀ c ∈ s, Letter c ∨ (48 ≤ c ∧ c ≤ 57) ∨ c = 43 ∨ c = 45 ∨ c = 46) := by
  induction u with
  | nil =>
    refine ⟨by simp [getscheme], ?_⟩
    constructor
    · intro h; cases h
    · rintro ⟨s, r, h, _⟩
      simp at h
  | cons c u ih =>
    have push : (Letter c ∨ (48 ≤ c ∧ c ≤ 57) ∨ c = 43 ∨ c = 45 ∨ c = 46) → ¬ c = 58 →
        ((∃ s r, u = s ++ 58 :: r ∧ ∀ c ∈ s, Letter c ∨ (48 ≤ c ∧ c ≤ 57) ∨ c = 43 ∨ c = 45 ∨ c = 46) ↔
        ∃ s r, c :: u = s ++ 58 :: r ∧ ∀ c ∈ s, Letter c ∨ (48 ≤ c ∧ c ≤ 57) ∨ c = 43 ∨ c = 45 ∨ c = 46) := by
      intro hc h58
      constructor
      · rintro ⟨s, r, rfl, hs⟩
        refine ⟨c :: s, r, rfl, ?_⟩
        intro d hd
        rcases List.mem_cons.1 hd with rfl | hd
        · exact hc
        · exact hs d hd
      · rintro ⟨s, r, e, hs⟩
        cases s with
        | nil =>
          simp only [List.nil_append, List.cons.injEq] at e
          exact absurd e.1 h58
        | cons d s =>
          simp only [List.cons_append, List.cons.injEq] at e
          exact ⟨s, r, e.2, fun x hx => hs x (List.mem_cons_of_mem _ hx)⟩
    have h58l : Letter c → ¬ c = 58 := by rintro h rfl; revert h; unfold Letter; decide
    have h58s : ((48 ≤ c ∧ c ≤ 57) ∨ c = 43 ∨ c = 45 ∨ c = 46) → ¬ c = 58 := by rintro h rfl; revert h; decide
    unfold getscheme
    by_cases hl : Letter c
    · rw [if_pos ((letterB_iff c).2 hl)]
      exact ⟨ih.1, ih.2.trans (push (.inl hl) (h58l hl))⟩
    · rw [if_neg (fun h => hl ((letterB_iff c).1 h))]
      by_cases hs : (48 ≤ c ∧ c ≤ 57) ∨ c = 43 ∨ c = 45 ∨ c = 46
      · rw [if_pos ((schemeB_iff c).2 hs)]
        exact ⟨ih.1, ih.2.trans (push (.inr hs) (h58s hs))⟩
      · rw [if_neg (fun h => hs ((schemeB_iff c).1 h))]
        by_cases hc : c = 58
        · subst hc
          refine ⟨by simp [colon], ?_⟩
          refine ⟨fun _ => ⟨[], u, rfl, by simp⟩, fun _ => rfl⟩
        · rw [if_neg (by simpa [colon] using hc)]
          refine ⟨by simp, ?_⟩
          constructor
          · intro h; cases h
          · rintro ⟨s, r, e, hh⟩
            cases s with
            | nil =>
              simp only [List.nil_append, List.cons.injEq] at e
              exact absurd e.1 hc
            | cons d s =>
              simp only [List.cons_append, List.cons.injEq] at e
              have := hh d (List.mem_cons_self ..)
              rw [← e.1] at this
              rcases this with h | h
              · exact absurd h hl
              · exact absurd h hs

/-- `getscheme`: an error for a colon at the beginning, and otherwise a scheme as in RFC 3986. -/
theorem scheme_iff (u : Str) : (getscheme true u = .err ↔ u.head? = some 58) ∧ (getscheme true u = .some ↔ Absolute u) := by
  cases u with
  | nil =>
    refine ⟨by simp [getscheme], ?_⟩
    constructor
    · intro h; cases h
    · rintro ⟨s, r, h, _⟩; simp at h
  | cons c u =>
    obtain ⟨r1, r2⟩ := scheme_rest u
    unfold getscheme
    by_cases hl : Letter c
    · have h58 : ¬ c = 58 := by rintro rfl; revert hl; unfold Letter; decide
      rw [if_pos ((letterB_iff c).2 hl)]
      refine ⟨⟨fun h => absurd h r1, fun h => absurd (by simpa using h) h58⟩, r2.trans ?_⟩
      constructor
      · rintro ⟨s, r, rfl, hs⟩
        refine ⟨c :: s, r, rfl, ⟨c, s, rfl, hl⟩, ?_⟩
        intro d hd
        rcases List.mem_cons.1 hd with rfl | hd
        · exact .inl hl
        · exact hs d hd
      · rintro ⟨s, r, e, ⟨d, t, rfl, hd⟩, hs⟩
        simp only [List.cons_append, List.cons.injEq] at e
        exact ⟨t, r, e.2, fun x hx => hs x (List.mem_cons_of_mem _ hx)⟩
    · have hno : ¬ Absolute (c :: u) := by
        rintro ⟨s, r, e, ⟨d, t, rfl, hd⟩, hs⟩
        simp only [List.cons_append, List.cons.injEq] at e
        rw [← e.1] at hd
        exact hl hd
      rw [if_neg (fun h => hl ((letterB_iff c).1 h))]
      by_cases hs : (48 ≤ c ∧ c ≤ 57) ∨ c = 43 ∨ c = 45 ∨ c = 46
      · have h58 : ¬ c = 58 := by rintro rfl; revert hs; decide
        rw [if_pos ((schemeB_iff c).2 hs)]
        exact ⟨⟨fun h => (by cases h), fun h => absurd (by simpa using h) h58⟩, ⟨fun h => (by cases h), fun h => absurd h hno⟩⟩
      · rw [if_neg (fun h => hs ((schemeB_iff c).1 h))]
        by_cases hc : c = 58
        · subst hc
          exact ⟨⟨fun _ => rfl, fun _ => rfl⟩, ⟨fun h => (by cases h), fun h => absurd h hno⟩⟩
        · rw [if_neg (by simpa [colon] using hc)]
          exact ⟨⟨fun h => (by cases h), fun h => absurd (by simpa using h) hc⟩, ⟨fun h => (by cases h), fun h => absurd h hno⟩⟩

theorem ctl_iff : ∀ c : UInt8, ctlByte c = true ↔ (c < 32 ∨ c = 127) := by
  intro c
  unfold ctlByte
  simp only [Bool.or_eq_true, decide_eq_true_eq, beq_iff_eq]

theorem userByte_iff : ∀ c : UInt8, userByte c = true ↔ (Letter c ∨ (48 ≤ c ∧ c ≤ 57) ∨ c ∈ b!"-._:~!$&'()*+,;=%@") := by
  intro c
  unfold userByte Letter
  simp only [Bool.or_eq_true, Bool.and_eq_true, decide_eq_true_eq, List.contains_iff_mem, or_assoc]

theorem userOk_iff (a : Str) : userOk a = true ↔ a = [] ∨ ∃ u, a = u ++ b!"@" ∧ UserText u := by
  unfold userOk
  constructor
  · intro h
    cases hr : a.reverse with
    | nil => exact .inl (by simpa using hr)
    | cons c r =>
      rw [hr] at h
      have ha : a = r.reverse ++ [c] := by
        have := congrArg List.reverse hr
        simpa using this
      simp only [Bool.and_eq_true, beq_iff_eq, List.all_eq_true] at h
      obtain ⟨hc, ⟨h1, h2⟩, h3⟩ := h
      refine .inr ⟨r.reverse, ?_, fun x hx => (userByte_iff x).1 (h1 x hx), (escaped_iff _).1 h2, (escaped_iff _).1 h3⟩
      rw [ha, hc]
      rfl
  · rintro (rfl | ⟨u, rfl, h1, h2, h3⟩)
    · rfl
    · have e : (u ++ b!"@").reverse = atB :: u.reverse := by simp [atB]
      rw [e]
      simp only [beq_self_eq_true, Bool.true_and, List.reverse_reverse, Bool.and_eq_true, List.all_eq_true]
      exact ⟨⟨fun x hx => (userByte_iff x).2 (h1 x hx), (escaped_iff _).2 h2⟩, (escaped_iff _).2 h3⟩

theorem hasPrefix_iff (s p : Str) : hasPrefix s p = true ↔ ∃ r, s = p ++ r := by
  unfold hasPrefix
  rw [List.isPrefixOf_iff_prefix]
  exact ⟨fun ⟨r, h⟩ => ⟨r, h.symm⟩, fun ⟨r, h⟩ => ⟨r, h.symm⟩⟩

/-- no scheme -/
theorem getscheme_none {u : Str} (h1 : u.head? ≠ some 58) (h2 : ¬ Absolute u) : getscheme true u = .none := by
  obtain ⟨a, b⟩ := scheme_iff u
  cases h : getscheme true u with
  | err => exact absurd (a.1 h) h1
  | some => exact absurd (b.1 h) h2
  | none => rfl

theorem scheme_segment {s r : Str} (hs : SchemeText s) : 58 ∈ ((s ++ 58 :: r).takeWhile (· != quest)).takeWhile (· != slash) := by
  have hne : ∀ c ∈ s, c ≠ quest ∧ c ≠ slash := by
    intro c hc
    have := hs.2 c hc
    constructor
    · rintro rfl; revert this; unfold Letter; decide
    · rintro rfl; revert this; unfold Letter; decide
  have e1 : (s ++ 58 :: r).takeWhile (· != quest) = s ++ 58 :: r.takeWhile (· != quest) := by
    rw [List.takeWhile_append_of_pos (by intro c hc; simpa using (hne c hc).1), List.takeWhile_cons, if_pos (by decide)]
  rw [e1, List.takeWhile_append_of_pos (by intro c hc; simpa using (hne c hc).2), List.takeWhile_cons, if_pos (by decide)]
  simp

/-- `url.Parse` accepts a text without scheme and host exactly if it is a reference without them. -/
theorem local_iff (a : Str) : urlLocal a = true ↔ LocalRef a := by
  unfold urlLocal
  constructor
  · intro h
    rw [Bool.and_eq_true] at h
    obtain ⟨h, hf0⟩ := h
    have hf := (escaped_iff _).1 hf0
    clear hf0
    have hsplit : a = a.takeWhile (· != hashB) ++ a.dropWhile (· != hashB) := List.takeWhile_append_dropWhile.symm
    have hu35 := take_clear (k := hashB) a
    have hfr := drop_head (k := hashB) a
    revert hsplit h hf hu35 hfr
    generalize a.takeWhile (· != hashB) = u
    generalize a.dropWhile (· != hashB) = f
    rintro h hf rfl hu35 hfr
    unfold parseLocal at h
    by_cases hctl : u.any ctlByte = true
    · rw [if_pos hctl] at h; cases h
    · rw [if_neg hctl] at h
      have hctl : ∀ c ∈ u, ¬ (c < 32 ∨ c = 127) := by
        intro c hc hh
        exact hctl (List.any_eq_true.2 ⟨c, hc, (ctl_iff c).2 hh⟩)
      have hus : u = u.takeWhile (· != quest) ++ u.dropWhile (· != quest) := List.takeWhile_append_dropWhile.symm
      have hr63 := take_clear (k := quest) u
      have hq := drop_head (k := quest) u
      by_cases hst : u = [star]
      · subst hst
        exact ⟨[], [star], [], f, by simp, .inl rfl, hfr, by decide, by decide, by decide, (escaped_iff _).1 (by decide), hf,
          .inl ⟨rfl, (by intro c r e; cases e), fun _ => by decide⟩⟩
      · rw [if_neg hst] at h
        cases hg : getscheme true u with
        | err => rw [hg] at h; cases h
        | some => rw [hg] at h; cases h
        | none =>
          rw [hg] at h
          dsimp only at h
          revert h hus hr63 hq
          generalize u.takeWhile (· != quest) = rest
          generalize u.dropWhile (· != quest) = q
          rintro h hus hr63 hq
          subst hus
          have hm : ∀ c ∈ rest, c ≠ 63 ∧ c ≠ 35 := fun c hc => ⟨hr63 c hc, hu35 c (List.mem_append_left _ hc)⟩
          have hq35 : 35 ∉ q := fun hh => hu35 35 (List.mem_append_right _ hh) rfl
          by_cases hcol : rest.head? ≠ some slash ∧ (rest.takeWhile (· != slash)).contains colon = true
          · rw [if_pos hcol] at h; cases h
          · rw [if_neg hcol] at h
            have hcol : rest.head? ≠ some 47 → 58 ∉ rest.takeWhile (· != 47) := fun h1 h2 => hcol ⟨h1, List.contains_iff_mem.2 h2⟩
            by_cases hp : (hasPrefix rest b!"//" && !hasPrefix rest b!"///") = true
            · rw [if_pos hp] at h
              rw [Bool.and_eq_true, Bool.not_eq_true', hasPrefix_iff, Bool.eq_false_iff, Ne, hasPrefix_iff] at hp
              obtain ⟨⟨r, rfl⟩, hp3⟩ := hp
              have hdr : (b!"//" ++ r).drop 2 = r := rfl
              rw [hdr, Bool.and_eq_true, userOk_iff] at h
              obtain ⟨hu, hpe0⟩ := h
              have hpe := (escaped_iff _).1 hpe0
              clear hpe0
              have hrs : r = r.takeWhile (· != slash) ++ r.dropWhile (· != slash) := List.takeWhile_append_dropWhile.symm
              have hr47 := take_clear (k := slash) r
              have hph := drop_head (k := slash) r
              revert hu hpe hrs hr47 hph
              generalize r.takeWhile (· != slash) = auth
              generalize r.dropWhile (· != slash) = p
              rintro hu hpe hrs hr47 hph
              subst hrs
              rcases hu with rfl | ⟨w, rfl, hw⟩
              · rcases hph with rfl | hph
                · refine ⟨[], b!"//", q, f, by simp, hq, hfr, by decide, hq35, ?_, (escaped_iff _).1 (by decide), hf, .inl ⟨rfl, ?_, ?_⟩⟩
                  · intro c hc
                    exact hctl c (by simpa using hc)
                  · intro c r e; simp at e
                  · intro hh; exact absurd rfl hh
                · exfalso
                  cases p with
                  | nil => cases hph
                  | cons c p =>
                    have : c = 47 := by simpa using hph
                    subst this
                    exact hp3 ⟨p, rfl⟩
              · refine ⟨b!"//" ++ w ++ b!"@", p, q, f, by simp, hq, hfr, ?_, hq35, ?_, hpe, hf, .inr ⟨w, rfl, ?_, hw, hph⟩⟩
                · intro c hc
                  exact hm c (by simpa using hc)
                · intro c hc
                  exact hctl c (by simpa using hc)
                · intro hh
                  exact hr47 47 (by simp [hh]) rfl
            · rw [if_neg hp] at h
              refine ⟨[], rest, q, f, by simp, hq, hfr, by simpa using hm, hq35, by simpa using hctl, (escaped_iff _).1 h, hf,
                .inl ⟨rfl, ?_, hcol⟩⟩
              rintro c r rfl
              refine Classical.byContradiction (fun hc => hp ?_)
              rw [Bool.and_eq_true, Bool.not_eq_true', hasPrefix_iff, Bool.eq_false_iff, Ne, hasPrefix_iff]
              refine ⟨⟨c :: r, rfl⟩, ?_⟩
              rintro ⟨r', e⟩
              simp only [List.cons_append, List.nil_append, List.cons.injEq, true_and] at e
              exact hc e.1
  · rintro ⟨front, path, query, frag, rfl, hq, hfr, hm, hq35, hctl, hpe, hf, hcase⟩
    have hrest : ∀ c ∈ front ++ path ++ query, c ≠ 35 := by
      intro c hc
      rcases List.mem_append.1 hc with hc | hc
      · exact (hm c hc).2
      · rintro rfl; exact hq35 hc
    obtain ⟨e1, e2⟩ := cut_first (k := hashB) hrest hfr
    rw [e1, e2, Bool.and_eq_true]
    refine ⟨?_, (escaped_iff _).2 hf⟩
    obtain ⟨e3, e4⟩ := cut_first (k := quest) (fun c hc => (hm c hc).1) hq
    unfold parseLocal
    rw [if_neg (by
      rw [List.any_eq_true]
      rintro ⟨c, hc, hh⟩
      exact hctl c hc ((ctl_iff c).1 hh))]
    by_cases hst : front ++ path ++ query = [star]
    · rw [if_pos hst]
    · rw [if_neg hst]
      rcases hcase with ⟨rfl, h47, hcol⟩ | ⟨w, rfl, hw47, hw, hph⟩
      · rw [List.nil_append] at e3
        have hsch : getscheme true ([] ++ path ++ query) = .none := by
          rw [List.nil_append]
          apply getscheme_none
          · intro hh
            cases path with
            | nil =>
              rcases hq with rfl | hq
              · cases hh
              · rw [List.nil_append, hq] at hh; cases hh
            | cons c p =>
              have : c = 58 := by simpa using hh
              subst this
              exact hcol (by simp) (by simp)
          · rintro ⟨s, r, e, hs⟩
            have h58 := scheme_segment (r := r) hs
            rw [← e, e3] at h58
            by_cases hsl : path.head? = some 47
            · cases path with
              | nil => cases hsl
              | cons c p =>
                have : c = 47 := by simpa using hsl
                subst this
                simp [slash] at h58
            · exact hcol hsl h58
        rw [hsch]
        dsimp only
        rw [List.nil_append, e3, if_neg (by
          rintro ⟨h1, h2⟩
          exact hcol h1 (List.contains_iff_mem.1 h2))]
        by_cases hp : (hasPrefix path b!"//" && !hasPrefix path b!"///") = true
        · rw [if_pos hp]
          rw [Bool.and_eq_true, Bool.not_eq_true', hasPrefix_iff, Bool.eq_false_iff, Ne, hasPrefix_iff] at hp
          obtain ⟨⟨r, rfl⟩, hp3⟩ := hp
          cases r with
          | nil => decide
          | cons c r =>
            have := h47 c r rfl
            subst this
            exact absurd ⟨r, rfl⟩ hp3
        · rw [if_neg hp]
          exact (escaped_iff _).2 hpe
      · have hsch : getscheme true (b!"//" ++ w ++ b!"@" ++ path ++ query) = .none := rfl
        rw [hsch]
        dsimp only
        rw [e3, if_neg (by rintro ⟨h1, _⟩; exact h1 rfl)]
        have hw0 : ¬ ∃ r, b!"//" ++ w ++ b!"@" ++ path = b!"///" ++ r := by
          rintro ⟨r, e⟩
          cases w with
          | nil => simp at e
          | cons c w =>
            simp only [List.cons_append, List.nil_append, List.cons.injEq, true_and] at e
            rw [e.1] at hw47
            exact hw47 (by simp)
        rw [if_pos (by
          rw [Bool.and_eq_true, Bool.not_eq_true', hasPrefix_iff, Bool.eq_false_iff, Ne, hasPrefix_iff]
          exact ⟨⟨w ++ b!"@" ++ path, by simp⟩, hw0⟩)]
        have hd2 : (b!"//" ++ w ++ b!"@" ++ path).drop 2 = (w ++ b!"@") ++ path := by simp
        rw [hd2]
        obtain ⟨e5, e6⟩ := cut_first (k := slash) (x := w ++ b!"@") (y := path) (by
          intro c hc
          rcases List.mem_append.1 hc with hc | hc
          · rintro rfl; exact hw47 hc
          · rw [List.mem_singleton.1 hc]; decide) hph
        rw [e5, e6, Bool.and_eq_true, userOk_iff]
        exact ⟨.inr ⟨w, rfl, hw⟩, (escaped_iff _).2 hpe⟩

end Water
