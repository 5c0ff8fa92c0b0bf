import Verif.Lemmas.Rfc3339
import Verif.Model.HttpDate
import Verif.Spec.HttpDate
/- The dates of HTTP: writing them is right, and reading takes exactly the texts of `ReadsImf`. -/
namespace Water
open Spec

/-! ### names and spaces -/

theorem or32 : ∀ a : UInt8, (a ||| 32).toNat = if a.toNat / 32 % 2 = 1 then a.toNat else a.toNat + 32 := by
  refine all_bytes ?_
  decide +kernel

theorem sameLetter_iff (a b : UInt8) : (a == b || ((a ||| 32) == (b ||| 32) && decide (97 ≤ (a ||| 32)) && decide ((a ||| 32) ≤ 122))) = true ↔
    sameLetter a b := by
  have ha := or32 a
  have hb := or32 b
  have h1 := a.toNat_lt
  have h2 := b.toNat_lt
  unfold sameLetter
  simp only [Bool.or_eq_true, beq_iff_eq, Bool.and_eq_true, decide_eq_true_eq, UInt8.le_iff_toNat_le, ← UInt8.toNat_inj]
  rw [ha, hb]
  generalize a.toNat = x at *
  generalize b.toNat = y at *
  have e1 : UInt8.toNat 97 = 97 := rfl
  have e2 : UInt8.toNat 122 = 122 := rfl
  rw [e1, e2]
  by_cases hx : x / 32 % 2 = 1 <;> by_cases hy : y / 32 % 2 = 1 <;> simp only [hx, hy, if_true, if_false] <;> omega

theorem matchFold_iff (s t : Str) : matchFold s t = true ↔ AnyCase s t := by
  induction s generalizing t with
  | nil =>
    cases t with
    | nil => exact ⟨fun _ => .nil, fun _ => rfl⟩
    | cons b t => exact ⟨fun h => (nomatch h), fun h => (nomatch h)⟩
  | cons a s ih =>
    cases t with
    | nil => exact ⟨fun h => (nomatch h), fun h => (nomatch h)⟩
    | cons b t =>
      rw [matchFold, Bool.and_eq_true, sameLetter_iff, ih]
      exact ⟨fun h => .cons h.1 h.2, fun h => by cases h with | cons h1 h2 => exact ⟨h1, h2⟩⟩

theorem anyCase_length {s t : Str} (h : AnyCase s t) : s.length = t.length := by
  induction h with
  | nil => rfl
  | cons _ _ ih => simp [ih]

theorem anyCase_refl (s : Str) : AnyCase s s := by
  induction s with
  | nil => exact .nil
  | cons a s ih => exact .cons (.inl rfl) ih

/-- the letter as a small one -/
def lowLetter (c : UInt8) : UInt8 := if 65 ≤ c.toNat ∧ c.toNat ≤ 90 then c + 32 else c

theorem lowLetter_toNat : ∀ c : UInt8, (lowLetter c).toNat = if 65 ≤ c.toNat ∧ c.toNat ≤ 90 then c.toNat + 32 else c.toNat := by
  unfold lowLetter
  refine all_bytes ?_
  decide +kernel

theorem anyCase_low {s t : Str} (h : AnyCase s t) : s.map lowLetter = t.map lowLetter := by
  induction h with
  | nil => rfl
  | @cons a b s t h _ ih =>
    rw [List.map_cons, List.map_cons, ih]
    congr 1
    rw [← UInt8.toNat_inj, lowLetter_toNat, lowLetter_toNat]
    rcases h with rfl | h | h
    · rfl
    · rw [if_neg (by omega), if_pos (by omega)]; omega
    · rw [if_pos (by omega), if_neg (by omega)]; omega

/-- no two names are the same but for case -/
def distinctLow (tab : List Str) : Prop := ∀ (i j : Nat) (a b : Str), tab[i]? = some a → tab[j]? = some b → a.map lowLetter = b.map lowLetter → i = j

theorem lookupName_sound {tab : List Str} {i : Nat} {s r : Str} {k : Nat} (h : lookupName tab i s = some (k, r)) :
    ∃ j name w, k = i + j ∧ tab[j]? = some name ∧ AnyCase w name ∧ s = w ++ r := by
  induction tab generalizing i with
  | nil => cases h
  | cons v tab ih =>
    rw [lookupName] at h
    split at h
    · rename_i hc
      cases h
      exact ⟨0, v, s.take v.length, rfl, rfl, (matchFold_iff _ _).1 hc.2, (List.take_append_drop _ _).symm⟩
    · obtain ⟨j, name, w, h1, h2, h3, h4⟩ := ih h
      exact ⟨j + 1, name, w, by omega, h2, h3, h4⟩

theorem lookupName_complete {tab : List Str} (hd : distinctLow tab) (hl : ∀ v ∈ tab, v.length = 3) {i j : Nat} {name w r : Str}
    (h1 : tab[j]? = some name) (h2 : AnyCase w name) : lookupName tab i (w ++ r) = some (i + j, r) := by
  have hw : w.length = 3 := by rw [anyCase_length h2]; exact hl _ (List.mem_of_getElem? h1)
  induction tab generalizing i j with
  | nil => cases h1
  | cons v tab ih =>
    have hv := hl v List.mem_cons_self
    have ht : (w ++ r).take v.length = w := by rw [hv, ← hw, List.take_left']; rfl
    rw [lookupName, ht]
    cases j with
    | zero =>
      cases h1
      rw [if_pos ⟨by rw [List.length_append, hv, hw]; omega, (matchFold_iff _ _).2 h2⟩]
      rw [hv, ← hw, List.drop_left']
      · rfl
      · rfl
    | succ j =>
      rw [if_neg]
      · have := ih (i := i + 1) (j := j) (fun a b x y ha hb hx => by
          have := hd (a + 1) (b + 1) x y ha hb hx
          omega) (fun x hx => hl x (List.mem_cons_of_mem _ hx)) h1
        rw [this]
        congr 2
        omega
      · rintro ⟨_, hm⟩
        have e1 := anyCase_low ((matchFold_iff _ _).1 hm)
        have e2 := anyCase_low h2
        have := hd 0 (j + 1) v name rfl h1 (e1.symm.trans e2)
        omega

theorem distinct_of {tab : List Str} (h : ∀ i : Fin tab.length, ∀ j : Fin tab.length, (tab[i.1]).map lowLetter = (tab[j.1]).map lowLetter → i.1 = j.1) :
    distinctLow tab := by
  intro i j a b ha hb he
  obtain ⟨hi, rfl⟩ := List.getElem?_eq_some_iff.1 ha
  obtain ⟨hj, rfl⟩ := List.getElem?_eq_some_iff.1 hb
  exact h ⟨i, hi⟩ ⟨j, hj⟩ he

theorem day_names : shortDayNames = dayNames := rfl
theorem month_names : shortMonthNames = monthNames := rfl

theorem day_lookup {s r : Str} {k : Nat} : lookupName shortDayNames 0 s = some (k, r) ↔
    ∃ name w, dayNames[k]? = some name ∧ AnyCase w name ∧ s = w ++ r := by
  constructor
  · intro h
    obtain ⟨j, name, w, h1, h2, h3, h4⟩ := lookupName_sound h
    rw [Nat.zero_add] at h1
    subst h1
    exact ⟨name, w, h2, h3, h4⟩
  · rintro ⟨name, w, h1, h2, rfl⟩
    have := lookupName_complete (tab := shortDayNames) (distinct_of (by decide +kernel)) (by decide +kernel) (i := 0) (r := r) h1 h2
    rwa [Nat.zero_add] at this

theorem month_lookup {s r : Str} {k : Nat} : lookupName shortMonthNames 0 s = some (k, r) ↔
    ∃ name w, monthNames[k]? = some name ∧ AnyCase w name ∧ s = w ++ r := by
  constructor
  · intro h
    obtain ⟨j, name, w, h1, h2, h3, h4⟩ := lookupName_sound h
    rw [Nat.zero_add] at h1
    subst h1
    exact ⟨name, w, h2, h3, h4⟩
  · rintro ⟨name, w, h1, h2, rfl⟩
    have := lookupName_complete (tab := shortMonthNames) (distinct_of (by decide +kernel)) (by decide +kernel) (i := 0) (r := r) h1 h2
    rwa [Nat.zero_add] at this

theorem spaces_drop {s r : Str} (h : Spaces s) (hr : r.head? ≠ some 32) : (s ++ r).dropWhile (· == 32) = r := by
  have base : r.dropWhile (· == (32 : UInt8)) = r := by
    cases r with
    | nil => rfl
    | cons c r =>
      rw [List.dropWhile_cons_of_neg]
      intro hc
      exact hr (by rw [eq_of_beq hc]; rfl)
  induction h with
  | one => show (32 :: r).dropWhile _ = r; rw [List.dropWhile_cons_of_pos rfl, base]
  | more _ ih => rw [List.cons_append, List.dropWhile_cons_of_pos rfl]; exact ih

theorem spaces_split (s : Str) : ∃ a r, s = a ++ r ∧ (a = [] ∨ Spaces a) ∧ r.head? ≠ some 32 := by
  induction s with
  | nil => exact ⟨[], [], rfl, .inl rfl, by simp⟩
  | cons c s ih =>
    by_cases hc : c = 32
    · subst hc
      obtain ⟨a, r, rfl, h1, h2⟩ := ih
      refine ⟨32 :: a, r, rfl, .inr ?_, h2⟩
      rcases h1 with rfl | h1
      · exact .one
      · exact .more h1
    · exact ⟨[], c :: s, rfl, .inl rfl, fun h => hc (Option.some.inj h)⟩

/-- a space of the layout, before something that is no space -/
theorem skip_space {s r : Str} (hne : r ≠ []) : skipPrefix [32] s = some r ↔ r.head? ≠ some 32 ∧ ∃ a, Spaces a ∧ s = a ++ r := by
  have e : skipPrefix [32] s = if s.head?.any (· != 32) then none else some (s.dropWhile (· == 32)) := by
    rw [skipPrefix, if_pos rfl]; rfl
  rw [e]
  constructor
  · intro h
    split at h
    · cases h
    · rename_i hh
      have h' := Option.some.inj h
      obtain ⟨a, r', rfl, h1, h2⟩ := spaces_split s
      rcases h1 with rfl | h1
      · exfalso
        cases r' with
        | nil => exact hne h'.symm
        | cons c r' =>
          have : c ≠ 32 := fun hc => h2 (by rw [hc]; rfl)
          exact hh (by simpa using this)
      · rw [spaces_drop h1 h2] at h'
        subst h'
        exact ⟨h2, a, h1, rfl⟩
  · rintro ⟨hr, a, h1, rfl⟩
    rw [spaces_drop h1 hr, if_neg]
    cases h1 <;> simp

theorem skip_byte {c : UInt8} (hc : c ≠ 32) (p s : Str) : skipPrefix (c :: p) s = (skipByte c s).bind (skipPrefix p) := by
  rw [skipPrefix, if_neg hc]
  unfold skipByte
  split <;> rfl

theorem skip_one {c : UInt8} (hc : c ≠ 32) (s : Str) : skipPrefix [c] s = skipByte c s := by
  rw [skip_byte hc]
  cases skipByte c s <;> rfl

theorem skip_comma {s r : Str} (hne : r ≠ []) : skipPrefix b!", " s = some r ↔ r.head? ≠ some 32 ∧ ∃ a, Spaces a ∧ s = 44 :: (a ++ r) := by
  rw [skip_byte (by decide), Option.bind_eq_some_iff]
  constructor
  · rintro ⟨q, h1, h2⟩
    rw [skipByte_iff] at h1
    obtain ⟨h3, a, h4, rfl⟩ := (skip_space hne).1 h2
    exact ⟨h3, a, h4, h1⟩
  · rintro ⟨h1, a, h2, rfl⟩
    exact ⟨_, skipByte_iff.2 rfl, (skip_space hne).2 ⟨h1, a, h2, rfl⟩⟩

theorem skip_gmt {s : Str} : skipPrefix b!" GMT" s = some [] ↔ ∃ a, Spaces a ∧ s = a ++ b!"GMT" := by
  have e : skipPrefix b!" GMT" s = (skipPrefix [32] s).bind (skipPrefix b!"GMT") := by
    rw [skipPrefix, if_pos rfl]
    conv => rhs; rw [skipPrefix, if_pos rfl]
    split <;> rfl
  have e2 : ∀ q, skipPrefix b!"GMT" q = some [] ↔ q = b!"GMT" := by
    intro q
    rw [skip_byte (by decide)]
    constructor
    · intro h
      obtain ⟨q1, h1, h2⟩ := Option.bind_eq_some_iff.1 h
      rw [skip_byte (by decide)] at h2
      obtain ⟨q2, h3, h4⟩ := Option.bind_eq_some_iff.1 h2
      rw [skip_one (by decide)] at h4
      rw [skipByte_iff] at h1 h3 h4
      subst h4; subst h3; exact h1
    · rintro rfl; rfl
  rw [e, Option.bind_eq_some_iff]
  constructor
  · rintro ⟨q, h1, h2⟩
    rw [e2] at h2
    subst h2
    exact ((skip_space (by decide)).1 h1).2
  · rintro ⟨a, h1, rfl⟩
    exact ⟨_, (skip_space (by decide)).2 ⟨by decide, a, h1, rfl⟩, (e2 _).2 rfl⟩

/-! ### reading -/

/-- the steps of `parseImf` -/
theorem imf_steps {s : Str} {v : Int} : parseImf s = some v ↔
    ∃ k s1 s2 day s3 s4 mon s5 s6 year s7 hour s8 s9 min s10 s11 sec s12 nsec s13,
      lookupName shortDayNames 0 s = some (k, s1) ∧ skipPrefix b!", " s1 = some s2 ∧ getnum true s2 = some (day, s3) ∧
      skipPrefix b!" " s3 = some s4 ∧ lookupName shortMonthNames 0 s4 = some (mon, s5) ∧ skipPrefix b!" " s5 = some s6 ∧
      (¬ (s6.length < 4 ∨ s6.head?.any timeDigit = false) ∧ timeAtoi (s6.take 4) = some year) ∧ skipPrefix b!" " (s6.drop 4) = some s7 ∧
      getnum false s7 = some (hour, s8) ∧ ¬ 24 ≤ hour ∧ skipPrefix b!":" s8 = some s9 ∧ getnum true s9 = some (min, s10) ∧
      ¬ 60 ≤ min ∧ skipPrefix b!":" s10 = some s11 ∧ getnum true s11 = some (sec, s12) ∧ ¬ 60 ≤ sec ∧ timeFraction s12 = some (nsec, s13) ∧
      skipPrefix b!" GMT" s13 = some [] ∧ ¬ (day < 1 ∨ daysIn (mon + 1) year.toNat < day) ∧
      v = unixDate year.toNat (mon + 1) day hour min sec * 1000000000 + nsec := by
  unfold parseImf
  simp only [Option.bind_eq_some_iff, Option.ite_none_left_eq_some, Prod.exists]
  constructor
  · rintro ⟨k, s1, e1, s2, e2, day, s3, e3, s4, e4, mon, s5, e5, s6, e6, h0, year, e7, s7, e8, hour, s8, e9, hh, s9, e10, min, s10, e11, hm, s11, e12,
      sec, s12, e13, hs, nsec, s13, e14, s14, e15, he, hd, hv⟩
    have he' : s14 = [] := Decidable.not_not.1 he
    subst he'
    exact ⟨k, s1, s2, day, s3, s4, mon, s5, s6, year, s7, hour, s8, s9, min, s10, s11, sec, s12, nsec, s13, e1, e2, e3, e4, e5, e6, ⟨h0, e7⟩, e8, e9,
      hh, e10, e11, hm, e12, e13, hs, e14, e15, hd, (Option.some.inj hv).symm⟩
  · rintro ⟨k, s1, s2, day, s3, s4, mon, s5, s6, year, s7, hour, s8, s9, min, s10, s11, sec, s12, nsec, s13, e1, e2, e3, e4, e5, e6, ⟨h0, e7⟩, e8, e9,
      hh, e10, e11, hm, e12, e13, hs, e14, e15, hd, rfl⟩
    exact ⟨k, s1, e1, s2, e2, day, s3, e3, s4, e4, mon, s5, e5, s6, e6, h0, year, e7, s7, e8, hour, s8, e9, hh, s9, e10, min, s10, e11, hm, s11, e12,
      sec, s12, e13, hs, nsec, s13, e14, [], e15, fun h => h rfl, hd, rfl⟩

theorem digit_ne_space {c : UInt8} (h : timeDigit c = true) : c ≠ 32 := by
  rintro rfl
  revert h; decide

theorem two_head {n : Nat} (h : n < 100) (r : Str) : two n ++ r ≠ [] ∧ (two n ++ r).head? ≠ some 32 := by
  obtain ⟨a, b, e, ha, _⟩ := two_digits h
  rw [e]
  exact ⟨by simp, fun h => digit_ne_space ha (Option.some.inj h)⟩

theorem four_head {n : Nat} (h : n < 10000) (r : Str) : four n ++ r ≠ [] ∧ (four n ++ r).head? ≠ some 32 := by
  have := two_head (n := n / 100) (by omega) (two n ++ r)
  unfold four
  rw [List.append_assoc]
  exact this

theorem hour_head {hh : Str} {n : Nat} (h : AnyHour hh n) (r : Str) : hh ++ r ≠ [] ∧ (hh ++ r).head? ≠ some 32 := by
  cases h with
  | two h => exact two_head (by omega) r
  | one h => exact ⟨by simp, fun e => digit_ne_space (digit_forth h).1 (Option.some.inj e)⟩

theorem month_head {w name : Str} {k : Nat} (h1 : monthNames[k]? = some name) (h2 : AnyCase w name) (r : Str) :
    w ++ r ≠ [] ∧ (w ++ r).head? ≠ some 32 := by
  have key : ∀ name ∈ monthNames, ∃ c t, name = c :: t ∧ lowLetter c ≠ 32 := by
    intro name hn
    have : ∀ name ∈ monthNames, name.head?.any (fun c => lowLetter c != 32) = true := by decide +kernel
    have := this name hn
    cases name with
    | nil => cases this
    | cons c t => exact ⟨c, t, rfl, by simpa using this⟩
  obtain ⟨c, t, rfl, hc⟩ := key name (List.mem_of_getElem? h1)
  cases h2 with
  | @cons a _ s _ h3 h4 =>
    refine ⟨by simp, fun he => ?_⟩
    have ha : a = 32 := Option.some.inj he
    have := anyCase_low (.cons h3 h4 : AnyCase (a :: s) (c :: t))
    rw [List.map_cons, List.map_cons] at this
    have := (List.cons.inj this).1
    rw [ha] at this
    exact hc (this.symm.trans (by decide +kernel))

theorem spaces_head {a : Str} (h : Spaces a) (r : Str) : noDigit (a ++ r) ∧ (a ++ r).head? ≠ some 46 := by
  have : (a ++ r).head? = some 32 := by cases h <;> rfl
  rw [this]
  refine ⟨fun c hc => ?_, by decide⟩
  rw [this] at hc
  cases hc
  decide

theorem parseImf_iff (s : Str) (v : Int) : parseImf s = some v ↔ ∃ t u, ReadsImf s t ∧ t.Unix u ∧ v = u * 1000000000 + t.ns := by
  rw [imf_steps]
  constructor
  · rintro ⟨k, s1, s2, day, s3, s4, mon, s5, s6, year, s7, hour, s8, s9, min, s10, s11, sec, s12, nsec, s13, e1, e2, e3, e4, e5, e6, h0, e8, e9,
      hh, e10, e11, hm, e12, e13, hs, e14, e15, hd, rfl⟩
    obtain ⟨dn, dn', d1, d2, rfl⟩ := day_lookup.1 e1
    obtain ⟨hday, rfl⟩ := getnum_true.1 e3
    obtain ⟨-, a1, sp1, rfl⟩ := (skip_comma (two_head hday _).1).1 e2
    obtain ⟨mn, mn', m1, m2, rfl⟩ := month_lookup.1 e5
    obtain ⟨-, a2, sp2, rfl⟩ := (skip_space (month_head m1 m2 _).1).1 e4
    obtain ⟨y, r, hy, rfl, rfl⟩ := year_iff.1 h0
    obtain ⟨-, a3, sp3, rfl⟩ := (skip_space (four_head hy _).1).1 e6
    rw [skip_one (by decide)] at e10 e12
    obtain ⟨hw, hhw, rfl⟩ := hour_iff.1 ⟨s8, e9, hh, e10⟩
    rw [List.drop_left' (four_length y)] at e8
    obtain ⟨-, a4, sp4, rfl⟩ := (skip_space (hour_head hhw _).1).1 e8
    obtain ⟨_, rfl⟩ := getnum_true.1 e11
    rw [skipByte_iff] at e12
    subst e12
    obtain ⟨_, rfl⟩ := getnum_true.1 e13
    obtain ⟨a5, sp5, rfl⟩ := skip_gmt.1 e15
    obtain ⟨fr, rfl, hfr⟩ := (timeFraction_iff (spaces_head sp5 _)).1 e14
    rw [Int.toNat_natCast] at hd ⊢
    have hmon : mon < 12 := by
      obtain ⟨h, _⟩ := List.getElem?_eq_some_iff.1 m1
      exact h
    have hv : Date.Valid ⟨y, mon + 1, day⟩ := by
      refine ⟨by show 1 ≤ mon + 1; omega, by show mon + 1 ≤ 12; omega, by show 1 ≤ day; omega, ?_⟩
      show day ≤ monthDays y (mon + 1)
      rw [← daysIn_eq (by omega) (by omega)]
      omega
    refine ⟨⟨⟨y, mon + 1, day⟩, hour, min, sec, nsec, 0⟩, _, ?_, (unixDate_iff hv _).2 rfl, by simp⟩
    have := ReadsImf.mk (t := ⟨⟨y, mon + 1, day⟩, hour, min, sec, nsec, 0⟩) hy hv hhw (by show min < 60; omega) (by show sec < 60; omega) hfr rfl
      (List.mem_of_getElem? d1) d2 m1 m2 sp1 sp2 sp3 sp4 sp5
    simpa using this
  · rintro ⟨t, u, h, hu, rfl⟩
    cases h with
    | @mk _ dn mn dn' mn' a1 a2 a3 a4 a5 hw fr hy hv hhw hmin hsec hfr hoff d1 d2 m1 m2 sp1 sp2 sp3 sp4 sp5 =>
    have hv' := hv
    obtain ⟨v1, v2, v3, v4⟩ := hv'
    have hd := (monthDays_pos t.date.y t.date.m).2
    obtain ⟨k, hk⟩ := List.getElem?_of_mem d1
    obtain ⟨q, g1, g2, g3⟩ := (hour_iff (r := two t.min ++ 58 :: (two t.sec ++ (fr ++ (a5 ++ b!"GMT"))))).2 ⟨hw, hhw, rfl⟩
    have e : t.date.m - 1 + 1 = t.date.m := by omega
    refine ⟨k, (44 :: (a1 ++ (two t.date.d ++ (a2 ++ (mn' ++ (a3 ++ (four t.date.y ++ (a4 ++ (hw ++ 58 :: (two t.min ++ (58 :: (two t.sec ++ (fr ++ (a5 ++ b!"GMT")))))))))))))),
      (two t.date.d ++ (a2 ++ (mn' ++ (a3 ++ (four t.date.y ++ (a4 ++ (hw ++ 58 :: (two t.min ++ (58 :: (two t.sec ++ (fr ++ (a5 ++ b!"GMT")))))))))))), t.date.d,
      (a2 ++ (mn' ++ (a3 ++ (four t.date.y ++ (a4 ++ (hw ++ 58 :: (two t.min ++ (58 :: (two t.sec ++ (fr ++ (a5 ++ b!"GMT"))))))))))),
      (mn' ++ (a3 ++ (four t.date.y ++ (a4 ++ (hw ++ 58 :: (two t.min ++ (58 :: (two t.sec ++ (fr ++ (a5 ++ b!"GMT")))))))))), t.date.m - 1,
      (a3 ++ (four t.date.y ++ (a4 ++ (hw ++ 58 :: (two t.min ++ (58 :: (two t.sec ++ (fr ++ (a5 ++ b!"GMT"))))))))),
      (four t.date.y ++ (a4 ++ (hw ++ 58 :: (two t.min ++ (58 :: (two t.sec ++ (fr ++ (a5 ++ b!"GMT")))))))), t.date.y,
      (hw ++ 58 :: (two t.min ++ (58 :: (two t.sec ++ (fr ++ (a5 ++ b!"GMT")))))), t.h, q,
      (two t.min ++ (58 :: (two t.sec ++ (fr ++ (a5 ++ b!"GMT"))))), t.min, (58 :: (two t.sec ++ (fr ++ (a5 ++ b!"GMT")))), (two t.sec ++ (fr ++ (a5 ++ b!"GMT"))), t.sec, (fr ++ (a5 ++ b!"GMT")), t.ns, (a5 ++ b!"GMT"),
      day_lookup.2 ⟨dn, dn', hk, d2, by simp⟩, (skip_comma (two_head (by omega) _).1).2 ⟨(two_head (by omega) _).2, a1, sp1, rfl⟩,
      getnum_true.2 ⟨by omega, rfl⟩, (skip_space (month_head m1 m2 _).1).2 ⟨(month_head m1 m2 _).2, a2, sp2, rfl⟩,
      month_lookup.2 ⟨mn, mn', m1, m2, rfl⟩, (skip_space (four_head hy _).1).2 ⟨(four_head hy _).2, a3, sp3, rfl⟩,
      year_iff.2 ⟨t.date.y, _, hy, rfl, rfl⟩, ?_, g1, g2, ?_,
      getnum_true.2 ⟨by omega, rfl⟩, by omega, ?_, getnum_true.2 ⟨by omega, rfl⟩, by omega,
      (timeFraction_iff (spaces_head sp5 _)).2 ⟨fr, rfl, hfr⟩, skip_gmt.2 ⟨a5, sp5, rfl⟩, ?_, ?_⟩
    · rw [List.drop_left' (four_length _)]
      exact (skip_space (hour_head hhw _).1).2 ⟨(hour_head hhw _).2, a4, sp4, rfl⟩
    · rw [skip_one (by decide)]; exact g3
    · rw [skip_one (by decide)]; exact skipByte_iff.2 rfl
    · rw [Int.toNat_natCast, e, daysIn_eq v1 v2]
      omega
    · have := (unixDate_iff hv u).1 hu
      rw [hoff, Int.sub_zero] at this
      rw [Int.toNat_natCast, e, this]

end Water
