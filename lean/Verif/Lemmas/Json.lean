import Verif.Spec.Json
import Verif.Lemmas.Text
import Verif.Lemmas.HttpFormat
import Verif.Lemmas.Util
/- Lemmas about UTF-8 and JSON texts. -/
namespace Water
open Spec

/-! ### UTF-8 -/

theorem inRange_ofNat {lo hi : UInt8} {x : Nat} (hx : x < 256) : inRange lo hi (UInt8.ofNat x) = true ↔ lo.toNat ≤ x ∧ x ≤ hi.toNat := by
  simp only [inRange, Bool.and_eq_true, decide_eq_true_eq, UInt8.le_iff_toNat_le, UInt8.toNat_ofNat', Nat.mod_eq_of_lt hx]

theorem ofNat_eq {x y : Nat} (hx : x < 256) (hy : y < 256) : UInt8.ofNat x = UInt8.ofNat y ↔ x = y := by
  rw [← UInt8.toNat_inj, UInt8.toNat_ofNat', UInt8.toNat_ofNat', Nat.mod_eq_of_lt hx, Nat.mod_eq_of_lt hy]

theorem lt_ofNat {x y : Nat} (hx : x < 256) (hy : y < 256) : UInt8.ofNat x < UInt8.ofNat y ↔ x < y := by
  rw [UInt8.lt_iff_toNat_lt, UInt8.toNat_ofNat', UInt8.toNat_ofNat', Nat.mod_eq_of_lt hx, Nat.mod_eq_of_lt hy]

theorem decodeRune_char {n : Nat} (h : CodePoint n) (s : Str) : decodeRune (charBytes n ++ s) = (n, (charBytes n).length) := by
  have hn : n < 0x110000 := by rcases h with h | h <;> omega
  unfold charBytes
  by_cases h1 : n < 0x80
  · rw [if_pos h1]
    have e : UInt8.ofNat n < 0x80 := (lt_ofNat (by omega) (by decide)).2 h1
    simp only [List.cons_append, List.nil_append, decodeRune, if_pos e, UInt8.toNat_ofNat', List.length_cons, List.length_nil]
    rw [Nat.mod_eq_of_lt (by omega)]
  rw [if_neg h1]
  by_cases h2 : n < 0x800
  · rw [if_pos h2]
    have e0 : ¬ UInt8.ofNat (0xC0 + n / 64) < 0x80 := by
      rw [show (0x80 : UInt8) = UInt8.ofNat 0x80 from rfl, lt_ofNat (by omega) (by decide)]; omega
    have e1 : inRange 0xC2 0xDF (UInt8.ofNat (0xC0 + n / 64)) = true :=
      (inRange_ofNat (by omega)).2 ⟨show 194 ≤ _ by omega, show _ ≤ 223 by omega⟩
    have e2 : inRange 0x80 0xBF (UInt8.ofNat (0x80 + n % 64)) = true :=
      (inRange_ofNat (by omega)).2 ⟨show 128 ≤ _ by omega, show _ ≤ 191 by omega⟩
    simp only [List.cons_append, List.nil_append, decodeRune, if_neg e0, if_pos e1, if_pos e2, UInt8.toNat_ofNat', List.length_cons,
      List.length_nil, Prod.mk.injEq, and_true]
    omega
  rw [if_neg h2]
  by_cases h3 : n < 0x10000
  · rw [if_pos h3]
    have e0 : ¬ UInt8.ofNat (0xE0 + n / 4096) < 0x80 := by
      rw [show (0x80 : UInt8) = UInt8.ofNat 0x80 from rfl, lt_ofNat (by omega) (by decide)]; omega
    have e1 : ¬ inRange 0xC2 0xDF (UInt8.ofNat (0xE0 + n / 4096)) = true := by
      rw [inRange_ofNat (by omega)]
      rintro ⟨-, (h : _ ≤ 223)⟩
      omega
    have e1' : inRange 0xE0 0xEF (UInt8.ofNat (0xE0 + n / 4096)) = true :=
      (inRange_ofNat (by omega)).2 ⟨show 224 ≤ _ by omega, show _ ≤ 239 by omega⟩
    have e2 : inRange (if UInt8.ofNat (0xE0 + n / 4096) = 0xE0 then 0xA0 else 0x80) (if UInt8.ofNat (0xE0 + n / 4096) = 0xED then 0x9F else 0xBF)
        (UInt8.ofNat (0x80 + n / 64 % 64)) = true := by
      rw [inRange_ofNat (by omega)]
      refine ⟨?_, ?_⟩
      · split
        · rename_i g
          have : 0xE0 + n / 4096 = 0xE0 := (ofNat_eq (by omega) (by decide)).1 g
          show 160 ≤ _; omega
        · show 128 ≤ _; omega
      · split
        · rename_i g
          have : 0xE0 + n / 4096 = 0xED := (ofNat_eq (by omega) (by decide)).1 g
          show _ ≤ 159
          rcases h with h | h <;> omega
        · show _ ≤ 191; omega
    have e3 : inRange 0x80 0xBF (UInt8.ofNat (0x80 + n % 64)) = true :=
      (inRange_ofNat (by omega)).2 ⟨show 128 ≤ _ by omega, show _ ≤ 191 by omega⟩
    simp only [List.cons_append, List.nil_append, decodeRune, if_neg e0, if_neg e1, if_pos e1', e2, e3, Bool.and_self, if_true, UInt8.toNat_ofNat',
      List.length_cons, List.length_nil, Prod.mk.injEq, and_true]
    omega
  · rw [if_neg h3]
    have e0 : ¬ UInt8.ofNat (0xF0 + n / 262144) < 0x80 := by
      rw [show (0x80 : UInt8) = UInt8.ofNat 0x80 from rfl, lt_ofNat (by omega) (by decide)]; omega
    have e1 : ¬ inRange 0xC2 0xDF (UInt8.ofNat (0xF0 + n / 262144)) = true := by
      rw [inRange_ofNat (by omega)]
      rintro ⟨-, (h : _ ≤ 223)⟩
      omega
    have e1' : ¬ inRange 0xE0 0xEF (UInt8.ofNat (0xF0 + n / 262144)) = true := by
      rw [inRange_ofNat (by omega)]
      rintro ⟨-, (h : _ ≤ 239)⟩
      omega
    have e1'' : inRange 0xF0 0xF4 (UInt8.ofNat (0xF0 + n / 262144)) = true :=
      (inRange_ofNat (by omega)).2 ⟨show 240 ≤ _ by omega, show _ ≤ 244 by omega⟩
    have e2 : inRange (if UInt8.ofNat (0xF0 + n / 262144) = 0xF0 then 0x90 else 0x80) (if UInt8.ofNat (0xF0 + n / 262144) = 0xF4 then 0x8F else 0xBF)
        (UInt8.ofNat (0x80 + n / 4096 % 64)) = true := by
      rw [inRange_ofNat (by omega)]
      refine ⟨?_, ?_⟩
      · split
        · rename_i g
          have : 0xF0 + n / 262144 = 0xF0 := (ofNat_eq (by omega) (by decide)).1 g
          show 144 ≤ _; omega
        · show 128 ≤ _; omega
      · split
        · rename_i g
          have : 0xF0 + n / 262144 = 0xF4 := (ofNat_eq (by omega) (by decide)).1 g
          show _ ≤ 143
          omega
        · show _ ≤ 191; omega
    have e3 : inRange 0x80 0xBF (UInt8.ofNat (0x80 + n / 64 % 64)) = true :=
      (inRange_ofNat (by omega)).2 ⟨show 128 ≤ _ by omega, show _ ≤ 191 by omega⟩
    have e4 : inRange 0x80 0xBF (UInt8.ofNat (0x80 + n % 64)) = true :=
      (inRange_ofNat (by omega)).2 ⟨show 128 ≤ _ by omega, show _ ≤ 191 by omega⟩
    simp only [List.cons_append, List.nil_append, decodeRune, if_neg e0, if_neg e1, if_neg e1', if_pos e1'', e2, e3, e4, Bool.and_self, if_true,
      UInt8.toNat_ofNat', List.length_cons, List.length_nil, Prod.mk.injEq, and_true]
    omega

theorem ofNat_self {a : UInt8} {x : Nat} (h : x = a.toNat) : UInt8.ofNat x = a := by
  rw [h, UInt8.ofNat_toNat]

/-- What `decodeRune` finds in a byte that is not ASCII: a character, or an error. -/
theorem decodeRune_high {a : UInt8} (rest : Str) (ha : ¬ a < 0x80) :
    decodeRune (a :: rest) = (0xFFFD, 1) ∨
      ∃ n r, CodePoint n ∧ 0x80 ≤ n ∧ a :: rest = charBytes n ++ r ∧ decodeRune (a :: rest) = (n, (charBytes n).length) := by
  have hle : ∀ {x y : UInt8}, x ≤ y ↔ x.toNat ≤ y.toNat := UInt8.le_iff_toNat_le
  have fin : ∀ n r, CodePoint n → 0x80 ≤ n → a :: rest = charBytes n ++ r →
      ∃ n r, CodePoint n ∧ 0x80 ≤ n ∧ a :: rest = charBytes n ++ r ∧ decodeRune (a :: rest) = (n, (charBytes n).length) := by
    intro n r h h' e
    exact ⟨n, r, h, h', e, by rw [e]; exact decodeRune_char h r⟩
  have key : ∀ v, decodeRune (a :: rest) = v → v = (0xFFFD, 1) ∨ ∃ n r, CodePoint n ∧ 0x80 ≤ n ∧ a :: rest = charBytes n ++ r := by
    intro v hv
    rw [← hv]
    unfold decodeRune
    simp only [if_neg ha]
    split
    · rename_i h2
      simp only [inRange, Bool.and_eq_true, decide_eq_true_eq, hle] at h2
      obtain ⟨(h2 : 194 ≤ _), (h2' : _ ≤ 223)⟩ := h2
      split
      · rename_i b bs
        split
        · rename_i hb
          simp only [inRange, Bool.and_eq_true, decide_eq_true_eq, hle] at hb
          obtain ⟨(hb : 128 ≤ _), (hb' : _ ≤ 191)⟩ := hb
          refine .inr ⟨(a.toNat - 192) * 64 + (b.toNat - 128), bs, by left; omega, by omega, ?_⟩
          unfold charBytes
          rw [if_neg (by omega), if_pos (by omega), ofNat_self (a := a) (by omega), ofNat_self (a := b) (by omega)]
          rfl
        · exact .inl rfl
      · exact .inl rfl
    · split
      · rename_i h2
        simp only [inRange, Bool.and_eq_true, decide_eq_true_eq, hle] at h2
        obtain ⟨(h2 : 224 ≤ _), (h2' : _ ≤ 239)⟩ := h2
        split
        · rename_i b c bs
          generalize hlo : (if a = 0xE0 then (0xA0 : UInt8) else 0x80) = lo
          generalize hhi : (if a = 0xED then (0x9F : UInt8) else 0xBF) = hi
          split
          · rename_i hb
            rw [← hlo, ← hhi] at hb
            simp only [inRange, Bool.and_eq_true, decide_eq_true_eq, hle] at hb
            obtain ⟨⟨hb1, hb2⟩, (hc1 : 128 ≤ _), (hc2 : _ ≤ 191)⟩ := hb
            have g1 : 128 ≤ b.toNat := Nat.le_trans (by split <;> decide) hb1
            have g2 : b.toNat ≤ 191 := Nat.le_trans hb2 (by split <;> decide)
            have g3 : a.toNat = 224 → 160 ≤ b.toNat := by
              intro h
              rw [if_pos (show a = 0xE0 from UInt8.toNat_inj.1 h)] at hb1
              exact hb1
            have g4 : a.toNat = 237 → b.toNat ≤ 159 := by
              intro h
              rw [if_pos (show a = 0xED from UInt8.toNat_inj.1 h)] at hb2
              exact hb2
            refine .inr ⟨(a.toNat - 224) * 4096 + (b.toNat - 128) * 64 + (c.toNat - 128), bs, ?_, by omega, ?_⟩
            · unfold CodePoint; omega
            · unfold charBytes
              rw [if_neg (by omega), if_neg (by omega), if_pos (by omega), ofNat_self (a := a) (by omega), ofNat_self (a := b) (by omega),
                ofNat_self (a := c) (by omega)]
              rfl
          · exact .inl rfl
        · exact .inl rfl
      · split
        · rename_i h2
          simp only [inRange, Bool.and_eq_true, decide_eq_true_eq, hle] at h2
          obtain ⟨(h2 : 240 ≤ _), (h2' : _ ≤ 244)⟩ := h2
          split
          · rename_i b c d bs
            generalize hlo : (if a = 0xF0 then (0x90 : UInt8) else 0x80) = lo
            generalize hhi : (if a = 0xF4 then (0x8F : UInt8) else 0xBF) = hi
            split
            · rename_i hb
              rw [← hlo, ← hhi] at hb
              simp only [inRange, Bool.and_eq_true, decide_eq_true_eq, hle] at hb
              obtain ⟨⟨⟨hb1, hb2⟩, (hc1 : 128 ≤ _), (hc2 : _ ≤ 191)⟩, (hd1 : 128 ≤ _), (hd2 : _ ≤ 191)⟩ := hb
              have g1 : 128 ≤ b.toNat := Nat.le_trans (by split <;> decide) hb1
              have g2 : b.toNat ≤ 191 := Nat.le_trans hb2 (by split <;> decide)
              have g3 : a.toNat = 240 → 144 ≤ b.toNat := by
                intro h
                rw [if_pos (show a = 0xF0 from UInt8.toNat_inj.1 h)] at hb1
                exact hb1
              have g4 : a.toNat = 244 → b.toNat ≤ 143 := by
                intro h
                rw [if_pos (show a = 0xF4 from UInt8.toNat_inj.1 h)] at hb2
                exact hb2
              refine .inr ⟨(a.toNat - 240) * 262144 + (b.toNat - 128) * 4096 + (c.toNat - 128) * 64 + (d.toNat - 128), bs, ?_, by omega, ?_⟩
              · unfold CodePoint; omega
              · unfold charBytes
                rw [if_neg (by omega), if_neg (by omega), if_neg (by omega), ofNat_self (a := a) (by omega), ofNat_self (a := b) (by omega),
                  ofNat_self (a := c) (by omega), ofNat_self (a := d) (by omega)]
                rfl
            · exact .inl rfl
          · exact .inl rfl
        · exact .inl rfl
  rcases key _ rfl with h | ⟨n, r, h1, h2, h3⟩
  · exact .inl h
  · exact .inr (fin n r h1 h2 h3)

theorem charBytes_prefix {m n : Nat} (hm : CodePoint m) (hn : CodePoint n) {s r : Str} (h : charBytes m ++ s = charBytes n ++ r) : m = n ∧ s = r := by
  have e := decodeRune_char hm s
  rw [h, decodeRune_char hn r] at e
  obtain ⟨rfl, -⟩ := Prod.mk.inj e
  exact ⟨rfl, List.append_cancel_left h⟩

theorem charBytes_ascii {n : Nat} (h : n < 0x80) : charBytes n = [UInt8.ofNat n] := if_pos h

theorem charBytes_byte (c : UInt8) (h : c < 0x80) : charBytes c.toNat = [c] := by
  rw [charBytes_ascii (UInt8.lt_iff_toNat_lt.1 h), UInt8.ofNat_toNat]

theorem codePoint_byte (c : UInt8) (h : c < 0x80) : CodePoint c.toNat := by
  have : c.toNat < 128 := UInt8.lt_iff_toNat_lt.1 h
  left; omega

theorem charBytes_ne (n : Nat) : ∃ a r, charBytes n = a :: r := by
  unfold charBytes
  split
  · exact ⟨_, _, rfl⟩
  split
  · exact ⟨_, _, rfl⟩
  split <;> exact ⟨_, _, rfl⟩

theorem charBytes_high {n : Nat} (h : CodePoint n) (h' : 0x80 ≤ n) : ∀ c ∈ charBytes n, 0x80 ≤ c := by
  have hn : n < 0x110000 := by rcases h with h | h <;> omega
  have key : ∀ x, x < 256 → 128 ≤ x → (0x80 : UInt8) ≤ UInt8.ofNat x := by
    intro x h1 h2
    rw [UInt8.le_iff_toNat_le, UInt8.toNat_ofNat', Nat.mod_eq_of_lt h1]; exact h2
  intro c hc
  unfold charBytes at hc
  rw [if_neg (by omega)] at hc
  split at hc
  · simp only [List.mem_cons, List.not_mem_nil, or_false] at hc
    rcases hc with rfl | rfl <;> apply key <;> omega
  split at hc
  · simp only [List.mem_cons, List.not_mem_nil, or_false] at hc
    rcases hc with rfl | rfl | rfl <;> apply key <;> omega
  · simp only [List.mem_cons, List.not_mem_nil, or_false] at hc
    rcases hc with rfl | rfl | rfl | rfl <;> apply key <;> omega

/-- A byte that does not begin a character. -/
theorem decodeRune_bad {c : UInt8} {s : Str} (h : ∀ n, CodePoint n → ¬ charBytes n <+: c :: s) : ¬ c < 0x80 ∧ decodeRune (c :: s) = (0xFFFD, 1) := by
  have hc : ¬ c < 0x80 := by
    intro hc
    exact h c.toNat (codePoint_byte c hc) ⟨s, by rw [charBytes_byte c hc]; rfl⟩
  refine ⟨hc, ?_⟩
  rcases decodeRune_high s hc with e | ⟨n, r, h1, -, h3, -⟩
  · exact e
  · exact absurd ⟨r, h3.symm⟩ (h n h1)

theorem bad_of_decode {c : UInt8} {s : Str} (h : decodeRune (c :: s) = (0xFFFD, 1)) : ∀ n, CodePoint n → ¬ charBytes n <+: c :: s := by
  rintro n hn ⟨r, e⟩
  rw [← e, decodeRune_char hn r] at h
  obtain ⟨rfl, h⟩ := Prod.mk.inj h
  exact absurd h (by decide)

theorem cleaned_total : ∀ (f : Nat) (s : Str), s.length ≤ f → ∃ t, Cleaned s t := by
  intro f
  induction f with
  | zero =>
    intro s h
    rw [List.length_eq_zero_iff.1 (Nat.le_zero.1 h)]
    exact ⟨_, .nil⟩
  | succ f ih =>
    intro s h
    cases s with
    | nil => exact ⟨_, .nil⟩
    | cons c s =>
      have h' : s.length ≤ f := by simp only [List.length_cons] at h; omega
      by_cases hc : c < 0x80
      · obtain ⟨t, ht⟩ := ih s h'
        have := Cleaned.good (codePoint_byte c hc) ht
        rw [charBytes_byte c hc] at this
        exact ⟨_, this⟩
      · rcases decodeRune_high s hc with e | ⟨n, r, h1, h2, h3, -⟩
        · obtain ⟨t, ht⟩ := ih s h'
          exact ⟨_, .bad (bad_of_decode e) ht⟩
        · obtain ⟨a, b, hab⟩ := charBytes_ne n
          have hl : r.length ≤ f := by
            have := congrArg List.length h3
            rw [hab] at this
            simp only [List.length_cons, List.length_append] at this
            omega
          obtain ⟨t, ht⟩ := ih r hl
          rw [h3]
          exact ⟨_, .good h1 ht⟩

theorem cleaned_unique {s t : Str} (h : Cleaned s t) : ∀ {t'}, Cleaned s t' → t' = t := by
  induction h with
  | nil =>
    intro t' h'
    generalize hs : ([] : Str) = s at h'
    cases h' with
    | nil => rfl
    | good h1 h2 =>
      obtain ⟨a, b, hab⟩ := charBytes_ne _
      rw [hab] at hs; cases hs
    | bad h1 h2 => cases hs
  | @good n s t hn _ ih =>
    intro t' h'
    generalize hs : charBytes n ++ s = s' at h'
    cases h' with
    | nil =>
      obtain ⟨a, b, hab⟩ := charBytes_ne n
      rw [hab] at hs; cases hs
    | good h1 h2 =>
      obtain ⟨rfl, rfl⟩ := charBytes_prefix hn h1 hs
      rw [ih h2]
    | bad h1 h2 => exact absurd ⟨s, hs⟩ (h1 n hn)
  | @bad c s t hb _ ih =>
    intro t' h'
    generalize hs : c :: s = s' at h'
    cases h' with
    | nil => cases hs
    | good h1 h2 => exact absurd ⟨_, hs.symm⟩ (hb _ h1)
    | bad h1 h2 =>
      obtain ⟨rfl, rfl⟩ := List.cons.inj hs
      rw [ih h2]

theorem cleaned_valid {s : Str} (h : ValidUtf8 s) : Cleaned s s := by
  obtain ⟨l, hl, rfl⟩ := h
  induction l with
  | nil => exact .nil
  | cons n l ih => exact .good (hl n List.mem_cons_self) (ih (fun m hm => hl m (List.mem_cons_of_mem _ hm)))

theorem valid_cleaned {s t : Str} (h : Cleaned s t) : ValidUtf8 t := by
  induction h with
  | nil => exact ⟨[], by simp, rfl⟩
  | @good n _ _ hn _ ih =>
    obtain ⟨l, hl, rfl⟩ := ih
    refine ⟨n :: l, ?_, rfl⟩
    intro m hm
    rcases List.mem_cons.1 hm with rfl | hm
    · exact hn
    · exact hl m hm
  | bad _ _ ih =>
    obtain ⟨l, hl, rfl⟩ := ih
    refine ⟨0xFFFD :: l, ?_, rfl⟩
    intro m hm
    rcases List.mem_cons.1 hm with rfl | hm
    · right; decide
    · exact hl m hm

/-! ### Strings -/

theorem strText_append {a x b y : Str} (h : StrText a x) (h' : StrText b y) : StrText (a ++ b) (x ++ y) := by
  induction h with
  | nil => exact h'
  | plain h1 h2 h3 _ ih => exact .plain h1 h2 h3 ih
  | esc h1 _ ih => exact .esc h1 ih
  | uni h1 h2 _ ih =>
    have := StrText.uni h1 h2 ih
    simpa only [List.cons_append, List.append_assoc] using this
  | pair h1 h2 h3 h4 h5 h6 _ ih =>
    have := StrText.pair h1 h2 h3 h4 h5 h6 ih
    simpa only [List.cons_append, List.append_assoc] using this

theorem strText_high {a : Str} (h : ∀ c ∈ a, 0x80 ≤ c) : StrText a a := by
  induction a with
  | nil => exact .nil
  | cons c a ih =>
    have hc : 0x80 ≤ c.toNat := UInt8.le_iff_toNat_le.1 (h c List.mem_cons_self)
    refine .plain (UInt8.le_iff_toNat_le.2 (show 32 ≤ _ by omega)) ?_ ?_ (ih (fun x hx => h x (List.mem_cons_of_mem _ hx)))
    · rintro rfl; exact absurd hc (by decide)
    · rintro rfl; exact absurd hc (by decide)

theorem jsonEsc_cases : ∀ c : UInt8, c < 0x80 → jsonSafe c = false ∨ c < 32 ∨ c = 34 ∨ c = 92 →
    (∃ p ∈ escapes, p.2 = c ∧ jsonEsc c = [92, p.1]) ∨
    (jsonEsc c = [92, 117, 48, 48, hexDigit (c.toNat / 16), hexDigit (c.toNat % 16)] ∧ digitOf (hexDigit (c.toNat / 16)) = some (c.toNat / 16) ∧
      digitOf (hexDigit (c.toNat % 16)) = some (c.toNat % 16)) := by
  apply all_bytes; decide +kernel

theorem strText_esc (c : UInt8) (h : c < 0x80) (h' : jsonSafe c = false ∨ c < 32 ∨ c = 34 ∨ c = 92) : StrText (jsonEsc c) [c] := by
  rcases jsonEsc_cases c h h' with ⟨⟨e, d⟩, hp, rfl, e1⟩ | ⟨e1, e2, e3⟩
  · rw [e1]; exact .esc hp .nil
  · rw [e1]
    have hx : Hex4 [48, 48, hexDigit (c.toNat / 16), hexDigit (c.toNat % 16)] c.toNat :=
      ⟨_, _, _, _, 0, 0, c.toNat / 16, c.toNat % 16, rfl, rfl, rfl, e2, e3, by omega⟩
    have := StrText.uni hx (codePoint_byte c h) .nil
    rw [charBytes_byte c h] at this
    exact this

theorem jsonSafe_plain : ∀ c : UInt8, jsonSafe c = true → 32 ≤ c ∧ c ≠ 34 ∧ c ≠ 92 := by
  apply all_bytes; decide +kernel

theorem strText_ascii (c : UInt8) (h : c < 0x80) : StrText (if jsonSafe c then [c] else jsonEsc c) [c] := by
  by_cases hs : jsonSafe c = true
  · rw [if_pos hs]
    obtain ⟨h1, h2, h3⟩ := jsonSafe_plain c hs
    exact .plain h1 h2 h3 .nil
  · rw [if_neg hs]
    exact strText_esc c h (.inl (Bool.eq_false_iff.2 hs))

/-- What is written for a string says the string, without what is not UTF-8. -/
theorem jsonStrF_text {s t : Str} (h : Cleaned s t) : ∀ f, s.length ≤ f → StrText (jsonStrF f s) t := by
  induction h with
  | nil => intro f _; cases f <;> exact .nil
  | @good n s t hn _ ih =>
    intro f hf
    obtain ⟨a, r, har⟩ := charBytes_ne n
    rw [har] at hf
    simp only [List.cons_append, List.length_cons, List.length_append] at hf
    obtain ⟨f, rfl⟩ : ∃ g, f = g + 1 := ⟨f - 1, by omega⟩
    have ih' := ih f (by omega)
    by_cases h1 : n < 0x80
    · have hb : UInt8.ofNat n < 0x80 := (lt_ofNat (by omega) (by decide)).2 h1
      rw [charBytes_ascii h1, List.cons_append, List.nil_append, jsonStrF, if_pos hb]
      exact strText_append (strText_ascii _ hb) ih'
    · have hh := charBytes_high hn (Nat.not_lt.1 h1)
      have ha : ¬ a < 0x80 := by
        have : 0x80 ≤ a := hh a (by rw [har]; exact List.mem_cons_self)
        exact UInt8.not_lt.2 this
      have hd := decodeRune_char hn s
      have hlen : ¬ (n = 0xFFFD ∧ (charBytes n).length = 1) := by
        rintro ⟨rfl, e⟩; exact absurd e (by decide)
      have ht : (charBytes n ++ s).take (charBytes n).length = charBytes n := List.take_left
      have hr : (charBytes n ++ s).drop (charBytes n).length = s := List.drop_left
      rw [har] at hd ht hr
      rw [har, List.cons_append, jsonStrF, if_neg ha]
      rw [List.cons_append] at hd ht hr
      rw [hd]
      dsimp only
      rw [← har]
      rw [if_neg hlen]
      by_cases h2 : n = 0x2028 ∨ n = 0x2029
      · rw [if_pos h2, har, hr]
        refine strText_append ?_ ih'
        rw [← har]
        rcases h2 with rfl | rfl
        · exact StrText.uni (h := b!"2028") ⟨_, _, _, _, 2, 0, 2, 8, rfl, by decide, by decide, by decide, by decide, by decide⟩ hn .nil
        · exact StrText.uni (h := b!"2029") ⟨_, _, _, _, 2, 0, 2, 9, rfl, by decide, by decide, by decide, by decide, by decide⟩ hn .nil
      · rw [if_neg h2, har, ht, hr]
        rw [← har]
        exact strText_append (strText_high hh) ih'
  | @bad c s t hb _ ih =>
    intro f hf
    simp only [List.length_cons] at hf
    obtain ⟨f, rfl⟩ : ∃ g, f = g + 1 := ⟨f - 1, by omega⟩
    obtain ⟨hc, hd⟩ := decodeRune_bad hb
    rw [jsonStrF, if_neg hc, hd]
    dsimp only
    rw [if_pos ⟨rfl, rfl⟩]
    refine strText_append ?_ (ih f (by omega))
    exact StrText.uni (h := b!"fffd") (n := 0xFFFD) ⟨_, _, _, _, 15, 15, 15, 13, rfl, by decide, by decide, by decide, by decide, by decide⟩ (by right; decide) .nil

theorem name_plain : ∀ c : UInt8, (32 ≤ c && c != 34 && c != 92) = true → 32 ≤ c ∧ c ≠ 34 ∧ c ≠ 92 := by
  apply all_bytes; decide +kernel

theorem name_other : ∀ c : UInt8, (32 ≤ c && c != 34 && c != 92) ≠ true → c < 0x80 ∧ (c < 32 ∨ c = 34 ∨ c = 92) := by
  apply all_bytes; decide +kernel

theorem jsonName_text (s : Str) : StrText (s.flatMap (fun c => if 32 ≤ c && c != 34 && c != 92 then [c] else jsonEsc c)) s := by
  induction s with
  | nil => exact .nil
  | cons c s ih =>
    rw [List.flatMap_cons]
    refine strText_append (x := [c]) ?_ ih
    by_cases h : (32 ≤ c && c != 34 && c != 92) = true
    · rw [if_pos h]
      obtain ⟨h1, h2, h3⟩ := name_plain c h
      exact .plain h1 h2 h3 .nil
    · rw [if_neg h]
      obtain ⟨h1, h2⟩ := name_other c h
      exact strText_esc c h1 (.inr h2)

/-! ### Numbers -/

theorem digits_unique {n : Nat} {s : Str} (h : Digits decimals n s) : s = itoaNat n := by
  have dig : ∀ (d : Nat) (c : UInt8), decimals[d]? = some c → d < 10 ∧ c = UInt8.ofNat (48 + d) := by
    intro d c h
    have hd : d < decimals.length := by
      rcases Nat.lt_or_ge d decimals.length with h' | h'
      · exact h'
      · rw [List.getElem?_eq_none h'] at h; cases h
    have hd : d < 10 := hd
    have : ∀ d < 10, decimals[d]? = some (UInt8.ofNat (48 + d)) := by decide +kernel
    rw [this d hd] at h
    exact ⟨hd, (Option.some.inj h).symm⟩
  induction h with
  | one h =>
    obtain ⟨h1, rfl⟩ := dig _ _ h
    rw [itoaNat_step, if_pos h1]
  | @more n d s c hn _ h ih =>
    obtain ⟨h1, rfl⟩ := dig _ _ h
    have hl : decimals.length = 10 := by decide
    rw [itoaNat_step, hl, if_neg (by omega), show (10 * n + d) / 10 = n by omega, show (10 * n + d) % 10 = d by omega, ← ih]

theorem signedDigits_unique {i : Int} {s : Str} (h : SignedDigits decimals i s) : s = itoa i := by
  cases h with
  | natural h =>
    rw [digits_unique h]
    unfold itoa
    rw [if_neg (by omega)]; rfl
  | negative hn h =>
    rw [digits_unique h]
    unfold itoa
    rw [if_pos (by omega)]
    congr 2
    omega

theorem digits_intPart {n : Nat} {s : Str} (h : Digits decimals n s) : SomeDigits s ∧ (n ≠ 0 → s.head? ≠ some 48) ∧ (n = 0 → s = b!"0") := by
  induction h with
  | @one d c h =>
    refine ⟨⟨by simp, ?_⟩, ?_, ?_⟩
    · intro x hx
      rw [List.mem_singleton.1 hx]
      exact List.mem_of_getElem? h
    · intro hd e
      simp only [List.head?_cons, Option.some.injEq] at e
      rw [e] at h
      have : ∀ d < 10, decimals[d]? = some 48 → d = 0 := by decide +kernel
      have hl : d < 10 := by
        rcases Nat.lt_or_ge d decimals.length with h' | h'
        · exact h'
        · rw [List.getElem?_eq_none h'] at h; cases h
      exact hd (this d hl h)
    · rintro rfl
      have : c = 48 := by
        have e : decimals[0]? = some 48 := by decide
        rw [e] at h; exact (Option.some.inj h).symm
      rw [this]
  | @more n d s c hn _ h ih =>
    obtain ⟨⟨h1, h2⟩, h3, -⟩ := ih
    refine ⟨⟨by simp, ?_⟩, ?_, ?_⟩
    · intro x hx
      rcases List.mem_append.1 hx with hx | hx
      · exact h2 x hx
      · rw [List.mem_singleton.1 hx]; exact List.mem_of_getElem? h
    · intro _
      rw [show (s ++ [c]).head? = s.head? by cases s with | nil => exact absurd rfl h1 | cons x s => rfl]
      exact h3 hn
    · intro h0
      have hl : decimals.length = 10 := by decide
      rw [hl] at h0
      omega

theorem numText_int {i : Int} {s : Str} (h : SignedDigits decimals i s) : NumText s := by
  have key : ∀ {n : Nat} {s : Str}, Digits decimals n s → IntPart s := by
    intro n s h
    obtain ⟨h1, h2, h3⟩ := digits_intPart h
    by_cases hn : n = 0
    · exact .inl (h3 hn)
    · exact .inr ⟨h1, h2 hn⟩
  cases h with
  | natural h => exact ⟨[], _, [], [], by simp, .inl rfl, key h, .inl rfl, .inl rfl⟩
  | negative hn h => exact ⟨b!"-", _, [], [], by simp, .inr rfl, key h, .inl rfl, .inl rfl⟩

/-! ### What is written says the value -/

theorem blank_nil : JsonBlank [] := fun _ h => absurd h List.not_mem_nil

/-- What is written for the elements, fields or entries of a value says them. -/
def SaysParts : GVal → JTree → Prop
  | .list l, j => l ≠ [] → Denotes .elements (elementsJson l) j
  | .fields l, j => l ≠ [] → Denotes .members (fieldsJson l) j
  | .map l, j => l ≠ [] → Denotes .members (entriesJson l) j
  | _, _ => True

theorem encode_says {v : GVal} {j : JTree} (h : Shows v j) : Denotes .value v.encode j ∧ SaysParts v j := by
  induction h with
  | nil => rw [GVal.encode]; exact ⟨.null, trivial⟩
  | bool b => rw [GVal.encode]; exact ⟨by cases b; exact .false; exact .true, trivial⟩
  | int h => rw [GVal.encode, ← signedDigits_unique h]; exact ⟨.num (numText_int h), trivial⟩
  | float h => rw [GVal.encode]; exact ⟨.num h, trivial⟩
  | string h => rw [GVal.encode]; exact ⟨.str (jsonStrF_text h _ (Nat.le_refl _)), trivial⟩
  | list0 => rw [GVal.encode, elementsJson]; exact ⟨.arr0 blank_nil, fun h => absurd rfl h⟩
  | @list v j l js _ hl ih1 ih2 =>
    have he : Denotes .elements (elementsJson (v :: l)) (.arr (j :: js)) := by
      cases l with
      | nil =>
        cases hl
        rw [elementsJson]
        have := Denotes.element blank_nil ih1.1 blank_nil
        simpa only [List.nil_append, List.append_nil] using this
      | cons w l =>
        have := Denotes.elements blank_nil ih1.1 blank_nil (ih2.2 (by simp))
        rw [elementsJson]
        simpa only [List.nil_append, List.append_nil] using this
    refine ⟨?_, fun _ => he⟩
    rw [GVal.encode]
    exact .arr he
  | fields0 => rw [GVal.encode, fieldsJson]; exact ⟨.obj0 blank_nil, fun h => absurd rfl h⟩
  | @fields k v j l js _ hl ih1 ih2 =>
    have he : Denotes .members (fieldsJson ((k, v) :: l)) (.obj ((k, j) :: js)) := by
      cases l with
      | nil =>
        cases hl
        rw [fieldsJson]
        have := Denotes.member blank_nil (jsonName_text k) blank_nil blank_nil ih1.1 blank_nil
        simpa only [jsonName, List.nil_append, List.append_nil, List.append_assoc, List.cons_append] using this
      | cons w l =>
        have := Denotes.members blank_nil (jsonName_text k) blank_nil blank_nil ih1.1 blank_nil (ih2.2 (by simp))
        rw [fieldsJson]
        simpa only [jsonName, List.nil_append, List.append_nil, List.append_assoc, List.cons_append] using this
    refine ⟨?_, fun _ => he⟩
    rw [GVal.encode]
    exact .obj he
  | map0 => rw [GVal.encode, entriesJson]; exact ⟨.obj0 blank_nil, fun h => absurd rfl h⟩
  | @map k k' v j l js hk _ hl ih1 ih2 =>
    have ht := jsonStrF_text hk _ (Nat.le_refl _)
    have he : Denotes .members (entriesJson ((k, v) :: l)) (.obj ((k', j) :: js)) := by
      cases l with
      | nil =>
        cases hl
        rw [entriesJson]
        have := Denotes.member blank_nil ht blank_nil blank_nil ih1.1 blank_nil
        simpa only [jsonString, List.nil_append, List.append_nil, List.append_assoc, List.cons_append] using this
      | cons w l =>
        have := Denotes.members blank_nil ht blank_nil blank_nil ih1.1 blank_nil (ih2.2 (by simp))
        rw [entriesJson]
        simpa only [jsonString, List.nil_append, List.append_nil, List.append_assoc, List.cons_append] using this
    refine ⟨?_, fun _ => he⟩
    rw [GVal.encode]
    exact .obj he

/-! ### A text says one thing -/

theorem cons_app {x y : UInt8} {a b r r' : Str} (e : x :: a ++ r = y :: b ++ r') : x = y ∧ a ++ r = b ++ r' := List.cons.inj e

theorem hex4_unique {h h' : Str} {m n : Nat} (a : Hex4 h m) (b : Hex4 h' n) {r r' : Str} (e : h ++ r = h' ++ r') : h = h' ∧ m = n ∧ r = r' := by
  obtain ⟨a1, a2, a3, a4, w, x, y, z, rfl, e1, e2, e3, e4, rfl⟩ := a
  obtain ⟨b1, b2, b3, b4, w', x', y', z', rfl, f1, f2, f3, f4, rfl⟩ := b
  simp only [List.cons_append, List.nil_append, List.cons.injEq] at e
  obtain ⟨rfl, rfl, rfl, rfl, rfl⟩ := e
  rw [e1] at f1; rw [e2] at f2; rw [e3] at f3; rw [e4] at f4
  cases f1; cases f2; cases f3; cases f4
  exact ⟨rfl, rfl, rfl⟩

theorem escapes_unique : ∀ p ∈ escapes, ∀ q ∈ escapes, p.1 = q.1 → p.2 = q.2 := by decide
theorem escapes_u : ∀ p ∈ escapes, p.1 ≠ 117 := by decide

theorem strText_unique {t s : Str} (h : StrText t s) : ∀ {t' s' r r' : Str}, StrText t' s' → t ++ 34 :: r = t' ++ 34 :: r' → t = t' ∧ s = s' ∧ r = r' := by
  induction h with
  | nil =>
    intro t' s' r r' h' e
    cases h' with
    | nil => exact ⟨rfl, rfl, (List.cons.inj e).2⟩
    | plain h1 h2 h3 h4 => exact absurd (List.cons.inj e).1.symm h2
    | esc h1 h2 => exact absurd (List.cons.inj e).1 (by decide)
    | uni h1 h2 h3 => exact absurd (List.cons.inj e).1 (by decide)
    | pair h1 h2 h3 h4 h5 h6 h7 => exact absurd (List.cons.inj e).1 (by decide)
  | @plain c t s g1 g2 g3 _ ih =>
    intro t' s' r r' h' e
    cases h' with
    | nil => exact absurd (List.cons.inj e).1 g2
    | plain h1 h2 h3 h4 =>
      have e' := cons_app e
      obtain ⟨rfl, rfl, rfl⟩ := ih h4 e'.2
      rw [e'.1]
      exact ⟨rfl, rfl, rfl⟩
    | esc h1 h2 => exact absurd (List.cons.inj e).1 g3
    | uni h1 h2 h3 => exact absurd (List.cons.inj e).1 g3
    | pair h1 h2 h3 h4 h5 h6 h7 => exact absurd (List.cons.inj e).1 g3
  | @esc x c t s g1 _ ih =>
    intro t' s' r r' h' e
    cases h' with
    | nil => exact absurd (List.cons.inj e).1 (by decide)
    | plain h1 h2 h3 h4 => exact absurd (List.cons.inj e).1.symm h3
    | esc h1 h2 =>
      have e' := cons_app (cons_app e).2
      obtain ⟨rfl, rfl, rfl⟩ := ih h2 e'.2
      have : c = _ := escapes_unique _ g1 _ h1 e'.1
      rw [this, e'.1]
      exact ⟨rfl, rfl, rfl⟩
    | uni h1 h2 h3 => exact absurd (List.cons.inj (List.cons.inj e).2).1 (escapes_u _ g1)
    | pair h1 h2 h3 h4 h5 h6 h7 => exact absurd (List.cons.inj (List.cons.inj e).2).1 (escapes_u _ g1)
  | @uni h t s n g1 g2 _ ih =>
    intro t' s' r r' h' e
    cases h' with
    | nil => exact absurd (List.cons.inj e).1 (by decide)
    | plain h1 h2 h3 h4 => exact absurd (List.cons.inj e).1.symm h3
    | esc h1 h2 => exact absurd (List.cons.inj (List.cons.inj e).2).1.symm (escapes_u _ h1)
    | uni h1 h2 h3 =>
      simp only [List.append_assoc, List.cons_append, List.cons.injEq, true_and] at e
      obtain ⟨rfl, rfl, e⟩ := hex4_unique g1 h1 e
      obtain ⟨rfl, rfl, rfl⟩ := ih h3 e
      exact ⟨rfl, rfl, rfl⟩
    | pair h1 h2 h3 h4 h5 h6 h7 =>
      simp only [List.append_assoc, List.cons_append, List.cons.injEq, true_and] at e
      obtain ⟨rfl, rfl, e⟩ := hex4_unique g1 h1 e
      rcases g2 with g2 | g2 <;> omega
  | @pair h l t s m n g1 g2 g3 g4 g5 g6 _ ih =>
    intro t' s' r r' h' e
    cases h' with
    | nil => exact absurd (List.cons.inj e).1 (by decide)
    | plain h1 h2 h3 h4 => exact absurd (List.cons.inj e).1.symm h3
    | esc h1 h2 => exact absurd (List.cons.inj (List.cons.inj e).2).1.symm (escapes_u _ h1)
    | uni h1 h2 h3 =>
      simp only [List.append_assoc, List.cons_append, List.cons.injEq, true_and] at e
      obtain ⟨rfl, rfl, e⟩ := hex4_unique g1 h1 e
      rcases h2 with h2 | h2 <;> omega
    | pair h1 h2 h3 h4 h5 h6 h7 =>
      simp only [List.append_assoc, List.cons_append, List.cons.injEq, true_and] at e
      obtain ⟨rfl, rfl, e⟩ := hex4_unique g1 h1 e
      simp only [List.cons.injEq, true_and] at e
      obtain ⟨rfl, rfl, e⟩ := hex4_unique g2 h2 e
      obtain ⟨rfl, rfl, rfl⟩ := ih h7 e
      exact ⟨rfl, rfl, rfl⟩

/-- The bytes that numbers are made of. -/
def numBytes : Str := b!"0123456789+-.eE"

theorem numText_bytes {t : Str} (h : NumText t) : ∀ c ∈ t, c ∈ numBytes := by
  have hd : ∀ c ∈ decimals, c ∈ numBytes := by decide
  obtain ⟨sign, i, frac, exp, rfl, h1, h2, h3, h4⟩ := h
  intro c hc
  simp only [List.mem_append] at hc
  rcases hc with ((hc | hc) | hc) | hc
  · rcases h1 with rfl | rfl
    · cases hc
    · exact (by decide : ∀ c ∈ b!"-", c ∈ numBytes) c hc
  · rcases h2 with rfl | ⟨⟨-, h2⟩, -⟩
    · exact (by decide : ∀ c ∈ b!"0", c ∈ numBytes) c hc
    · exact hd c (h2 c hc)
  · rcases h3 with rfl | ⟨d, ⟨-, h3⟩, rfl⟩
    · cases hc
    · rcases List.mem_cons.1 hc with rfl | hc
      · decide
      · exact hd c (h3 c hc)
  · rcases h4 with rfl | ⟨x, s, d, h5, h6, ⟨-, h7⟩, rfl⟩
    · cases hc
    · simp only [List.cons_append, List.mem_cons, List.mem_append] at hc
      rcases hc with rfl | hc | hc
      · rcases h5 with rfl | rfl <;> decide
      · rcases h6 with rfl | rfl | rfl
        · cases hc
        · exact (by decide : ∀ c ∈ b!"+", c ∈ numBytes) c hc
        · exact (by decide : ∀ c ∈ b!"-", c ∈ numBytes) c hc
      · exact hd c (h7 c hc)

/-- The first byte of a number. -/
theorem numText_head {t : Str} (h : NumText t) : ∃ c r, t = c :: r ∧ c ∈ b!"-0123456789" := by
  obtain ⟨sign, i, frac, exp, rfl, h1, h2, -, -⟩ := h
  rcases h1 with rfl | rfl
  · rcases h2 with rfl | ⟨⟨h2, h3⟩, -⟩
    · exact ⟨48, frac ++ exp, rfl, by decide⟩
    · cases i with
      | nil => exact absurd rfl h2
      | cons c i =>
        refine ⟨c, i ++ frac ++ exp, rfl, ?_⟩
        have : c ∈ decimals := h3 c List.mem_cons_self
        exact (by decide : ∀ c ∈ decimals, c ∈ b!"-0123456789") c this
  · exact ⟨45, i ++ frac ++ exp, rfl, by decide⟩

/-- Two texts made of some bytes, each followed by something that does not begin with such a byte. -/
theorem span_unique {P : UInt8 → Prop} {a b r r' : Str} (ha : ∀ c ∈ a, P c) (hb : ∀ c ∈ b, P c) (hr : ∀ c, r.head? = some c → ¬ P c)
    (hr' : ∀ c, r'.head? = some c → ¬ P c) (e : a ++ r = b ++ r') : a = b ∧ r = r' := by
  induction a generalizing b with
  | nil =>
    cases b with
    | nil => exact ⟨rfl, e⟩
    | cons c b =>
      rw [List.nil_append] at e
      exact absurd (hb c List.mem_cons_self) (hr c (by rw [e]; rfl))
  | cons c a ih =>
    cases b with
    | nil =>
      rw [List.nil_append] at e
      exact absurd (ha c List.mem_cons_self) (hr' c (by rw [← e]; rfl))
    | cons d b =>
      have e' := cons_app e
      obtain ⟨rfl, rfl⟩ := ih (fun x hx => ha x (List.mem_cons_of_mem _ hx)) (fun x hx => hb x (List.mem_cons_of_mem _ hx)) e'.2
      rw [e'.1]
      exact ⟨rfl, rfl⟩

/-- What a value begins with. -/
def leads : JTree → Str
  | .null => b!"n"
  | .bool true => b!"t"
  | .bool false => b!"f"
  | .num _ => b!"-0123456789"
  | .str _ => [34]
  | .arr _ => b!"["
  | .obj _ => b!"{"

theorem value_head {p : JPart} {t : Str} {j : JTree} (h : Denotes p t j) (hp : p = .value) : ∃ c r, t = c :: r ∧ c ∈ leads j := by
  cases h with
  | null => exact ⟨110, b!"ull", rfl, by decide⟩
  | true => exact ⟨116, b!"rue", rfl, by decide⟩
  | false => exact ⟨102, b!"alse", rfl, by decide⟩
  | num h => exact numText_head h
  | str h => exact ⟨34, _, rfl, List.mem_cons_self⟩
  | arr0 h => exact ⟨91, _, rfl, List.mem_cons_self⟩
  | arr h => exact ⟨91, _, rfl, List.mem_cons_self⟩
  | obj0 h => exact ⟨123, _, rfl, List.mem_cons_self⟩
  | obj h => exact ⟨123, _, rfl, List.mem_cons_self⟩
  | element => cases hp
  | elements => cases hp
  | member => cases hp
  | members => cases hp

theorem leads_mem (j : JTree) : ∀ c ∈ leads j, c ∈ b!"ntf-0123456789\"[{" := by
  cases j with
  | bool b => cases b <;> decide
  | null => decide
  | num => exact (by decide : ∀ c ∈ b!"-0123456789", c ∈ b!"ntf-0123456789\"[{")
  | str => exact (by decide : ∀ c ∈ [34], c ∈ b!"ntf-0123456789\"[{")
  | arr => exact (by decide : ∀ c ∈ b!"[", c ∈ b!"ntf-0123456789\"[{")
  | obj => exact (by decide : ∀ c ∈ b!"{", c ∈ b!"ntf-0123456789\"[{")

/-- White space, then a value or a sign. -/
theorem blank_unique {a b r r' : Str} (ha : JsonBlank a) (hb : JsonBlank b) (hr : ∃ c x, r = c :: x ∧ c ∉ b!" \t\n\r")
    (hr' : ∃ c x, r' = c :: x ∧ c ∉ b!" \t\n\r") (e : a ++ r = b ++ r') : a = b ∧ r = r' := by
  obtain ⟨c, x, rfl, hc⟩ := hr
  obtain ⟨d, y, rfl, hd⟩ := hr'
  refine span_unique (P := fun c => c ∈ b!" \t\n\r") ha hb ?_ ?_ e
  · intro z hz; cases hz; exact hc
  · intro z hz; cases hz; exact hd

theorem value_nonblank {t : Str} {j : JTree} (h : Denotes .value t j) (r : Str) : ∃ c x, t ++ r = c :: x ∧ c ∉ b!" \t\n\r" := by
  obtain ⟨c, x, rfl, hc⟩ := value_head h rfl
  exact ⟨c, x ++ r, rfl, (by decide : ∀ c ∈ b!"ntf-0123456789\"[{", c ∉ b!" \t\n\r") c (leads_mem j c hc)⟩

/-- What may come after each part. -/
def Stops : JPart → Str → Prop
  | .value, r => ∀ c, r.head? = some c → c ∉ numBytes
  | .elements, r => ∃ x, r = 93 :: x
  | .members, r => ∃ x, r = 125 :: x

theorem stops_blank {b r : Str} (hb : JsonBlank b) (hr : ∃ c x, r = c :: x ∧ c ∉ numBytes) : Stops .value (b ++ r) := by
  intro c hc
  cases b with
  | nil =>
    obtain ⟨d, x, rfl, h⟩ := hr
    cases hc; exact h
  | cons d b =>
    cases hc
    exact (by decide : ∀ c ∈ b!" \t\n\r", c ∉ numBytes) _ (hb _ List.mem_cons_self)

theorem denotes_unique {p : JPart} {t : Str} {j : JTree} (h : Denotes p t j) :
    ∀ {t' j' r r'}, Denotes p t' j' → Stops p r → Stops p r' → t ++ r = t' ++ r' → t = t' ∧ j = j' ∧ r = r' := by
  induction h with
  | null =>
    intro t' j' r r' h' _ _ e
    cases h' with
    | null => exact ⟨rfl, rfl, List.append_cancel_left e⟩
    | num h =>
      obtain ⟨c, x, rfl, hc⟩ := numText_head h
      cases (List.cons.inj e).1; exact absurd hc (by decide)
    | _ => exact absurd (List.cons.inj e).1 (by decide)
  | true =>
    intro t' j' r r' h' _ _ e
    cases h' with
    | true => exact ⟨rfl, rfl, List.append_cancel_left e⟩
    | num h =>
      obtain ⟨c, x, rfl, hc⟩ := numText_head h
      cases (List.cons.inj e).1; exact absurd hc (by decide)
    | _ => exact absurd (List.cons.inj e).1 (by decide)
  | false =>
    intro t' j' r r' h' _ _ e
    cases h' with
    | false => exact ⟨rfl, rfl, List.append_cancel_left e⟩
    | num h =>
      obtain ⟨c, x, rfl, hc⟩ := numText_head h
      cases (List.cons.inj e).1; exact absurd hc (by decide)
    | _ => exact absurd (List.cons.inj e).1 (by decide)
  | @num t g =>
    intro t' j' r r' h' hr hr' e
    obtain ⟨c, x, hx, hc⟩ := numText_head g
    cases h' with
    | num h =>
      obtain ⟨rfl, rfl⟩ := span_unique (P := fun c => c ∈ numBytes) (numText_bytes g) (numText_bytes h) hr hr' e
      exact ⟨rfl, rfl, rfl⟩
    | _ =>
      rw [hx] at e
      have := (List.cons.inj e).1
      rw [this] at hc; exact absurd hc (by decide)
  | @str t s g =>
    intro t' j' r r' h' _ _ e
    cases h' with
    | str h =>
      simp only [List.append_assoc, List.cons_append, List.nil_append, List.cons.injEq, true_and] at e
      obtain ⟨rfl, rfl, rfl⟩ := strText_unique g h e
      exact ⟨rfl, rfl, rfl⟩
    | num h =>
      obtain ⟨c, x, rfl, hc⟩ := numText_head h
      cases (List.cons.inj e).1; exact absurd hc (by decide)
    | _ => exact absurd (List.cons.inj e).1 (by decide)
  | @arr0 w g =>
    intro t' j' r r' h' _ _ e
    cases h' with
    | arr0 h =>
      simp only [List.append_assoc, List.cons_append, List.nil_append, List.cons.injEq, true_and] at e
      obtain ⟨e0, f⟩ := blank_unique g h ⟨93, _, rfl, by decide⟩ ⟨93, _, rfl, by decide⟩ e
      subst e0
      clear e
      have e := f
      clear f
      exact ⟨rfl, rfl, (List.cons.inj e).2⟩
    | arr h =>
      exfalso
      cases h with
      | element h1 h2 h3 =>
        simp only [List.append_assoc, List.cons_append, List.nil_append, List.cons.injEq, true_and] at e
        obtain ⟨e0, f⟩ := blank_unique g h1 ⟨93, _, rfl, by decide⟩ (value_nonblank h2 _) e
        subst e0
        clear e
        have e := f
        clear f
        obtain ⟨c, x, rfl, hc⟩ := value_head h2 rfl
        have := leads_mem _ c hc
        rw [← (List.cons.inj e).1] at this
        exact absurd this (by decide)
      | elements h1 h2 h3 h4 =>
        simp only [List.append_assoc, List.cons_append, List.nil_append, List.cons.injEq, true_and] at e
        obtain ⟨e0, f⟩ := blank_unique g h1 ⟨93, _, rfl, by decide⟩ (value_nonblank h2 _) e
        subst e0
        clear e
        have e := f
        clear f
        obtain ⟨c, x, rfl, hc⟩ := value_head h2 rfl
        have := leads_mem _ c hc
        rw [← (List.cons.inj e).1] at this
        exact absurd this (by decide)
    | num h =>
      obtain ⟨c, x, rfl, hc⟩ := numText_head h
      cases (List.cons.inj e).1; exact absurd hc (by decide)
    | _ => exact absurd (List.cons.inj e).1 (by decide)
  | @arr t l g ih =>
    intro t' j' r r' h' _ _ e
    cases h' with
    | arr0 h =>
      exfalso
      cases g with
      | element h1 h2 h3 =>
        simp only [List.append_assoc, List.cons_append, List.nil_append, List.cons.injEq, true_and] at e
        obtain ⟨e0, f⟩ := blank_unique h1 h (value_nonblank h2 _) ⟨93, _, rfl, by decide⟩ e
        subst e0
        clear e
        have e := f
        clear f
        obtain ⟨c, x, rfl, hc⟩ := value_head h2 rfl
        have := leads_mem _ c hc
        rw [(List.cons.inj e).1] at this
        exact absurd this (by decide)
      | elements h1 h2 h3 h4 =>
        simp only [List.append_assoc, List.cons_append, List.nil_append, List.cons.injEq, true_and] at e
        obtain ⟨e0, f⟩ := blank_unique h1 h (value_nonblank h2 _) ⟨93, _, rfl, by decide⟩ e
        subst e0
        clear e
        have e := f
        clear f
        obtain ⟨c, x, rfl, hc⟩ := value_head h2 rfl
        have := leads_mem _ c hc
        rw [(List.cons.inj e).1] at this
        exact absurd this (by decide)
    | arr h =>
      simp only [List.append_assoc, List.cons_append, List.nil_append, List.cons.injEq, true_and] at e
      obtain ⟨rfl, e1, e2⟩ := ih h ⟨_, rfl⟩ ⟨_, rfl⟩ e
      cases e1
      exact ⟨rfl, rfl, (List.cons.inj e2).2⟩
    | num h =>
      obtain ⟨c, x, rfl, hc⟩ := numText_head h
      cases (List.cons.inj e).1; exact absurd hc (by decide)
    | _ => exact absurd (List.cons.inj e).1 (by decide)
  | @obj0 w g =>
    intro t' j' r r' h' _ _ e
    cases h' with
    | obj0 h =>
      simp only [List.append_assoc, List.cons_append, List.nil_append, List.cons.injEq, true_and] at e
      obtain ⟨e0, f⟩ := blank_unique g h ⟨125, _, rfl, by decide⟩ ⟨125, _, rfl, by decide⟩ e
      subst e0
      clear e
      have e := f
      clear f
      exact ⟨rfl, rfl, (List.cons.inj e).2⟩
    | obj h =>
      exfalso
      cases h with
      | member h1 =>
        simp only [List.append_assoc, List.cons_append, List.nil_append, List.cons.injEq, true_and] at e
        obtain ⟨e0, f⟩ := blank_unique g h1 ⟨125, _, rfl, by decide⟩ ⟨34, _, rfl, by decide⟩ e
        subst e0
        clear e
        have e := f
        clear f
        exact absurd (List.cons.inj e).1 (by decide)
      | members h1 =>
        simp only [List.append_assoc, List.cons_append, List.nil_append, List.cons.injEq, true_and] at e
        obtain ⟨e0, f⟩ := blank_unique g h1 ⟨125, _, rfl, by decide⟩ ⟨34, _, rfl, by decide⟩ e
        subst e0
        clear e
        have e := f
        clear f
        exact absurd (List.cons.inj e).1 (by decide)
    | num h =>
      obtain ⟨c, x, rfl, hc⟩ := numText_head h
      cases (List.cons.inj e).1; exact absurd hc (by decide)
    | _ => exact absurd (List.cons.inj e).1 (by decide)
  | @obj t l g ih =>
    intro t' j' r r' h' _ _ e
    cases h' with
    | obj0 h =>
      exfalso
      cases g with
      | member h1 =>
        simp only [List.append_assoc, List.cons_append, List.nil_append, List.cons.injEq, true_and] at e
        obtain ⟨e0, f⟩ := blank_unique h1 h ⟨34, _, rfl, by decide⟩ ⟨125, _, rfl, by decide⟩ e
        subst e0
        clear e
        have e := f
        clear f
        exact absurd (List.cons.inj e).1 (by decide)
      | members h1 =>
        simp only [List.append_assoc, List.cons_append, List.nil_append, List.cons.injEq, true_and] at e
        obtain ⟨e0, f⟩ := blank_unique h1 h ⟨34, _, rfl, by decide⟩ ⟨125, _, rfl, by decide⟩ e
        subst e0
        clear e
        have e := f
        clear f
        exact absurd (List.cons.inj e).1 (by decide)
    | obj h =>
      simp only [List.append_assoc, List.cons_append, List.nil_append, List.cons.injEq, true_and] at e
      obtain ⟨rfl, e1, e2⟩ := ih h ⟨_, rfl⟩ ⟨_, rfl⟩ e
      cases e1
      exact ⟨rfl, rfl, (List.cons.inj e2).2⟩
    | num h =>
      obtain ⟨c, x, rfl, hc⟩ := numText_head h
      cases (List.cons.inj e).1; exact absurd hc (by decide)
    | _ => exact absurd (List.cons.inj e).1 (by decide)
  | @element a t b j g1 g2 g3 ih =>
    intro t' j' r r' h' hr hr' e
    obtain ⟨x, rfl⟩ := hr
    obtain ⟨x', rfl⟩ := hr'
    cases h' with
    | element h1 h2 h3 =>
      simp only [List.append_assoc] at e
      obtain ⟨e0, f⟩ := blank_unique g1 h1 (value_nonblank g2 _) (value_nonblank h2 _) e
      subst e0
      clear e
      have e := f
      clear f
      obtain ⟨e0, e1, f⟩ := ih h2 (stops_blank g3 ⟨93, _, rfl, by decide⟩) (stops_blank h3 ⟨93, _, rfl, by decide⟩) e
      subst e0 e1
      clear e
      have e := f
      clear f
      obtain ⟨e0, f⟩ := blank_unique g3 h3 ⟨93, _, rfl, by decide⟩ ⟨93, _, rfl, by decide⟩ e
      subst e0
      clear e
      have e := f
      clear f
      exact ⟨rfl, rfl, e⟩
    | elements h1 h2 h3 h4 =>
      exfalso
      simp only [List.append_assoc, List.cons_append] at e
      obtain ⟨e0, f⟩ := blank_unique g1 h1 (value_nonblank g2 _) (value_nonblank h2 _) e
      subst e0
      clear e
      have e := f
      clear f
      obtain ⟨e0, e1, f⟩ := ih h2 (stops_blank g3 ⟨93, _, rfl, by decide⟩) (stops_blank h3 ⟨44, _, rfl, by decide⟩) e
      subst e0 e1
      clear e
      have e := f
      clear f
      obtain ⟨e0, f⟩ := blank_unique g3 h3 ⟨93, _, rfl, by decide⟩ ⟨44, _, rfl, by decide⟩ e
      subst e0
      clear e
      have e := f
      clear f
      exact absurd (List.cons.inj e).1 (by decide)
  | @elements a t b y j l g1 g2 g3 g4 ih1 ih2 =>
    intro t' j' r r' h' hr hr' e
    have hs := hr
    have hs' := hr'
    obtain ⟨x, rfl⟩ := hr
    obtain ⟨x', rfl⟩ := hr'
    cases h' with
    | element h1 h2 h3 =>
      exfalso
      simp only [List.append_assoc, List.cons_append] at e
      obtain ⟨e0, f⟩ := blank_unique g1 h1 (value_nonblank g2 _) (value_nonblank h2 _) e
      subst e0
      clear e
      have e := f
      clear f
      obtain ⟨e0, e1, f⟩ := ih1 h2 (stops_blank g3 ⟨44, _, rfl, by decide⟩) (stops_blank h3 ⟨93, _, rfl, by decide⟩) e
      subst e0 e1
      clear e
      have e := f
      clear f
      obtain ⟨e0, f⟩ := blank_unique g3 h3 ⟨44, _, rfl, by decide⟩ ⟨93, _, rfl, by decide⟩ e
      subst e0
      clear e
      have e := f
      clear f
      exact absurd (List.cons.inj e).1 (by decide)
    | elements h1 h2 h3 h4 =>
      simp only [List.append_assoc, List.cons_append] at e
      obtain ⟨e0, f⟩ := blank_unique g1 h1 (value_nonblank g2 _) (value_nonblank h2 _) e
      subst e0
      clear e
      have e := f
      clear f
      obtain ⟨e0, e1, f⟩ := ih1 h2 (stops_blank g3 ⟨44, _, rfl, by decide⟩) (stops_blank h3 ⟨44, _, rfl, by decide⟩) e
      subst e0 e1
      clear e
      have e := f
      clear f
      obtain ⟨e0, f⟩ := blank_unique g3 h3 ⟨44, _, rfl, by decide⟩ ⟨44, _, rfl, by decide⟩ e
      subst e0
      clear e
      have e := f
      clear f
      obtain ⟨rfl, e1, e2⟩ := ih2 h4 hs hs' (List.cons.inj e).2
      cases e1
      exact ⟨rfl, rfl, e2⟩
  | @member a k b c t d s j g1 g2 g3 g4 g5 g6 ih =>
    intro t' j' r r' h' hr hr' e
    obtain ⟨x, rfl⟩ := hr
    obtain ⟨x', rfl⟩ := hr'
    cases h' with
    | member h1 h2 h3 h4 h5 h6 =>
      simp only [List.append_assoc, List.cons_append] at e
      obtain ⟨e0, f⟩ := blank_unique g1 h1 ⟨34, _, rfl, by decide⟩ ⟨34, _, rfl, by decide⟩ e
      subst e0
      clear e
      have e := f
      clear f
      obtain ⟨e0, e1, f⟩ := strText_unique g2 h2 (List.cons.inj e).2
      subst e0 e1
      clear e
      have e := f
      clear f
      obtain ⟨e0, f⟩ := blank_unique g3 h3 ⟨58, _, rfl, by decide⟩ ⟨58, _, rfl, by decide⟩ e
      subst e0
      clear e
      have e := f
      clear f
      obtain ⟨e0, f⟩ := blank_unique g4 h4 (value_nonblank g5 _) (value_nonblank h5 _) (List.cons.inj e).2
      subst e0
      clear e
      have e := f
      clear f
      obtain ⟨e0, e1, f⟩ := ih h5 (stops_blank g6 ⟨125, _, rfl, by decide⟩) (stops_blank h6 ⟨125, _, rfl, by decide⟩) e
      subst e0 e1
      clear e
      have e := f
      clear f
      obtain ⟨e0, f⟩ := blank_unique g6 h6 ⟨125, _, rfl, by decide⟩ ⟨125, _, rfl, by decide⟩ e
      subst e0
      clear e
      have e := f
      clear f
      exact ⟨rfl, rfl, e⟩
    | members h1 h2 h3 h4 h5 h6 h7 =>
      exfalso
      simp only [List.append_assoc, List.cons_append] at e
      obtain ⟨e0, f⟩ := blank_unique g1 h1 ⟨34, _, rfl, by decide⟩ ⟨34, _, rfl, by decide⟩ e
      subst e0
      clear e
      have e := f
      clear f
      obtain ⟨e0, e1, f⟩ := strText_unique g2 h2 (List.cons.inj e).2
      subst e0 e1
      clear e
      have e := f
      clear f
      obtain ⟨e0, f⟩ := blank_unique g3 h3 ⟨58, _, rfl, by decide⟩ ⟨58, _, rfl, by decide⟩ e
      subst e0
      clear e
      have e := f
      clear f
      obtain ⟨e0, f⟩ := blank_unique g4 h4 (value_nonblank g5 _) (value_nonblank h5 _) (List.cons.inj e).2
      subst e0
      clear e
      have e := f
      clear f
      obtain ⟨e0, e1, f⟩ := ih h5 (stops_blank g6 ⟨125, _, rfl, by decide⟩) (stops_blank h6 ⟨44, _, rfl, by decide⟩) e
      subst e0 e1
      clear e
      have e := f
      clear f
      obtain ⟨e0, f⟩ := blank_unique g6 h6 ⟨125, _, rfl, by decide⟩ ⟨44, _, rfl, by decide⟩ e
      subst e0
      clear e
      have e := f
      clear f
      exact absurd (List.cons.inj e).1 (by decide)
  | @members a k b c t d s y j l g1 g2 g3 g4 g5 g6 g7 ih1 ih2 =>
    intro t' j' r r' h' hr hr' e
    have hs := hr
    have hs' := hr'
    obtain ⟨x, rfl⟩ := hr
    obtain ⟨x', rfl⟩ := hr'
    cases h' with
    | member h1 h2 h3 h4 h5 h6 =>
      exfalso
      simp only [List.append_assoc, List.cons_append] at e
      obtain ⟨e0, f⟩ := blank_unique g1 h1 ⟨34, _, rfl, by decide⟩ ⟨34, _, rfl, by decide⟩ e
      subst e0
      clear e
      have e := f
      clear f
      obtain ⟨e0, e1, f⟩ := strText_unique g2 h2 (List.cons.inj e).2
      subst e0 e1
      clear e
      have e := f
      clear f
      obtain ⟨e0, f⟩ := blank_unique g3 h3 ⟨58, _, rfl, by decide⟩ ⟨58, _, rfl, by decide⟩ e
      subst e0
      clear e
      have e := f
      clear f
      obtain ⟨e0, f⟩ := blank_unique g4 h4 (value_nonblank g5 _) (value_nonblank h5 _) (List.cons.inj e).2
      subst e0
      clear e
      have e := f
      clear f
      obtain ⟨e0, e1, f⟩ := ih1 h5 (stops_blank g6 ⟨44, _, rfl, by decide⟩) (stops_blank h6 ⟨125, _, rfl, by decide⟩) e
      subst e0 e1
      clear e
      have e := f
      clear f
      obtain ⟨e0, f⟩ := blank_unique g6 h6 ⟨44, _, rfl, by decide⟩ ⟨125, _, rfl, by decide⟩ e
      subst e0
      clear e
      have e := f
      clear f
      exact absurd (List.cons.inj e).1 (by decide)
    | members h1 h2 h3 h4 h5 h6 h7 =>
      simp only [List.append_assoc, List.cons_append] at e
      obtain ⟨e0, f⟩ := blank_unique g1 h1 ⟨34, _, rfl, by decide⟩ ⟨34, _, rfl, by decide⟩ e
      subst e0
      clear e
      have e := f
      clear f
      obtain ⟨e0, e1, f⟩ := strText_unique g2 h2 (List.cons.inj e).2
      subst e0 e1
      clear e
      have e := f
      clear f
      obtain ⟨e0, f⟩ := blank_unique g3 h3 ⟨58, _, rfl, by decide⟩ ⟨58, _, rfl, by decide⟩ e
      subst e0
      clear e
      have e := f
      clear f
      obtain ⟨e0, f⟩ := blank_unique g4 h4 (value_nonblank g5 _) (value_nonblank h5 _) (List.cons.inj e).2
      subst e0
      clear e
      have e := f
      clear f
      obtain ⟨e0, e1, f⟩ := ih1 h5 (stops_blank g6 ⟨44, _, rfl, by decide⟩) (stops_blank h6 ⟨44, _, rfl, by decide⟩) e
      subst e0 e1
      clear e
      have e := f
      clear f
      obtain ⟨e0, f⟩ := blank_unique g6 h6 ⟨44, _, rfl, by decide⟩ ⟨44, _, rfl, by decide⟩ e
      subst e0
      clear e
      have e := f
      clear f
      obtain ⟨rfl, e1, e2⟩ := ih2 h7 hs hs' (List.cons.inj e).2
      cases e1
      exact ⟨rfl, rfl, e2⟩

theorem jsonText_unique {t : Str} {j j' : JTree} (h : JsonDoc t j) (h' : JsonDoc t j') : j = j' := by
  obtain ⟨a, u, b, ha, hu, hb, rfl⟩ := h
  obtain ⟨a', u', b', ha', hu', hb', e⟩ := h'
  simp only [List.append_assoc] at e
  obtain ⟨e0, f⟩ := blank_unique ha ha' (value_nonblank hu _) (value_nonblank hu' _) e
  subst e0
  clear e
  have e := f
  clear f
  have stop : ∀ {b : Str}, JsonBlank b → Stops .value b := by
    intro b hb c hc
    cases b with
    | nil => cases hc
    | cons d b =>
      cases hc
      exact (by decide : ∀ c ∈ b!" \t\n\r", c ∉ numBytes) _ (hb _ List.mem_cons_self)
  exact (denotes_unique hu hu' (stop hb) (stop hb') e).2.1

/-! ### Every value that is made of finite numbers says something -/

theorem shows_total {N : Str → Prop} {v : GVal} (h : GMade N NumText v) : ∃ j, Shows v j ∧
    ((∀ l, v = .list l → ∃ js, j = .arr js) ∧ (∀ l, v = .fields l → ∃ js, j = .obj js) ∧ ∀ l, v = .map l → ∃ js, j = .obj js) := by
  induction h with
  | nil => exact ⟨_, .nil, by simp, by simp, by simp⟩
  | bool b => exact ⟨_, .bool b, by simp, by simp, by simp⟩
  | int i => exact ⟨_, .int (itoa_digits i), by simp, by simp, by simp⟩
  | float h => exact ⟨_, .float h, by simp, by simp, by simp⟩
  | string s =>
    obtain ⟨t, ht⟩ := cleaned_total _ s (Nat.le_refl _)
    exact ⟨_, .string ht, by simp, by simp, by simp⟩
  | list0 => exact ⟨_, .list0, fun _ _ => ⟨_, rfl⟩, by simp, by simp⟩
  | list _ _ ih1 ih2 =>
    obtain ⟨j, h1, -⟩ := ih1
    obtain ⟨js, h2, h3, -⟩ := ih2
    obtain ⟨js, rfl⟩ := h3 _ rfl
    exact ⟨_, .list h1 h2, fun _ _ => ⟨_, rfl⟩, by simp, by simp⟩
  | fields0 => exact ⟨_, .fields0, by simp, fun _ _ => ⟨_, rfl⟩, by simp⟩
  | fields _ _ _ ih1 ih2 =>
    obtain ⟨j, h1, -⟩ := ih1
    obtain ⟨js, h2, -, h3, -⟩ := ih2
    obtain ⟨js, rfl⟩ := h3 _ rfl
    exact ⟨_, .fields h1 h2, by simp, fun _ _ => ⟨_, rfl⟩, by simp⟩
  | map0 => exact ⟨_, .map0, by simp, by simp, fun _ _ => ⟨_, rfl⟩⟩
  | @map k _ _ _ _ ih1 ih2 =>
    obtain ⟨t, ht⟩ := cleaned_total _ k (Nat.le_refl _)
    obtain ⟨j, h1, -⟩ := ih1
    obtain ⟨js, h2, -, -, h3⟩ := ih2
    obtain ⟨js, rfl⟩ := h3 _ rfl
    exact ⟨_, .map ht h1 h2, by simp, by simp, fun _ _ => ⟨_, rfl⟩⟩

/-! ### Text that can stand in a page -/

theorem pageSafe_nil : PageSafe [] := ⟨[], by simp, rfl⟩

theorem pageSafe_append {a b : Str} (ha : PageSafe a) (hb : PageSafe b) : PageSafe (a ++ b) := by
  obtain ⟨l, h1, rfl⟩ := ha
  obtain ⟨m, h2, rfl⟩ := hb
  refine ⟨l ++ m, ?_, by rw [List.flatMap_append]⟩
  intro n hn
  rcases List.mem_append.1 hn with hn | hn
  · exact h1 n hn
  · exact h2 n hn

theorem pageSafe_char {n : Nat} (h : CodePoint n) (h1 : 32 ≤ n) (h2 : n ∉ [38, 60, 62, 0x2028, 0x2029]) : PageSafe (charBytes n) := by
  refine ⟨[n], ?_, by simp⟩
  intro m hm
  rw [List.mem_singleton.1 hm]
  exact ⟨h, h1, h2⟩

theorem pageSafe_byte (c : UInt8) (h : c < 0x80) (h1 : 32 ≤ c) (h2 : c ∉ ([38, 60, 62] : Str)) : PageSafe [c] := by
  rw [← charBytes_byte c h]
  refine pageSafe_char (codePoint_byte c h) (UInt8.le_iff_toNat_le.1 h1) ?_
  have hl : c.toNat < 128 := UInt8.lt_iff_toNat_lt.1 h
  simp only [List.mem_cons, List.not_mem_nil, or_false, not_or] at h2 ⊢
  obtain ⟨g1, g2, g3⟩ := h2
  refine ⟨?_, ?_, ?_, by omega, by omega⟩
  · intro e; exact g1 (UInt8.toNat_inj.1 e)
  · intro e; exact g2 (UInt8.toNat_inj.1 e)
  · intro e; exact g3 (UInt8.toNat_inj.1 e)

theorem pageSafe_ascii {s : Str} (h : ∀ c ∈ s, c < 0x80 ∧ 32 ≤ c ∧ c ∉ ([38, 60, 62] : Str)) : PageSafe s := by
  induction s with
  | nil => exact pageSafe_nil
  | cons c s ih =>
    obtain ⟨h1, h2, h3⟩ := h c List.mem_cons_self
    exact pageSafe_append (a := [c]) (pageSafe_byte c h1 h2 h3) (ih (fun x hx => h x (List.mem_cons_of_mem _ hx)))

theorem jsonEsc_pageSafe : ∀ c : UInt8, ∀ x ∈ jsonEsc c, x < 0x80 ∧ 32 ≤ x ∧ x ∉ ([38, 60, 62] : Str) := by
  apply all_bytes; decide +kernel

theorem jsonSafe_pageSafe : ∀ c : UInt8, c < 0x80 → jsonSafe c = true → c < 0x80 ∧ 32 ≤ c ∧ c ∉ ([38, 60, 62] : Str) := by
  apply all_bytes; decide +kernel

theorem jsonStrF_pageSafe {s t : Str} (h : Cleaned s t) : ∀ f, PageSafe (jsonStrF f s) := by
  induction h with
  | nil => intro f; cases f <;> exact pageSafe_nil
  | @good n s t hn _ ih =>
    intro f
    cases f with
    | zero => exact pageSafe_nil
    | succ f =>
    obtain ⟨a, r, har⟩ := charBytes_ne n
    have ih' := ih f
    by_cases h1 : n < 0x80
    · have hb : UInt8.ofNat n < 0x80 := (lt_ofNat (by omega) (by decide)).2 h1
      rw [charBytes_ascii h1, List.cons_append, List.nil_append, jsonStrF, if_pos hb]
      refine pageSafe_append ?_ ih'
      by_cases hs : jsonSafe (UInt8.ofNat n) = true
      · rw [if_pos hs]
        obtain ⟨g1, g2, g3⟩ := jsonSafe_pageSafe _ hb hs
        exact pageSafe_byte _ g1 g2 g3
      · rw [if_neg hs]; exact pageSafe_ascii (jsonEsc_pageSafe _)
    · have hh := charBytes_high hn (Nat.not_lt.1 h1)
      have ha : ¬ a < 0x80 := by
        have : 0x80 ≤ a := hh a (by rw [har]; exact List.mem_cons_self)
        exact UInt8.not_lt.2 this
      have hd := decodeRune_char hn s
      have hlen : ¬ (n = 0xFFFD ∧ (charBytes n).length = 1) := by
        rintro ⟨rfl, e⟩; exact absurd e (by decide)
      have ht : (charBytes n ++ s).take (charBytes n).length = charBytes n := List.take_left
      have hr : (charBytes n ++ s).drop (charBytes n).length = s := List.drop_left
      rw [har] at hd ht hr
      rw [har, List.cons_append, jsonStrF, if_neg ha]
      rw [List.cons_append] at hd ht hr
      rw [hd]
      dsimp only
      rw [← har]
      rw [if_neg hlen]
      by_cases h2 : n = 0x2028 ∨ n = 0x2029
      · rw [if_pos h2, har, hr]
        refine pageSafe_append ?_ ih'
        rcases h2 with rfl | rfl <;> exact pageSafe_ascii (by decide)
      · rw [if_neg h2, har, ht, hr]
        rw [← har]
        refine pageSafe_append (pageSafe_char hn (by omega) ?_) ih'
        simp only [List.mem_cons, List.not_mem_nil, or_false]
        omega
  | @bad c s t hb _ ih =>
    intro f
    cases f with
    | zero => exact pageSafe_nil
    | succ f =>
    obtain ⟨hc, hd⟩ := decodeRune_bad hb
    rw [jsonStrF, if_neg hc, hd]
    dsimp only
    rw [if_pos ⟨rfl, rfl⟩]
    exact pageSafe_append (pageSafe_ascii (by decide)) (ih f)

theorem jsonString_pageSafe (s : Str) : PageSafe (jsonString s) := by
  obtain ⟨t, ht⟩ := cleaned_total _ s (Nat.le_refl _)
  exact pageSafe_append (a := [34] ++ _) (pageSafe_append (pageSafe_ascii (by decide)) (jsonStrF_pageSafe ht _)) (pageSafe_ascii (by decide))

theorem high_plain {c : UInt8} (h : 0x80 ≤ c) : (32 ≤ c && c != 34 && c != 92) = true := by
  revert c; apply all_bytes; decide +kernel

theorem jsonName_pageSafe {s : Str} (h : PageSafe s) : PageSafe (jsonName s) := by
  have key : ∀ l : List Nat, (∀ n ∈ l, CodePoint n ∧ 32 ≤ n ∧ n ∉ [38, 60, 62, 0x2028, 0x2029]) →
      PageSafe ((l.flatMap charBytes).flatMap (fun c => if 32 ≤ c && c != 34 && c != 92 then [c] else jsonEsc c)) := by
    intro l
    induction l with
    | nil => intro _; exact pageSafe_nil
    | cons n l ih =>
      intro hl
      obtain ⟨h1, h2, h3⟩ := hl n List.mem_cons_self
      rw [List.flatMap_cons, List.flatMap_append]
      refine pageSafe_append ?_ (ih (fun m hm => hl m (List.mem_cons_of_mem _ hm)))
      by_cases hn : n < 0x80
      · have hb : UInt8.ofNat n < 0x80 := (lt_ofNat (by omega) (by decide)).2 hn
        rw [charBytes_ascii hn, List.flatMap_singleton]
        split
        · rw [← charBytes_ascii hn]; exact pageSafe_char h1 h2 h3
        · exact pageSafe_ascii (jsonEsc_pageSafe _)
      · have hh := charBytes_high h1 (Nat.not_lt.1 hn)
        have : ∀ s : Str, (∀ c ∈ s, 0x80 ≤ c) → s.flatMap (fun c => if 32 ≤ c && c != 34 && c != 92 then [c] else jsonEsc c) = s := by
          intro s
          induction s with
          | nil => intro _; rfl
          | cons c s ih =>
            intro hs
            rw [List.flatMap_cons, ih (fun x hx => hs x (List.mem_cons_of_mem _ hx)), if_pos (high_plain (hs c List.mem_cons_self))]
            rfl
        rw [this _ hh]
        exact pageSafe_char h1 h2 h3
  obtain ⟨l, hl, rfl⟩ := h
  exact pageSafe_append (a := [34] ++ _) (pageSafe_append (pageSafe_ascii (by decide)) (key l hl)) (pageSafe_ascii (by decide))

theorem numText_pageSafe {t : Str} (h : NumText t) : PageSafe t :=
  pageSafe_ascii (fun c hc => (by decide : ∀ c ∈ numBytes, c < 0x80 ∧ 32 ≤ c ∧ c ∉ ([38, 60, 62] : Str)) c (numText_bytes h c hc))

/-- What is written for the elements, fields or entries of a value is safe. -/
def PageSafeParts : GVal → Prop
  | .list l => PageSafe (elementsJson l)
  | .fields l => PageSafe (fieldsJson l)
  | .map l => PageSafe (entriesJson l)
  | _ => True

theorem encode_pageSafe {v : GVal} (h : GMade PageSafe NumText v) : PageSafe v.encode ∧ PageSafeParts v := by
  have wrap : ∀ (a b : UInt8) (s : Str), PageSafe [a] → PageSafe [b] → PageSafe s → PageSafe (a :: s ++ [b]) := by
    intro a b s ha hb hs
    exact pageSafe_append (a := [a] ++ s) (pageSafe_append ha hs) hb
  induction h with
  | nil => rw [GVal.encode]; exact ⟨pageSafe_ascii (by decide), trivial⟩
  | bool b => rw [GVal.encode]; exact ⟨by cases b <;> exact pageSafe_ascii (by decide), trivial⟩
  | int i => rw [GVal.encode]; exact ⟨numText_pageSafe (numText_int (itoa_digits i)), trivial⟩
  | float h => rw [GVal.encode]; exact ⟨numText_pageSafe h, trivial⟩
  | string s => rw [GVal.encode]; exact ⟨jsonString_pageSafe s, trivial⟩
  | list0 => rw [GVal.encode, elementsJson]; exact ⟨pageSafe_ascii (by decide), by rw [PageSafeParts, elementsJson]; exact pageSafe_nil⟩
  | @list v l _ _ ih1 ih2 =>
    have he : PageSafe (elementsJson (v :: l)) := by
      cases l with
      | nil =>
        rw [elementsJson]
        exact pageSafe_append ih1.1 pageSafe_nil
      | cons w l =>
        rw [elementsJson]
        exact pageSafe_append ih1.1 (pageSafe_append (a := [44]) (pageSafe_ascii (by decide)) ih2.2)
    rw [GVal.encode]
    exact ⟨wrap _ _ _ (pageSafe_ascii (by decide)) (pageSafe_ascii (by decide)) he, he⟩
  | fields0 => rw [GVal.encode, fieldsJson]; exact ⟨pageSafe_ascii (by decide), by rw [PageSafeParts, fieldsJson]; exact pageSafe_nil⟩
  | @fields k v l hk _ _ ih1 ih2 =>
    have he : PageSafe (fieldsJson ((k, v) :: l)) := by
      cases l with
      | nil =>
        rw [fieldsJson]
        exact pageSafe_append (pageSafe_append (jsonName_pageSafe hk) (pageSafe_append (a := [58]) (pageSafe_ascii (by decide)) ih1.1)) pageSafe_nil
      | cons w l =>
        rw [fieldsJson]
        exact pageSafe_append (pageSafe_append (jsonName_pageSafe hk) (pageSafe_append (a := [58]) (pageSafe_ascii (by decide)) ih1.1)) (pageSafe_append (a := [44]) (pageSafe_ascii (by decide)) ih2.2)
    rw [GVal.encode]
    exact ⟨wrap _ _ _ (pageSafe_ascii (by decide)) (pageSafe_ascii (by decide)) he, he⟩
  | map0 => rw [GVal.encode, entriesJson]; exact ⟨pageSafe_ascii (by decide), by rw [PageSafeParts, entriesJson]; exact pageSafe_nil⟩
  | @map k v l _ _ ih1 ih2 =>
    have he : PageSafe (entriesJson ((k, v) :: l)) := by
      cases l with
      | nil =>
        rw [entriesJson]
        exact pageSafe_append (pageSafe_append (jsonString_pageSafe k) (pageSafe_append (a := [58]) (pageSafe_ascii (by decide)) ih1.1)) pageSafe_nil
      | cons w l =>
        rw [entriesJson]
        exact pageSafe_append (pageSafe_append (jsonString_pageSafe k) (pageSafe_append (a := [58]) (pageSafe_ascii (by decide)) ih1.1)) (pageSafe_append (a := [44]) (pageSafe_ascii (by decide)) ih2.2)
    rw [GVal.encode]
    exact ⟨wrap _ _ _ (pageSafe_ascii (by decide)) (pageSafe_ascii (by decide)) he, he⟩

end Water
