import Verif.Spec.Util
import Verif.Lemmas.Values
/-
Lemmas on percent encoding, splitting at a longer separator and the rune loop.
-/
namespace Water
open Spec

theorem all_bytes {P : UInt8 → Prop} (h : ∀ n : Fin 256, P (UInt8.ofNat n.1)) (c : UInt8) : P c := by
  have := h ⟨c.toNat, c.toNat_lt⟩
  simpa using this

/-! ### percent encoding -/

/-- the encoding of one byte -/
def escByte (c : UInt8) : Str :=
  if escapesByte c then [37, upperHex (c.toNat / 16), upperHex (c.toNat % 16)] else [c]

theorem pathEscape_cons (c : UInt8) (s : Str) : pathEscape (c :: s) = escByte c ++ pathEscape s := rfl

theorem escByte_safe (c : UInt8) : ∀ x ∈ escByte c, 33 ≤ x ∧ x ≤ 126 ∧ x ≠ 34 ∧ x ≠ 59 ∧ x ≠ 47 ∧ x ≠ 92 := by
  refine all_bytes (P := fun c => ∀ x ∈ escByte c, 33 ≤ x ∧ x ≤ 126 ∧ x ≠ 34 ∧ x ≠ 59 ∧ x ≠ 47 ∧ x ≠ 92) ?_ c
  decide +kernel

theorem pathEscape_safe {s : Str} : ∀ x ∈ pathEscape s, 33 ≤ x ∧ x ≤ 126 ∧ x ≠ 34 ∧ x ≠ 59 ∧ x ≠ 47 ∧ x ≠ 92 := by
  intro x hx
  obtain ⟨c, _, hc⟩ := List.mem_flatMap.1 hx
  exact escByte_safe c x hc

theorem upperHex_hexOf : ∀ c : UInt8, hexOf (upperHex (c.toNat / 16)) = some (c.toNat / 16) ∧
    hexOf (upperHex (c.toNat % 16)) = some (c.toNat % 16) := by
  refine all_bytes ?_
  decide +kernel

theorem escapes_percent {c : UInt8} (h : escapesByte c = false) : c ≠ 37 := by
  intro hc; subst hc; revert h; decide

theorem unescape_pathEscape (s : Str) : unescape (pathEscape s) = some s := by
  induction s with
  | nil => rfl
  | cons c s ih =>
    rw [pathEscape_cons]
    unfold escByte
    split
    · obtain ⟨h1, h2⟩ := upperHex_hexOf c
      have : UInt8.ofNat (16 * (c.toNat / 16) + c.toNat % 16) = c := by
        rw [Nat.div_add_mod]; simp
      show unescape (37 :: upperHex (c.toNat / 16) :: upperHex (c.toNat % 16) :: pathEscape s) = _
      rw [unescape, if_pos rfl]
      simp only [h1, h2, ih, bind, Option.bind, pure, this]
    · rename_i h
      have := escapes_percent (Bool.eq_false_iff.2 h)
      show unescape (c :: pathEscape s) = _
      rw [unescape.eq_def]
      simp only [if_neg this, ih, bind, Option.bind, pure]

theorem pathEscape_inj {s t : Str} (h : pathEscape s = pathEscape t) : s = t := by
  have := unescape_pathEscape s
  rw [h, unescape_pathEscape] at this
  exact (Option.some.inj this).symm

/-! ### `strings.Index` and `strings.Split` -/

theorem indexStr_le {s sep a b : Str} (h : s = a ++ sep ++ b) : ∃ i ≤ a.length, indexStr s sep = some i := by
  induction a generalizing s with
  | nil =>
    refine ⟨0, Nat.le_refl _, ?_⟩
    subst h
    cases sep with
    | nil =>
      cases b <;> simp [indexStr]
    | cons x xs =>
      have : (x :: xs).isPrefixOf ([] ++ (x :: xs) ++ b) = true := by simp
      simp only [List.nil_append, List.cons_append] at this ⊢
      unfold indexStr
      rw [if_pos this]
  | cons x a ih =>
    subst h
    simp only [List.cons_append]
    unfold indexStr
    split
    · exact ⟨0, Nat.zero_le _, rfl⟩
    · obtain ⟨i, hi, h⟩ := ih (s := a ++ sep ++ b) rfl
      refine ⟨i + 1, by simp; omega, ?_⟩
      rw [h]; rfl

theorem indexStr_some {s sep : Str} {i : Nat} (h : indexStr s sep = some i) :
    s = s.take i ++ sep ++ s.drop (i + sep.length) := by
  induction s generalizing i with
  | nil =>
    unfold indexStr at h
    split at h
    · rename_i he; simp at he; subst he; simp
    · cases h
  | cons c cs ih =>
    unfold indexStr at h
    split at h
    · rename_i hp
      cases h
      obtain ⟨t, ht⟩ := List.isPrefixOf_iff_prefix.1 hp
      rw [← ht]; simp
    · cases hi : indexStr cs sep with
      | none => rw [hi] at h; cases h
      | some j =>
        rw [hi] at h
        cases h
        have := ih hi
        simp only [List.take_succ_cons, List.cons_append]
        rw [show j + 1 + sep.length = (j + sep.length) + 1 by omega, List.drop_succ_cons, ← this]

theorem indexStr_first {s sep : Str} {i : Nat} (hs : sep ≠ []) (h : indexStr s sep = some i) :
    ¬ ∃ a b, s.take i = a ++ sep ++ b := by
  rintro ⟨a, b, hab⟩
  have hsplit := indexStr_some h
  have : s = a ++ sep ++ (b ++ sep ++ s.drop (i + sep.length)) := by
    conv => lhs; rw [hsplit, hab]
    simp
  obtain ⟨j, hj, hj'⟩ := indexStr_le this
  rw [h] at hj'
  cases hj'
  have hl : (s.take i).length = (a ++ sep ++ b).length := by rw [hab]
  have hlen : 0 < sep.length := List.length_pos_iff.2 hs
  simp at hl
  omega

theorem indexStr_none {s sep : Str} (h : indexStr s sep = none) : ¬ ∃ a b, s = a ++ sep ++ b := by
  rintro ⟨a, b, hab⟩
  obtain ⟨i, _, hi⟩ := indexStr_le hab
  rw [h] at hi; cases hi

theorem splitStrF_ne (n : Nat) (sep s : Str) : splitStrF n sep s ≠ [] := by
  cases n with
  | zero => simp [splitStrF]
  | succ n => unfold splitStrF; split <;> simp

theorem splitStrF_spec {sep : Str} (hs : sep ≠ []) (n : Nat) (s : Str) (hn : s.length ≤ n) :
    join sep (splitStrF n sep s) = s ∧ ∀ x ∈ splitStrF n sep s, ¬ ∃ a b, x = a ++ sep ++ b := by
  have hlen : 0 < sep.length := List.length_pos_iff.2 hs
  induction n generalizing s with
  | zero =>
    have : s = [] := List.length_eq_zero_iff.1 (by omega)
    subst this
    refine ⟨rfl, ?_⟩
    intro x hx
    simp only [splitStrF, List.mem_singleton] at hx
    subst hx
    rintro ⟨a, b, hab⟩
    have := congrArg List.length hab
    simp at this
    omega
  | succ n ih =>
    unfold splitStrF
    cases hi : indexStr s sep with
    | none =>
      refine ⟨rfl, ?_⟩
      intro x hx
      simp only [List.mem_singleton] at hx
      subst hx
      exact indexStr_none hi
    | some i =>
      have h1 := indexStr_some hi
      have hl := congrArg List.length h1
      have hd : (s.drop (i + sep.length)).length ≤ n := by
        simp at hl ⊢; omega
      obtain ⟨h2, h3⟩ := ih _ hd
      refine ⟨?_, ?_⟩
      · show join sep (_ :: _) = s
        rw [join_cons_ne (splitStrF_ne _ _ _), h2, ← h1]
      · intro x hx
        rcases List.mem_cons.1 hx with rfl | hx
        · exact indexStr_first hs hi
        · exact h3 x hx

/-- the first entry is unique -/
theorem firstEntry_unique {s e e' : Str} (h : FirstEntry s e) (h' : FirstEntry s e') : e = e' := by
  have key : ∀ {x}, FirstEntry s x → indexStr s b!", " = (if s = x then none else some x.length) ∧
      (s = x ∨ x = s.take x.length) := by
    rintro x ⟨hx, hs⟩
    by_cases hsx : s = x
    · subst hsx
      refine ⟨?_, Or.inl rfl⟩
      rw [if_pos rfl]
      cases hi : indexStr s b!", " with
      | none => rfl
      | some i => exact absurd ⟨_, _, indexStr_some hi⟩ hx
    · rcases hs with hs | ⟨rest, hs⟩
      · exact absurd hs hsx
      · rw [if_neg hsx]
        refine ⟨?_, Or.inr (by rw [hs]; simp)⟩
        obtain ⟨i, hi, he⟩ := indexStr_le hs
        by_cases hlt : i = x.length
        · rw [he, hlt]
        · exfalso
          have h1 := indexStr_some he
          by_cases h2 : i + 2 ≤ x.length
          · apply hx
            refine ⟨s.take i, (s.drop (i + 2)).take (x.length - (i + 2)), ?_⟩
            have h3 : x = s.take x.length := by rw [hs]; simp
            have h4 := congrArg (List.take x.length) h1
            rw [← h3] at h4
            refine h4.trans ?_
            have hil : (s.take i).length = i := by
              rw [List.length_take, hs]; simp; omega
            rw [List.take_append, List.take_of_length_le (by simp only [List.length_append, hil]; show i + 2 ≤ _; exact h2)]
            congr 2
            · simp only [List.length_append, hil]; rfl
          · have hix : i + 1 = x.length := by omega
            -- the comma would be the last byte of `x` and the space the comma after it
            have h3 : s[i + 1]? = some 32 := by
              rw [h1, List.getElem?_append_left (by simp only [List.length_append, List.length_take]; rw [hs]; simp [Nat.min_def]; split <;> omega),
                List.getElem?_append_right (by simp only [List.length_take]; omega)]
              have : i + 1 - (s.take i).length = 1 := by rw [List.length_take, hs]; simp; omega
              rw [this]; rfl
            rw [hs, hix, List.append_assoc, List.getElem?_append_right (Nat.le_refl _)] at h3
            simp at h3
  obtain ⟨h1, h2⟩ := key h
  obtain ⟨h3, h4⟩ := key h'
  rw [h1] at h3
  by_cases a : s = e <;> by_cases b : s = e'
  · rw [← a, ← b]
  · rw [if_pos a, if_neg b] at h3; cases h3
  · rw [if_neg a, if_pos b] at h3; cases h3
  · rw [if_neg a, if_neg b] at h3
    have h5 := h2.resolve_left a
    have h6 := h4.resolve_left b
    rw [h5, h6, Option.some.inj h3]

theorem splitStr_first {s x : Str} {xs : List Str} (h : splitStr b!", " s = x :: xs) : FirstEntry s x := by
  obtain ⟨h1, h2⟩ := splitStrF_spec (sep := b!", ") (by decide) s.length s (Nat.le_refl _)
  have h : splitStrF s.length b!", " s = x :: xs := h
  rw [h] at h1 h2
  refine ⟨h2 x List.mem_cons_self, ?_⟩
  cases xs with
  | nil => left; rw [← h1]; rfl
  | cons y ys =>
    right
    exact ⟨join b!", " (y :: ys), by rw [← h1, join_cons_ne (by simp)]⟩

theorem lastIndexByte_cut {a b : Str} {c : UInt8} (h : c ∉ b) : lastIndexByte (a ++ c :: b) c = some a.length := by
  unfold lastIndexByte
  have : (a ++ c :: b).reverse = b.reverse ++ c :: a.reverse := by simp
  rw [this, indexByte_append (by simpa using h)]
  simp

theorem lastIndexByte_none {s : Str} {c : UInt8} (h : c ∉ s) : lastIndexByte s c = none := by
  unfold lastIndexByte
  rw [(indexByte_none (s := s.reverse)).2 (by simpa using h)]; rfl

/-! ### the rune loop -/

theorem decodeRune_spec (a : UInt8) (rest : Str) :
    (a < 0x80 ∧ decodeRune (a :: rest) = (a.toNat, 1)) ∨
    (0x80 ≤ a ∧ 0x80 ≤ (decodeRune (a :: rest)).1 ∧ 1 ≤ (decodeRune (a :: rest)).2 ∧
      ∀ x ∈ (a :: rest).take (decodeRune (a :: rest)).2, 0x80 ≤ x) := by
  by_cases h : a < 0x80
  · left; exact ⟨h, by simp [decodeRune, h]⟩
  · right
    have ha : 0x80 ≤ a := UInt8.not_lt.1 h
    have hbad : (0x80 : Nat) ≤ 0xFFFD ∧ 1 ≤ 1 ∧ ∀ x ∈ (a :: rest).take 1, 0x80 ≤ x := by
      refine ⟨by decide, Nat.le_refl _, ?_⟩
      intro x hx; simp at hx; rw [hx]; exact ha
    refine ⟨ha, ?_⟩
    unfold decodeRune
    simp only [if_neg h]
    have hle : ∀ {x y : UInt8}, x ≤ y ↔ x.toNat ≤ y.toNat := UInt8.le_iff_toNat_le
    split
    · rename_i h2
      simp only [inRange, Bool.and_eq_true, decide_eq_true_eq, hle] at h2
      split
      · rename_i b bs
        split
        · rename_i hb
          simp only [inRange, Bool.and_eq_true, decide_eq_true_eq, hle] at hb
          refine ⟨?_, (show 1 ≤ 2 by decide), ?_⟩
          · have : (0xC2 : UInt8).toNat = 194 := rfl
            have : (0xDF : UInt8).toNat = 223 := rfl
            simp only; omega
          · intro x hx
            simp at hx
            rcases hx with rfl | rfl
            · exact ha
            · rw [hle]; exact hb.1
        · exact hbad
      · exact hbad
    · split
      · rename_i h2
        simp only [inRange, Bool.and_eq_true, decide_eq_true_eq, hle] at h2
        split
        · rename_i b c bs
          generalize hlo : (if a = 0xE0 then (0xA0 : UInt8) else 0x80) = lo
          generalize hhi : (if a = 0xED then (0x9F : UInt8) else 0xBF) = hi
          split
          · rename_i hb
            simp only [inRange, Bool.and_eq_true, decide_eq_true_eq, hle] at hb
            obtain ⟨⟨hb1, hb2⟩, hc1, hc2⟩ := hb
            have e1 : (0xE0 : UInt8).toNat = 224 := rfl
            have e2 : (0xEF : UInt8).toNat = 239 := rfl
            have e3 : (0xBF : UInt8).toNat = 191 := rfl
            have e4 : (0x80 : UInt8).toNat = 128 := rfl
            have e5 : (0xA0 : UInt8).toNat = 160 := rfl
            have e6 : (0x9F : UInt8).toNat = 159 := rfl
            have hb3 : b.toNat ≤ 191 := Nat.le_trans hb2 (by rw [← hhi]; split <;> decide)
            have hb4 : 128 ≤ b.toNat := Nat.le_trans (by rw [← hlo]; split <;> decide) hb1
            refine ⟨?_, (show 1 ≤ 3 by decide), ?_⟩
            · by_cases he : a = 0xE0
              · rw [if_pos he] at hlo; rw [← hlo] at hb1
                simp only; omega
              · have : a.toNat ≠ 224 := fun h => he (UInt8.toNat_inj.1 h)
                simp only; omega
            · intro x hx
              simp at hx
              rcases hx with rfl | rfl | rfl
              · exact ha
              · rw [hle]; omega
              · rw [hle]; omega
          · exact hbad
        · exact hbad
      · split
        · rename_i h2
          simp only [inRange, Bool.and_eq_true, decide_eq_true_eq, hle] at h2
          split
          · rename_i b c d bs
            generalize hlo : (if a = 0xF0 then (0x90 : UInt8) else 0x80) = lo
            generalize hhi : (if a = 0xF4 then (0x8F : UInt8) else 0xBF) = hi
            split
            · rename_i hb
              simp only [inRange, Bool.and_eq_true, decide_eq_true_eq, hle] at hb
              obtain ⟨⟨⟨hb1, hb2⟩, hc1, hc2⟩, hd1, hd2⟩ := hb
              have e1 : (0xF0 : UInt8).toNat = 240 := rfl
              have e2 : (0xF4 : UInt8).toNat = 244 := rfl
              have e3 : (0xBF : UInt8).toNat = 191 := rfl
              have e4 : (0x80 : UInt8).toNat = 128 := rfl
              have e5 : (0x90 : UInt8).toNat = 144 := rfl
              have e6 : (0x8F : UInt8).toNat = 143 := rfl
              have hb3 : b.toNat ≤ 191 := Nat.le_trans hb2 (by rw [← hhi]; split <;> decide)
              have hb4 : 128 ≤ b.toNat := Nat.le_trans (by rw [← hlo]; split <;> decide) hb1
              refine ⟨?_, (show 1 ≤ 4 by decide), ?_⟩
              · by_cases he : a = 0xF0
                · rw [if_pos he] at hlo; rw [← hlo] at hb1
                  simp only; omega
                · have : a.toNat ≠ 240 := fun h => he (UInt8.toNat_inj.1 h)
                  simp only; omega
              · intro x hx
                simp at hx
                rcases hx with rfl | rfl | rfl | rfl
                · exact ha
                · rw [hle]; omega
                · rw [hle]; omega
                · rw [hle]; omega
            · exact hbad
          · exact hbad
        · exact hbad

/-- neither space nor semicolon -/
def flagByte (c : UInt8) : Bool := c != 32 && c != 59

theorem takeWhile_pass {p : UInt8 → Bool} {s : Str} (n : Nat) (h : ∀ x ∈ s.take n, p x = true) :
    s.takeWhile p = s.take n ++ (s.drop n).takeWhile p := by
  conv => lhs; rw [← List.take_append_drop n s]
  rw [List.takeWhile_append_of_pos h]

theorem filterLoop_spec (content : Str) (f i : Nat) (hf : content.length - i < f)
    (hi : i ≤ content.length ∨ content.takeWhile flagByte = content)
    (h : content.takeWhile flagByte = content.take i ++ (content.drop i).takeWhile flagByte) :
    filterLoop content f i = content.takeWhile flagByte := by
  induction f generalizing i with
  | zero => omega
  | succ f ih =>
    unfold filterLoop
    split
    · rename_i hd
      rw [h, hd]
      simp only [List.takeWhile_nil, List.append_nil]
      rw [List.take_of_length_le (List.drop_eq_nil_iff.1 hd)]
    · rename_i rest hne
      dsimp only
      cases hd : content.drop i with
      | nil => exact absurd hd hne
      | cons a rest =>
        have hlen : i < content.length := by
          apply Nat.lt_of_not_le
          intro h'
          rw [List.drop_eq_nil_of_le h'] at hd; cases hd
        rcases decodeRune_spec a rest with ⟨h1, h2⟩ | ⟨h1, h2, h3, h4⟩
        · rw [h2]
          by_cases hc : a.toNat = 32 ∨ a.toNat = 59
          · rw [if_pos hc, h, hd]
            have : flagByte a = false := by
              rcases hc with hc | hc
              · have : a = 32 := UInt8.toNat_inj.1 hc
                subst this; rfl
              · have : a = 59 := UInt8.toNat_inj.1 hc
                subst this; rfl
            rw [List.takeWhile_cons_of_neg (by simp [this])]; simp
          · rw [if_neg hc]
            have hfa : flagByte a = true := by
              simp only [flagByte, Bool.and_eq_true, bne_iff_ne]
              exact ⟨fun h => hc (Or.inl (by rw [h]; rfl)), fun h => hc (Or.inr (by rw [h]; rfl))⟩
            refine ih (i + 1) (by omega) (Or.inl (by omega)) ?_
            have h5 : content.drop (i + 1) = rest := by
              rw [← List.drop_drop, hd]; rfl
            have h6 : content.take (i + 1) = content.take i ++ [a] := by
              rw [List.take_add, hd]; rfl
            rw [h, hd, h5, h6, List.takeWhile_cons_of_pos hfa]; simp
        · rw [if_neg (by omega)]
          generalize decodeRune (a :: rest) = r at *
          obtain ⟨ch, w⟩ := r
          dsimp only at *
          have hflag : ∀ x : UInt8, 0x80 ≤ x → flagByte x = true := by
            intro x
            refine all_bytes (P := fun x => 0x80 ≤ x → flagByte x = true) ?_ x
            decide +kernel
          have hstep : content.takeWhile flagByte = content.take (i + w) ++ (content.drop (i + w)).takeWhile flagByte := by
            rw [h, hd, takeWhile_pass w (fun x hx => hflag x (h4 x hx)), List.take_add, hd, ← List.drop_drop, hd]; simp
          refine ih (i + w) (by omega) ?_ hstep
          by_cases hle : i + w ≤ content.length
          · exact Or.inl hle
          · right
            rw [hstep, List.drop_eq_nil_of_le (by omega), List.take_of_length_le (by omega)]; simp

theorem filterFlags_eq (content : Str) : filterFlags content = content.takeWhile flagByte := by
  unfold filterFlags
  exact filterLoop_spec content _ 0 (by omega) (Or.inl (Nat.zero_le _)) (by simp)

theorem takeWhile_longest (s : Str) :
    Longest (fun p => 32 ∉ p ∧ 59 ∉ p) s (s.takeWhile flagByte) := by
  have hall : ∀ x ∈ s.takeWhile flagByte, flagByte x = true := by
    have := List.all_takeWhile (l := s) (p := flagByte)
    rwa [List.all_eq_true] at this
  refine ⟨List.takeWhile_prefix _, ⟨?_, ?_⟩, ?_⟩
  · intro h; exact absurd (hall _ h) (by decide)
  · intro h; exact absurd (hall _ h) (by decide)
  · rintro q ⟨t, rfl⟩ ⟨h1, h2⟩
    rw [List.takeWhile_append_of_pos]
    · exact List.prefix_append _ _
    · intro x hx
      simp only [flagByte, Bool.and_eq_true, bne_iff_ne]
      exact ⟨fun h => h1 (h ▸ hx), fun h => h2 (h ▸ hx)⟩

end Water
