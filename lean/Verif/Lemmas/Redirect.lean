import Verif.Model.Redirect
import Verif.Spec.Redirect
import Verif.Props.Clean
import Verif.Lemmas.Util
/- Lemmas for C85. -/
namespace Water
open Spec

theorem hexEscape_cons (c : UInt8) (s : Str) : hexEscapeNonASCII (c :: s) =
    (if c ≥ 0x80 then [37, hexDigit (c.toNat / 16), hexDigit (c.toNat % 16)] else [c]) ++ hexEscapeNonASCII s := rfl

theorem hexByte : ∀ c : UInt8, digitOf (hexDigit (c.toNat / 16)) = some (c.toNat / 16) ∧
    digitOf (hexDigit (c.toNat % 16)) = some (c.toNat % 16) ∧ UInt8.ofNat (16 * (c.toNat / 16) + c.toNat % 16) = c ∧
    hexDigit (c.toNat / 16) ≠ 63 ∧ hexDigit (c.toNat / 16) ≠ 35 ∧ hexDigit (c.toNat % 16) ≠ 63 ∧ hexDigit (c.toNat % 16) ≠ 35 := by
  apply all_bytes
  decide +kernel

/-- decoding undoes the escaping, if there was no percent sign -/
theorem pct_hexEscape {s : Str} (h : (37 : UInt8) ∉ s) : pctDecode (hexEscapeNonASCII s) = s := by
  induction s with
  | nil => rfl
  | cons c s ih =>
    have hc : c ≠ 37 := fun hh => h (by simp [hh])
    have ih := ih (fun hh => h (by simp [hh]))
    rw [hexEscape_cons]
    split
    · obtain ⟨h1, h2, h3, -⟩ := hexByte c
      show pctDecode (37 :: hexDigit (c.toNat / 16) :: hexDigit (c.toNat % 16) :: hexEscapeNonASCII s) = _
      rw [pctDecode.eq_def]
      simp only [if_true, h1, h2, h3, ih]
    · show pctDecode (c :: hexEscapeNonASCII s) = _
      rw [pctDecode.eq_def]
      simp only [hc, if_false, ih]

theorem takeWhile_full {p : UInt8 → Bool} {s : Str} (h : ∀ c ∈ s, p c = true) : s.takeWhile p = s := by
  induction s with
  | nil => rfl
  | cons c s ih => rw [List.takeWhile_cons_of_pos (h c (by simp)), ih (fun x hx => h x (by simp [hx]))]

theorem dropWhile_full {p : UInt8 → Bool} {s : Str} (h : ∀ c ∈ s, p c = true) : s.dropWhile p = [] := by
  induction s with
  | nil => rfl
  | cons c s ih => rw [List.dropWhile_cons_of_pos (h c (by simp)), ih (fun x hx => h x (by simp [hx]))]

theorem locPath_hexEscape {s : Str} (h1 : (37 : UInt8) ∉ s) (h2 : (63 : UInt8) ∉ s) (h3 : (35 : UInt8) ∉ s) :
    locPath (hexEscapeNonASCII s) = s := by
  unfold locPath
  rw [takeWhile_full, pct_hexEscape h1]
  intro c hc
  unfold hexEscapeNonASCII at hc
  rw [List.mem_flatMap] at hc
  obtain ⟨x, hx, hc⟩ := hc
  obtain ⟨-, -, -, a1, a2, a3, a4⟩ := hexByte x
  have : c ≠ 63 ∧ c ≠ 35 := by
    split at hc
    · simp only [List.mem_cons, List.not_mem_nil, or_false] at hc
      rcases hc with rfl | rfl | rfl
      · decide
      · exact ⟨a1, a2⟩
      · exact ⟨a3, a4⟩
    · rw [List.mem_singleton] at hc
      subst hc
      exact ⟨fun hh => h2 (hh ▸ hx), fun hh => h3 (hh ▸ hx)⟩
  simp [this]

theorem onHost_hexEscape {s : Str} (h : OnHost s) : OnHost (hexEscapeNonASCII s) := by
  obtain ⟨h1, h2⟩ := h
  cases s with
  | nil => simp at h1
  | cons c s =>
    have hc : c = slash := by simpa using h1
    subst hc
    rw [hexEscape_cons, if_neg (by decide)]
    refine ⟨rfl, ?_⟩
    cases s with
    | nil => simp [hexEscapeNonASCII]
    | cons d s =>
      have hd : d ≠ slash := by simpa using h2
      show (hexEscapeNonASCII (d :: s)).head? ≠ some slash
      rw [hexEscape_cons]
      split
      · exact fun h => absurd (Option.some.inj h) (by decide)
      · simpa using hd

/-! ### the text of the link -/

theorem htmlByte_clean : ∀ c : UInt8, ∀ d ∈ htmlByte c, d ≠ 34 ∧ d ≠ 60 ∧ d ≠ 62 ∧ d ≠ 39 := by
  apply all_bytes
  decide +kernel

theorem htmlRead_escape (s : Str) : htmlRead (htmlEscape s) = s := by
  induction s with
  | nil => unfold htmlEscape htmlRead; rfl
  | cons c s ih =>
    show htmlRead (htmlByte c ++ htmlEscape s) = _
    unfold htmlByte
    split
    · rename_i h; subst h
      show htmlRead (38 :: 97 :: 109 :: 112 :: 59 :: htmlEscape s) = _
      rw [htmlRead]; simp [ih]
    · split
      · rename_i h; subst h
        show htmlRead (38 :: 108 :: 116 :: 59 :: htmlEscape s) = _
        rw [htmlRead]; simp [ih]
      · split
        · rename_i h; subst h
          show htmlRead (38 :: 103 :: 116 :: 59 :: htmlEscape s) = _
          rw [htmlRead]; simp [ih]
        · split
          · rename_i h; subst h
            show htmlRead (38 :: 35 :: 51 :: 52 :: 59 :: htmlEscape s) = _
            rw [htmlRead]; simp [ih]
          · split
            · rename_i h; subst h
              show htmlRead (38 :: 35 :: 51 :: 57 :: 59 :: htmlEscape s) = _
              rw [htmlRead]; simp [ih]
            · rename_i h _ _ _ _
              show htmlRead (c :: htmlEscape s) = _
              rw [htmlRead, if_neg h, ih]

/-! ### cleaning -/

theorem mem_of_mem_splitB {b c : UInt8} : ∀ {s e : Str}, e ∈ splitB b s → c ∈ e → c ∈ s := by
  intro s
  induction s with
  | nil => intro e he hc; simp [splitB] at he; subst he; exact hc
  | cons x s ih =>
    intro e he hc
    unfold splitB at he
    split at he
    · rcases List.mem_cons.1 he with rfl | he
      · simp at hc
      · exact List.mem_cons_of_mem _ (ih he hc)
    · split at he
      · rename_i hs; exact absurd hs (splitB_ne_nil _ _)
      · rename_i y ys hs
        rcases List.mem_cons.1 he with rfl | he
        · rcases List.mem_cons.1 hc with rfl | hc
          · simp
          · exact List.mem_cons_of_mem _ (ih (e := y) (by rw [hs]; simp) hc)
        · exact List.mem_cons_of_mem _ (ih (e := e) (by rw [hs]; simp [he]) hc)

theorem mem_join {c : UInt8} {l : List Str} (h : c ∈ join [slash] l) : c = slash ∨ ∃ e ∈ l, c ∈ e := by
  induction l with
  | nil => simp [join] at h
  | cons x l ih =>
    cases l with
    | nil => exact .inr ⟨x, by simp, h⟩
    | cons y r =>
      rw [join_cons_ne (by simp)] at h
      simp only [List.mem_append, List.mem_singleton] at h
      rcases h with (h | h) | h
      · exact .inr ⟨x, by simp, h⟩
      · exact .inl h
      · rcases ih h with h | ⟨e, he, h⟩
        · exact .inl h
        · exact .inr ⟨e, by simp at he ⊢; exact .inr he, h⟩

theorem clean_from (rooted : Bool) : ∀ (l es : List Str), ∀ e ∈ l.foldl (cleanStep rooted) es, e ∈ l ∨ e ∈ es := by
  intro l
  induction l with
  | nil => intro es e h; exact .inr h
  | cons x l ih =>
    intro es e h
    rcases ih _ _ h with h | h
    · exact .inl (by simp [h])
    · have : e = x ∨ e ∈ es := by
        unfold cleanStep at h
        split at h
        · exact .inr h
        · split at h
          · split at h
            · split at h
              · exact .inr h
              · rcases List.mem_append.1 h with h | h
                · exact .inr h
                · exact .inl (List.mem_singleton.1 h)
            · split at h
              · rcases List.mem_append.1 h with h | h
                · exact .inr h
                · exact .inl (List.mem_singleton.1 h)
              · exact .inr ((List.dropLast_sublist _).subset h)
          · rcases List.mem_append.1 h with h | h
            · exact .inr h
            · exact .inl (List.mem_singleton.1 h)
      rcases this with rfl | h
      · exact .inl (by simp)
      · exact .inr h

/-- cleaning brings in no bytes but slashes and dots -/
theorem mem_clean {c : UInt8} {p : Str} (h : c ∈ pathClean p) : c = slash ∨ c = dotB ∨ c ∈ p := by
  unfold pathClean at h
  split at h
  · exact .inr (.inl (List.mem_singleton.1 h))
  · have key : ∀ {c}, c ∈ join [slash] ((splitB slash p).foldl (cleanStep (p.head? == some slash)) []) → c = slash ∨ c = dotB ∨ c ∈ p := by
      intro c h
      rcases mem_join h with h | ⟨e, he, h⟩
      · exact .inl h
      · rcases clean_from _ _ _ _ he with he | he
        · exact .inr (.inr (mem_of_mem_splitB he h))
        · simp at he
    simp only [] at h
    split at h
    · rcases List.mem_cons.1 h with h | h
      · exact .inl h
      · exact key h
    · split at h
      · exact .inr (.inl (List.mem_singleton.1 h))
      · exact key h

theorem clean_root (p : Str) (h : p.head? = some slash) : (pathClean p).head? = some slash ∧ (pathClean p).tail.head? ≠ some slash := by
  obtain ⟨k, rs, hrs, h1, -⟩ := clean_walk p
  obtain ⟨-, h2, -⟩ := h1 h
  rw [h2]
  refine ⟨rfl, ?_⟩
  rw [List.tail_cons]
  cases rs with
  | nil => simp [join]
  | cons x r =>
    have hx := hrs x (by simp)
    intro hh
    have : (join [slash] (x :: r)).head? = x.head? := by
      cases r with
      | nil => rfl
      | cons y r =>
        rw [join_cons_ne (by simp)]
        cases x with
        | nil => exact absurd rfl hx.some
        | cons c t => rfl
    rw [this] at hh
    exact hx.flat (List.mem_of_head? hh)

theorem walk_snoc_slash (cwd : List Str) {p : Str} (h : p ≠ []) : walk cwd (p ++ [slash]) = walk cwd p := by
  rw [walk_append (b := []) cwd h]
  rfl

theorem cleanKeep_mem {c : UInt8} {p : Str} (h : c ∈ cleanKeep p) : c = slash ∨ c = dotB ∨ c ∈ p := by
  unfold cleanKeep at h
  rw [goClean_eq] at h
  split at h
  · rcases List.mem_append.1 h with h | h
    · exact mem_clean h
    · exact .inl (List.mem_singleton.1 h)
  · exact mem_clean h

theorem pathClean_ne_nil (p : Str) : pathClean p ≠ [] := by
  unfold pathClean
  split
  · simp
  · simp only []
    split
    · simp
    · split
      · simp
      · rename_i h
        exact (getLast_join h (clean_elems _ _ _ (by simp) (fun x hx => not_mem_of_mem_splitB hx))).2

theorem cleanKeep_walk (cwd : List Str) (p : Str) : walk cwd (cleanKeep p) = walk cwd p := by
  unfold cleanKeep
  rw [goClean_eq]
  split
  · rw [walk_snoc_slash cwd (pathClean_ne_nil p), walk_clean]
  · exact walk_clean cwd p

theorem cleanKeep_root {p : Str} (h : p.head? = some slash) : OnHost (cleanKeep p) := by
  obtain ⟨h1, h2⟩ := clean_root p h
  unfold cleanKeep
  rw [goClean_eq]
  split
  · rename_i hs
    cases hp : pathClean p with
    | nil => exact absurd hp (pathClean_ne_nil p)
    | cons c r =>
      rw [hp] at h1 h2 hs
      cases r with
      | nil =>
        have : c = slash := by simpa using h1
        subst this
        exact absurd (by decide) hs.2
      | cons d r => exact ⟨by simpa using h1, by simpa using h2⟩
  · exact ⟨h1, h2⟩

/-- the path ends with a slash if it did, or if it is the root -/
theorem cleanKeep_last (p : Str) : (cleanKeep p).getLast? = some slash ↔ p.getLast? = some slash ∨ pathClean p = [slash] := by
  unfold cleanKeep
  rw [goClean_eq]
  split
  · rename_i h
    rw [List.getLast?_concat]
    exact ⟨fun _ => .inl (hasSuffix_one.1 h.1), fun _ => rfl⟩
  · rename_i h
    constructor
    · intro hl
      by_cases hp : pathClean p = [slash]
      · exact .inr hp
      · exact absurd hl (pathClean_last hp)
    · rintro (hl | hl)
      · refine Classical.not_not.1 (fun hn => h ⟨hasSuffix_one.2 hl, fun hh => hn (hasSuffix_one.1 hh)⟩)
      · rw [hl]; rfl

theorem splitDir_eq {p : Str} (h : p.head? = some slash) : ∃ a l, p = a ++ slash :: l ∧ slash ∉ l ∧ splitDir p = a ++ [slash] := by
  have hm : slash ∈ p := List.mem_of_head? h
  unfold splitDir
  have hsplit := List.takeWhile_append_dropWhile (p := (· != slash)) (l := p.reverse)
  cases hd : p.reverse.dropWhile (· != slash) with
  | nil =>
    rw [hd, List.append_nil] at hsplit
    have := List.all_takeWhile (p := (· != slash)) (l := p.reverse)
    rw [hsplit, List.all_eq_true] at this
    have := this slash (by simpa using hm)
    simp at this
  | cons x t =>
    have hx : x = slash := by
      have := List.head?_dropWhile_not (p := (· != slash)) (l := p.reverse)
      rw [hd] at this
      simpa using this
    subst hx
    refine ⟨t.reverse, (p.reverse.takeWhile (· != slash)).reverse, ?_, ?_, by simp⟩
    · rw [hd] at hsplit
      have := congrArg List.reverse hsplit
      rw [List.reverse_reverse] at this
      rw [List.reverse_append, List.reverse_cons, List.append_assoc] at this
      exact this.symm
    · intro hh
      have := List.all_takeWhile (p := (· != slash)) (l := p.reverse)
      rw [List.all_eq_true] at this
      simpa using this slash (by simpa using hh)

theorem walk_splitDir {p u : Str} (h : p.head? = some slash) (hu : u.head? ≠ some slash) :
    walk [] (splitDir p ++ u) = walk (dirOf p) u ∧ (splitDir p ++ u).head? = some slash := by
  obtain ⟨a, l, hp, hl, hs⟩ := splitDir_eq h
  have hd : dirOf p = (splitB slash a).foldl walkStep [] := by
    unfold dirOf
    rw [hp, splitB_append_any, splitB_of_not_mem hl, List.dropLast_concat]
  rw [hs]
  refine ⟨?_, ?_⟩
  · unfold walk
    rw [if_neg hu, hd, List.append_assoc]
    show (splitB slash (a ++ slash :: u)).foldl walkStep _ = _
    rw [splitB_append_any, List.foldl_append]
    congr 2
    split <;> rfl
  · cases a with
    | nil => rfl
    | cons c t => rw [hp] at h; simpa using h

end Water
