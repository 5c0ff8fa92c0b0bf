import Verif.Lemmas.Regexp
/- Reading an expression is the inverse of writing it. -/
namespace Water
open Spec

/-! ### what is read is what is written -/

theorem readInClass_sound {s rest : Str} {c : UInt8} (h : readInClass s = some (c, rest)) : s = showInClass c ++ rest := by
  unfold readInClass at h
  unfold showInClass
  split at h
  · cases h
  · split at h
    · rename_i a s h92
      split at h
      · split at h
        · rename_i hc
          cases h
          rw [if_pos hc, h92]; rfl
        · cases h
      · cases h
    · split at h
      · cases h
      · rename_i hc
        cases h
        rw [if_neg hc]; rfl

theorem readRanges_sound : ∀ {f : Nat} {s rest : Str} {rs : List (UInt8 × UInt8)}, readRanges f s = some (rs, rest) →
    s = rs.flatMap showRange ++ b!"]" ++ rest := by
  intro f
  induction f with
  | zero => intro s rest rs h; cases h
  | succ f ih =>
    intro s rest rs h
    unfold readRanges at h
    split at h
    · rename_i hh
      cases h
      cases s with
      | nil => cases hh
      | cons c s => cases hh; rfl
    · split at h
      · cases h
      · rename_i a s1 ha
        have ha' := readInClass_sound ha
        split at h
        · rename_i hm
          split at h
          · cases h
          · rename_i b s2 hb
            have hb' := readInClass_sound hb
            split at h
            · cases h
            · rename_i hab
              obtain ⟨x, hx, he⟩ := Option.map_eq_some_iff.1 h
              obtain ⟨rs', rest'⟩ := x
              cases he
              have := ih hx
              cases s1 with
              | nil => cases hm
              | cons c s1 =>
                cases hm
                rw [List.tail_cons] at hb'
                rw [ha', hb', this]
                have hsr : showRange (a, b) = showInClass a ++ [45] ++ showInClass b := if_neg hab
                rw [List.flatMap_cons, hsr]
                simp
        · obtain ⟨x, hx, he⟩ := Option.map_eq_some_iff.1 h
          obtain ⟨rs', rest'⟩ := x
          cases he
          have := ih hx
          have hsr : showRange (a, a) = showInClass a := if_pos rfl
          rw [ha', this, List.flatMap_cons, hsr]
          simp

theorem readSet_sound {f : Nat} {s rest : Str} {c : CharSet} (h : readSet f s = some (c, rest)) : s = c.text ++ rest := by
  unfold readSet at h
  split at h
  · cases h
  · rename_i a s
    split at h
    · rename_i ha; cases h; rw [ha]; rfl
    · split at h
      · rename_i ha
        split at h
        · split at h
          · rename_i hc; cases h; rw [ha, hc]; rfl
          · split at h
            · rename_i hc; cases h; rw [ha, hc]; rfl
            · split at h
              · rename_i hc; cases h; rw [ha, hc]; rfl
              · split at h
                · rename_i hc
                  cases h
                  show _ = showChar _ ++ _
                  unfold showChar
                  rw [if_pos hc, ha]; rfl
                · cases h
        · cases h
      · split at h
        · rename_i ha
          split at h
          · rename_i hn
            obtain ⟨x, hx, he⟩ := Option.map_eq_some_iff.1 h
            cases he
            have := readRanges_sound hx
            cases s with
            | nil => cases hn
            | cons c s =>
              cases hn
              rw [List.tail_cons] at this
              rw [this, ha]
              show _ = (b!"[" ++ b!"^" ++ _ ++ b!"]") ++ _
              simp
          · obtain ⟨x, hx, he⟩ := Option.map_eq_some_iff.1 h
            cases he
            have := readRanges_sound hx
            rw [this, ha]
            show _ = (b!"[" ++ [] ++ _ ++ b!"]") ++ _
            simp
        · split at h
          · cases h
          · rename_i hc
            cases h
            show _ = showChar _ ++ _
            unfold showChar
            rw [if_neg hc]; rfl

theorem readLazy_sound (k : RepOp) (a : Re) (s : Str) : a.text ++ k.text ++ s = (readLazy k a s).1.text ++ (readLazy k a s).2 := by
  unfold readLazy
  split
  · rename_i h
    cases s with
    | nil => cases h
    | cons c s =>
      cases h
      show _ = (a.text ++ k.text ++ b!"?") ++ s
      simp
  · show _ = (a.text ++ k.text ++ []) ++ s
    simp

theorem readOp_sound (a : Re) (s : Str) : a.text ++ s = (readOp a s).1.text ++ (readOp a s).2 := by
  cases s with
  | nil => rfl
  | cons c s =>
    rw [readOp]
    split
    · rename_i h
      rw [← readLazy_sound, h, List.append_assoc]; rfl
    · split
      · rename_i h
        rw [← readLazy_sound, h, List.append_assoc]; rfl
      · split
        · rename_i h
          rw [← readLazy_sound, h, List.append_assoc]; rfl
        · rfl

theorem head_split {s : Str} {c : UInt8} (h : s.head? = some c) : s = c :: s.tail := by
  cases s with
  | nil => cases h
  | cons d s => cases h; rfl

theorem read_sound : ∀ (f : Nat),
    (∀ s r rest, readAlt f s = some (r, rest) → s = r.text ++ rest) ∧ (∀ s r rest, readCat f s = some (r, rest) → s = r.text ++ rest) ∧
    ∀ s r rest, readItem f s = some (r, rest) → s = r.text ++ rest := by
  intro f
  induction f with
  | zero => refine ⟨?_, ?_, ?_⟩ <;> intro s r rest h <;> (first | rw [readAlt] at h | rw [readCat] at h | rw [readItem] at h) <;> cases h
  | succ f ih =>
    obtain ⟨ih1, ih2, ih3⟩ := ih
    refine ⟨?_, ?_, ?_⟩
    · intro s r rest h
      rw [readAlt] at h
      split at h
      · cases h
      · rename_i a s1 ha
        have ha' := ih2 _ _ _ ha
        split at h
        · rename_i hh
          obtain ⟨x, hx, he⟩ := Option.map_eq_some_iff.1 h
          cases he
          have := ih1 _ _ _ (show readAlt f s1.tail = some (x.1, x.2) from hx)
          rw [ha', head_split hh, this]
          show _ = (a.text ++ b!"|" ++ x.1.text) ++ x.2
          simp
        · cases h; exact ha'
    · intro s r rest h
      rw [readCat] at h
      split at h
      · cases h; rfl
      · split at h
        · cases h
        · rename_i a s1 ha
          have ha' := ih3 _ _ _ ha
          obtain ⟨x, hx, he⟩ := Option.map_eq_some_iff.1 h
          have := ih2 _ _ _ (show readCat f s1 = some (x.1, x.2) from hx)
          split at he
          · rename_i hx1
            cases he
            rw [ha', this, hx1]
            rfl
          · cases he
            rw [ha', this]
            show _ = (a.text ++ x.1.text) ++ x.2
            simp
    · intro s r rest h
      rw [readItem] at h
      split at h
      · rename_i hh; cases h; exact head_split hh
      · split at h
        · rename_i hh; cases h; exact head_split hh
        · split at h
          · rename_i hh
            dsimp only at h
            split at h
            · cases h
            · rename_i a s1 ha
              split at h
              · rename_i h41
                have ha' := ih1 _ _ _ ha
                have h1 := head_split h41
                have hop := readOp_sound (if s.take 3 = b!"(?:" then .nc a else .group a) s1.tail
                have h' := Option.some.inj h
                rw [h'] at hop
                dsimp only at hop
                rw [← hop]
                by_cases hnc : s.take 3 = b!"(?:"
                · rw [if_pos hnc] at ha' ⊢
                  have : s = b!"(?:" ++ s.drop 3 := by rw [← hnc]; exact (List.take_append_drop 3 s).symm
                  rw [this, ha', h1]
                  show _ = (b!"(?:" ++ a.text ++ b!")") ++ s1.tail
                  simp
                · rw [if_neg hnc] at ha' ⊢
                  have : s = b!"(" ++ s.drop 1 := by rw [List.drop_one]; exact head_split hh
                  rw [this, ha', h1]
                  show _ = (b!"(" ++ a.text ++ b!")") ++ s1.tail
                  simp
              · cases h
          · obtain ⟨x, hx, he⟩ := Option.map_eq_some_iff.1 h
            have h1 := readSet_sound (show readSet f s = some (x.1, x.2) from hx)
            have hop := readOp_sound (.one x.1) x.2
            rw [he] at hop
            dsimp only at hop
            rw [← hop, h1]
            rfl

/-! ### what is written is read -/

/-- what an item begins with -/
theorem item_head {r : Re} (hr : r.ok = true) (hi : r.isItem = true) :
    ∃ c u, r.text = c :: u ∧ c ≠ 42 ∧ c ≠ 43 ∧ c ≠ 63 ∧ c ≠ 124 ∧ c ≠ 41 := by
  have hsp : ∀ c : UInt8, (b!"\\.+*?()|[]{}^$".contains c) = false → c ≠ 42 ∧ c ≠ 43 ∧ c ≠ 63 ∧ c ≠ 124 ∧ c ≠ 41 := by
    refine all_bytes ?_
    decide +kernel
  induction r with
  | eps => cases hi
  | bot => exact ⟨94, [], rfl, by decide⟩
  | eot => exact ⟨36, [], rfl, by decide⟩
  | one c =>
    cases c with
    | char c =>
      show ∃ d u, showChar c = d :: u ∧ _
      unfold showChar
      split
      · exact ⟨92, [c], rfl, by decide⟩
      · rename_i h
        exact ⟨c, [], rfl, hsp c (by simpa using h)⟩
    | any => exact ⟨46, [], rfl, by decide⟩
    | digit => exact ⟨92, [100], rfl, by decide⟩
    | word => exact ⟨92, [119], rfl, by decide⟩
    | space => exact ⟨92, [115], rfl, by decide⟩
    | set n rs => exact ⟨91, _, rfl, by decide⟩
  | group a _ => exact ⟨40, _, rfl, by decide⟩
  | nc a _ => exact ⟨40, _, rfl, by decide⟩
  | rep k l a ih =>
    simp only [Re.ok, Bool.and_eq_true] at hr
    obtain ⟨c, u, h1, h2⟩ := ih hr.1.2 (by cases a <;> first | rfl | exact absurd hr.1.1 (by simp [Re.isAtom]))
    refine ⟨c, u ++ k.text ++ (if l then b!"?" else []), ?_, h2⟩
    show a.text ++ k.text ++ _ = _
    rw [h1]; rfl
  | cat a b _ _ => cases hi
  | alt a b _ _ => cases hi

theorem readInClass_cons (a : UInt8) (s : Str) : readInClass (a :: s) =
    if a = 92 then
      match s with
      | c :: s => if b!"[]\\^-".contains c then some (c, s) else none
      | [] => none
    else if b!"[]\\^-".contains a then none else some (a, s) := rfl

theorem readSet_cons (f : Nat) (a : UInt8) (s : Str) : readSet f (a :: s) =
    if a = 46 then some (.any, s)
    else if a = 92 then
      match s with
      | c :: s =>
        if c = 100 then some (.digit, s) else if c = 119 then some (.word, s) else if c = 115 then some (.space, s)
        else if b!"\\.+*?()|[]{}^$".contains c then some (.char c, s) else none
      | [] => none
    else if a = 91 then
      if s.head? = some 94 then (readRanges f s.tail).map (fun x => (.set true x.1, x.2))
      else (readRanges f s).map (fun x => (.set false x.1, x.2))
    else if b!"\\.+*?()|[]{}^$".contains a then none else some (.char a, s) := rfl

theorem readInClass_show (c : UInt8) (rest : Str) : readInClass (showInClass c ++ rest) = some (c, rest) := by
  unfold showInClass
  split
  · rename_i h
    show readInClass (92 :: c :: rest) = _
    rw [readInClass_cons, if_pos rfl]
    dsimp only
    rw [if_pos h]
  · rename_i h
    have h92 : c ≠ 92 := by rintro rfl; exact h (by decide)
    show readInClass (c :: rest) = _
    rw [readInClass_cons, if_neg h92, if_neg h]

theorem showInClass_head (c : UInt8) (rest : Str) : (showInClass c ++ rest).head? ≠ some 93 ∧ (showInClass c ++ rest).head? ≠ some 45 ∧
    (showInClass c ++ rest).head? ≠ some 94 := by
  have h : ∀ c : UInt8, (showInClass c).head? ≠ some 93 ∧ (showInClass c).head? ≠ some 45 ∧ (showInClass c).head? ≠ some 94 ∧
      (showInClass c) ≠ [] := by
    refine all_bytes ?_
    decide +kernel
  obtain ⟨h1, h2, h3, h4⟩ := h c
  cases hx : showInClass c with
  | nil => exact absurd hx h4
  | cons d u => rw [hx] at h1 h2 h3; exact ⟨h1, h2, h3⟩

theorem showRange_head (r : UInt8 × UInt8) (rest : Str) : (showRange r ++ rest).head? ≠ some 93 ∧ (showRange r ++ rest).head? ≠ some 45 ∧
    (showRange r ++ rest).head? ≠ some 94 := by
  unfold showRange
  split
  · exact showInClass_head _ _
  · rw [List.append_assoc, List.append_assoc]
    exact showInClass_head _ _

theorem readRanges_show : ∀ (rs : List (UInt8 × UInt8)) (f : Nat) (rest : Str), rs.length < f →
    readRanges f (rs.flatMap showRange ++ b!"]" ++ rest) = some (rs, rest) := by
  intro rs
  induction rs with
  | nil =>
    intro f rest hf
    obtain ⟨f, rfl⟩ : ∃ g, f = g + 1 := ⟨f - 1, by simp at hf; omega⟩
    rw [readRanges]
    exact if_pos rfl
  | cons r rs ih =>
    intro f rest hf
    obtain ⟨f, rfl⟩ : ∃ g, f = g + 1 := ⟨f - 1, by simp at hf; omega⟩
    have ih' := ih f rest (by simpa using hf)
    have hnext : (rs.flatMap showRange ++ b!"]" ++ rest).head? ≠ some 45 := by
      cases rs with
      | nil => exact (by decide : (93 : UInt8) ≠ 45) ∘ (fun h => Option.some.inj h)
      | cons q rs =>
        rw [List.flatMap_cons, List.append_assoc, List.append_assoc]
        exact (showRange_head q _).2.1
    rw [List.flatMap_cons, List.append_assoc, List.append_assoc, ← List.append_assoc (rs.flatMap showRange)]
    rw [readRanges, if_neg (showRange_head r _).1]
    obtain ⟨a, b⟩ := r
    by_cases hab : a = b
    · subst hab
      have hsr : showRange (a, a) = showInClass a := if_pos rfl
      rw [hsr, readInClass_show]
      dsimp only
      rw [if_neg hnext, ih']
      rfl
    · have hsr : showRange (a, b) = showInClass a ++ [45] ++ showInClass b := if_neg hab
      rw [hsr, List.append_assoc, List.append_assoc, readInClass_show]
      dsimp only
      rw [if_pos (show ([45] ++ _ : Str).head? = some 45 from rfl)]
      show (match readInClass (showInClass b ++ _) with | none => none | some (b, s) => _) = _
      rw [readInClass_show]
      dsimp only
      rw [if_neg hab, ih']
      rfl

theorem ranges_length (rs : List (UInt8 × UInt8)) : rs.length ≤ (rs.flatMap showRange).length := by
  induction rs with
  | nil => exact Nat.le_refl _
  | cons r rs ih =>
    have h : 1 ≤ (showRange r).length := by
      have hc : ∀ c, 1 ≤ (showInClass c).length := by intro c; unfold showInClass; split <;> simp
      have := hc r.1
      unfold showRange
      split
      · exact this
      · simp only [List.length_append]; omega
    rw [List.flatMap_cons, List.length_append, List.length_cons]
    omega

theorem readSet_show {c : CharSet} (hc : c.ok = true) {f : Nat} (hf : c.text.length ≤ f) (rest : Str) :
    readSet f (c.text ++ rest) = some (c, rest) := by
  cases c with
  | any => rfl
  | digit => rfl
  | word => rfl
  | space => rfl
  | char c =>
    show readSet f (showChar c ++ rest) = _
    have hsp : ∀ c : UInt8, (b!"\\.+*?()|[]{}^$".contains c) = true → c ≠ 100 ∧ c ≠ 119 ∧ c ≠ 115 := by
      refine all_bytes ?_
      decide +kernel
    have hns : ∀ c : UInt8, ¬ (b!"\\.+*?()|[]{}^$".contains c) = true → c ≠ 46 ∧ c ≠ 92 ∧ c ≠ 91 := by
      refine all_bytes ?_
      decide +kernel
    unfold showChar
    split
    · rename_i h
      obtain ⟨h1, h2, h3⟩ := hsp c h
      show readSet f (92 :: c :: rest) = _
      rw [readSet_cons, if_neg (by decide), if_pos rfl]
      dsimp only
      rw [if_neg h1, if_neg h2, if_neg h3, if_pos h]
    · rename_i h
      obtain ⟨h1, h2, h3⟩ := hns c h
      show readSet f (c :: rest) = _
      rw [readSet_cons, if_neg h1, if_neg h2, if_neg h3, if_neg h]
  | set neg rs =>
    have hne : rs ≠ [] := by simp [CharSet.ok] at hc; exact hc.1
    have hlen : rs.length < f := by
      have h1 := ranges_length rs
      have h2 : (CharSet.set neg rs).text = b!"[" ++ (if neg then b!"^" else []) ++ rs.flatMap showRange ++ b!"]" := rfl
      rw [h2] at hf
      simp only [List.length_append] at hf
      have h3 : (b!"[").length = 1 := rfl
      have h4 : (b!"]").length = 1 := rfl
      omega
    cases neg with
    | true =>
      have e : (CharSet.set true rs).text ++ rest = 91 :: 94 :: (rs.flatMap showRange ++ b!"]" ++ rest) := by
        show (b!"[" ++ b!"^" ++ rs.flatMap showRange ++ b!"]") ++ rest = _
        simp
      rw [e, readSet_cons, if_neg (by decide), if_neg (by decide), if_pos rfl, if_pos (show (94 :: _ : Str).head? = some 94 from rfl), List.tail_cons,
        readRanges_show rs f rest hlen]
      rfl
    | false =>
      have e : (CharSet.set false rs).text ++ rest = 91 :: (rs.flatMap showRange ++ b!"]" ++ rest) := by
        show (b!"[" ++ [] ++ rs.flatMap showRange ++ b!"]") ++ rest = _
        simp
      have hh : (rs.flatMap showRange ++ b!"]" ++ rest).head? ≠ some 94 := by
        cases rs with
        | nil => exact absurd rfl hne
        | cons q rs =>
          rw [List.flatMap_cons, List.append_assoc, List.append_assoc]
          exact (showRange_head q _).2.2
      rw [e, readSet_cons, if_neg (by decide), if_neg (by decide), if_pos rfl, if_neg hh, readRanges_show rs f rest hlen]
      rfl

theorem readOp_stop (a : Re) {s : Str} (h : s.head? ≠ some 42 ∧ s.head? ≠ some 43 ∧ s.head? ≠ some 63) : readOp a s = (a, s) := by
  cases s with
  | nil => rfl
  | cons c s =>
    have h1 : c ≠ 42 := fun e => h.1 (by rw [e]; rfl)
    have h2 : c ≠ 43 := fun e => h.2.1 (by rw [e]; rfl)
    have h3 : c ≠ 63 := fun e => h.2.2 (by rw [e]; rfl)
    rw [readOp, if_neg h1, if_neg h2, if_neg h3]

theorem readOp_show (a : Re) (k : RepOp) (l : Bool) {s : Str} (h : s.head? ≠ some 63) :
    readOp a (k.text ++ (if l then b!"?" else []) ++ s) = (.rep k l a, s) := by
  have hl : readLazy k a ((if l then b!"?" else []) ++ s) = (.rep k l a, s) := by
    unfold readLazy
    cases l with
    | true => rfl
    | false =>
      show (if s.head? = some 63 then _ else _) = _
      rw [if_neg h]; rfl
  cases k with
  | star => rw [← hl]; rfl
  | plus => rw [← hl]; rfl
  | quest => rw [← hl]; rfl

/-- where a sequence ends -/
def endsCat (s : Str) : Prop := s = [] ∨ s.head? = some 124 ∨ s.head? = some 41

theorem endsCat_stop {s : Str} (h : endsCat s) : s.head? ≠ some 42 ∧ s.head? ≠ some 43 ∧ s.head? ≠ some 63 := by
  rcases h with rfl | h | h
  · simp
  · rw [h]; decide
  · rw [h]; decide

/-- a sequence, given how its items are read -/
theorem readCat_item {r : Re} (hr : r.ok = true) (hi : r.isItem = true) {f : Nat} {u v : Str} {b : Re}
    (h1 : readItem f (r.text ++ u) = some (r, u)) (h2 : readCat f u = some (b, v)) :
    readCat (f + 1) (r.text ++ u) = some (if b = .eps then r else .cat r b, v) := by
  obtain ⟨c, w, hw, _, _, _, h4, h5⟩ := item_head hr hi
  rw [readCat, if_neg, h1]
  · dsimp only
    rw [h2]
    rfl
  · rw [hw]
    rintro (h | h | h)
    · cases h
    · exact h4 (Option.some.inj h)
    · exact h5 (Option.some.inj h)

theorem read_text {r : Re} (hr : r.ok = true) :
    (r.isAtom = true → ∀ f rest, 3 * r.text.length ≤ f → readItem f (r.text ++ rest) = some (readOp r rest)) ∧
    (r.isItem = true → ∀ f rest, 3 * r.text.length ≤ f → rest.head? ≠ some 42 ∧ rest.head? ≠ some 43 ∧ rest.head? ≠ some 63 →
      readItem f (r.text ++ rest) = some (r, rest)) ∧
    ((∀ a b, r ≠ .alt a b) → ∀ f rest, 3 * r.text.length + 1 ≤ f → endsCat rest → readCat f (r.text ++ rest) = some (r, rest)) ∧
    ∀ f rest, 3 * r.text.length + 2 ≤ f → rest = [] ∨ rest.head? = some 41 → readAlt f (r.text ++ rest) = some (r, rest) := by
  -- a sequence is alternatives
  have lift : ∀ r : Re, (∀ f rest, 3 * r.text.length + 1 ≤ f → endsCat rest → readCat f (r.text ++ rest) = some (r, rest)) →
      ∀ f rest, 3 * r.text.length + 2 ≤ f → rest = [] ∨ rest.head? = some 41 → readAlt f (r.text ++ rest) = some (r, rest) := by
    intro r h f rest hf he
    obtain ⟨f, rfl⟩ : ∃ g, f = g + 1 := ⟨f - 1, by omega⟩
    rw [readAlt, h f rest (by omega) (he.elim .inl (fun h => .inr (.inr h)))]
    dsimp only
    rw [if_neg]
    rcases he with rfl | he
    · simp
    · rw [he]; decide
  have endCat : ∀ f rest, 1 ≤ f → endsCat rest → readCat f rest = some (.eps, rest) := by
    intro f rest hf he
    obtain ⟨f, rfl⟩ : ∃ g, f = g + 1 := ⟨f - 1, by omega⟩
    rw [readCat, if_pos (show rest = [] ∨ rest.head? = some 124 ∨ rest.head? = some 41 from he)]
  -- an item is a sequence
  have itemCat : ∀ r : Re, r.ok = true → r.isItem = true →
      (∀ f rest, 3 * r.text.length ≤ f → rest.head? ≠ some 42 ∧ rest.head? ≠ some 43 ∧ rest.head? ≠ some 63 →
        readItem f (r.text ++ rest) = some (r, rest)) →
      ∀ f rest, 3 * r.text.length + 1 ≤ f → endsCat rest → readCat f (r.text ++ rest) = some (r, rest) := by
    intro r hr hi h f rest hf he
    obtain ⟨c, u, hcu, _⟩ := item_head hr hi
    have hpos : 1 ≤ r.text.length := by rw [hcu]; simp
    obtain ⟨f, rfl⟩ : ∃ g, f = g + 1 := ⟨f - 1, by omega⟩
    rw [readCat_item hr hi (h f rest (by omega) (endsCat_stop he)) (endCat f rest (by omega) he), if_pos rfl]
  have atomItem : ∀ r : Re, (∀ f rest, 3 * r.text.length ≤ f → readItem f (r.text ++ rest) = some (readOp r rest)) →
      ∀ f rest, 3 * r.text.length ≤ f → rest.head? ≠ some 42 ∧ rest.head? ≠ some 43 ∧ rest.head? ≠ some 63 →
        readItem f (r.text ++ rest) = some (r, rest) := by
    intro r h f rest hf hs
    rw [h f rest hf, readOp_stop r hs]
  have fromItem : ∀ r : Re, r.ok = true → r.isItem = true →
      (∀ f rest, 3 * r.text.length ≤ f → rest.head? ≠ some 42 ∧ rest.head? ≠ some 43 ∧ rest.head? ≠ some 63 →
        readItem f (r.text ++ rest) = some (r, rest)) →
      (∀ f rest, 3 * r.text.length + 1 ≤ f → endsCat rest → readCat f (r.text ++ rest) = some (r, rest)) ∧
      ∀ f rest, 3 * r.text.length + 2 ≤ f → rest = [] ∨ rest.head? = some 41 → readAlt f (r.text ++ rest) = some (r, rest) :=
    fun r hr hi h => ⟨itemCat r hr hi h, lift r (itemCat r hr hi h)⟩
  induction r with
  | eps =>
    refine ⟨(fun h => (nomatch h)), (fun h => (nomatch h)), fun _ f rest hf he => endCat f rest (by omega) he, ?_⟩
    exact lift .eps (fun f rest hf he => endCat f rest (by omega) he)
  | bot =>
    have h : ∀ f rest, 3 * Re.bot.text.length ≤ f → rest.head? ≠ some 42 ∧ rest.head? ≠ some 43 ∧ rest.head? ≠ some 63 →
        readItem f (Re.bot.text ++ rest) = some (.bot, rest) := by
      intro f rest hf _
      obtain ⟨f, rfl⟩ : ∃ g, f = g + 1 := ⟨f - 1, by simp [Re.text] at hf; omega⟩
      rw [readItem]
      rfl
    obtain ⟨h1, h2⟩ := fromItem .bot rfl rfl h
    exact ⟨(fun h => (nomatch h)), fun _ => h, fun _ => h1, h2⟩
  | eot =>
    have h : ∀ f rest, 3 * Re.eot.text.length ≤ f → rest.head? ≠ some 42 ∧ rest.head? ≠ some 43 ∧ rest.head? ≠ some 63 →
        readItem f (Re.eot.text ++ rest) = some (.eot, rest) := by
      intro f rest hf _
      obtain ⟨f, rfl⟩ : ∃ g, f = g + 1 := ⟨f - 1, by simp [Re.text] at hf; omega⟩
      rw [readItem]
      rfl
    obtain ⟨h1, h2⟩ := fromItem .eot rfl rfl h
    exact ⟨(fun h => (nomatch h)), fun _ => h, fun _ => h1, h2⟩
  | one c =>
    have hA : ∀ f rest, 3 * (Re.one c).text.length ≤ f → readItem f ((Re.one c).text ++ rest) = some (readOp (.one c) rest) := by
      intro f rest hf
      have hfirst : ∃ d u, c.text = d :: u ∧ d ≠ 94 ∧ d ≠ 36 ∧ d ≠ 40 := by
        cases c with
        | char c =>
          have hsp : ∀ c : UInt8, ¬ (b!"\\.+*?()|[]{}^$".contains c) = true → c ≠ 94 ∧ c ≠ 36 ∧ c ≠ 40 := by
            refine all_bytes ?_
            decide +kernel
          show ∃ d u, showChar c = d :: u ∧ _
          unfold showChar
          split
          · exact ⟨92, [c], rfl, by decide⟩
          · rename_i h; exact ⟨c, [], rfl, hsp c h⟩
        | any => exact ⟨46, [], rfl, by decide⟩
        | digit => exact ⟨92, [100], rfl, by decide⟩
        | word => exact ⟨92, [119], rfl, by decide⟩
        | space => exact ⟨92, [115], rfl, by decide⟩
        | set n rs => exact ⟨91, _, rfl, by decide⟩
      obtain ⟨d, u, hdu, h1, h2, h3⟩ := hfirst
      have hlen : c.text.length ≥ 1 := by rw [hdu]; simp
      have hf' : 3 * c.text.length ≤ f := hf
      obtain ⟨f, rfl⟩ : ∃ g, f = g + 1 := ⟨f - 1, by omega⟩
      show readItem (f + 1) (c.text ++ rest) = _
      have hs := readSet_show (c := c) hr (f := f) (by omega) rest
      rw [readItem, hs]
      rw [hdu]
      show (if some d = some 94 then _ else if some d = some 36 then _ else if some d = some 40 then _ else _) = _
      rw [if_neg (fun h => h1 (Option.some.inj h)), if_neg (fun h => h2 (Option.some.inj h)), if_neg (fun h => h3 (Option.some.inj h))]
      rfl
    have hI := atomItem (.one c) hA
    obtain ⟨h1, h2⟩ := fromItem (.one c) hr rfl hI
    exact ⟨fun _ => hA, fun _ => hI, fun _ => h1, h2⟩
  | group a ih =>
    have hr' : a.ok = true := hr
    obtain ⟨_, _, _, ihL⟩ := ih hr'
    have hA : ∀ f rest, 3 * (Re.group a).text.length ≤ f → readItem f ((Re.group a).text ++ rest) = some (readOp (.group a) rest) := by
      intro f rest hf
      have hlen : (Re.group a).text.length = a.text.length + 2 := by
        show (b!"(" ++ a.text ++ b!")").length = _
        simp
      obtain ⟨f, rfl⟩ : ∃ g, f = g + 1 := ⟨f - 1, by omega⟩
      have e : (Re.group a).text ++ rest = 40 :: (a.text ++ 41 :: rest) := by
        show (b!"(" ++ a.text ++ b!")") ++ rest = _
        simp
      have hL := ihL f (41 :: rest) (by omega) (.inr rfl)
      have hnc : ¬ (40 :: (a.text ++ 41 :: rest)).take 3 = b!"(?:" := by
        intro h
        -- the text of an expression does not begin with `?`
        have hq : (a.text ++ 41 :: rest).head? = some 63 := by
          cases hx : a.text ++ 41 :: rest with
          | nil => rw [hx] at h; exact absurd h (by decide)
          | cons c u => rw [hx] at h; simp at h; rw [h.1]; rfl
        have hread := hL
        obtain ⟨f', hf'⟩ : ∃ g, f = g + 2 := ⟨f - 2, by omega⟩
        have key : ∀ g s, s.head? = some 63 → readAlt (g + 2) s = none := by
          intro g s hs
          have hs' := head_split hs
          rw [hs', readAlt, readCat, if_neg (by simp)]
          cases g with
          | zero => rw [readItem]
          | succ g =>
            rw [readItem]
            rfl
        rw [hf', key f' _ hq] at hread
        cases hread
      rw [e, readItem, if_neg (by simp), if_neg (by simp), if_pos (show (40 :: _ : Str).head? = some 40 from rfl)]
      dsimp only
      rw [if_neg hnc, List.drop_one, List.tail_cons, hL]
      dsimp only
      rw [if_neg hnc]
      rfl
    have hI := atomItem (.group a) hA
    obtain ⟨h1, h2⟩ := fromItem (.group a) hr rfl hI
    exact ⟨fun _ => hA, fun _ => hI, fun _ => h1, h2⟩
  | nc a ih =>
    have hr' : a.ok = true := hr
    obtain ⟨_, _, _, ihL⟩ := ih hr'
    have hA : ∀ f rest, 3 * (Re.nc a).text.length ≤ f → readItem f ((Re.nc a).text ++ rest) = some (readOp (.nc a) rest) := by
      intro f rest hf
      have hlen : (Re.nc a).text.length = a.text.length + 4 := by
        show (b!"(?:" ++ a.text ++ b!")").length = _
        simp
      obtain ⟨f, rfl⟩ : ∃ g, f = g + 1 := ⟨f - 1, by omega⟩
      have e : (Re.nc a).text ++ rest = 40 :: 63 :: 58 :: (a.text ++ 41 :: rest) := by
        show (b!"(?:" ++ a.text ++ b!")") ++ rest = _
        simp
      have hL := ihL f (41 :: rest) (by omega) (.inr rfl)
      have hnc : (40 :: 63 :: 58 :: (a.text ++ 41 :: rest)).take 3 = b!"(?:" := rfl
      rw [e, readItem, if_neg (by simp), if_neg (by simp), if_pos (show (40 :: _ : Str).head? = some 40 from rfl)]
      dsimp only
      rw [if_pos hnc]
      have hdrop : (40 :: 63 :: 58 :: (a.text ++ 41 :: rest)).drop 3 = a.text ++ 41 :: rest := rfl
      rw [hdrop, hL]
      dsimp only
      rw [if_pos hnc]
      rfl
    have hI := atomItem (.nc a) hA
    obtain ⟨h1, h2⟩ := fromItem (.nc a) hr rfl hI
    exact ⟨fun _ => hA, fun _ => hI, fun _ => h1, h2⟩
  | rep k l a ih =>
    have hok := hr
    simp only [Re.ok, Bool.and_eq_true] at hok
    obtain ⟨ihA, _⟩ := ih hok.1.2
    have hI : ∀ f rest, 3 * (Re.rep k l a).text.length ≤ f → rest.head? ≠ some 42 ∧ rest.head? ≠ some 43 ∧ rest.head? ≠ some 63 →
        readItem f ((Re.rep k l a).text ++ rest) = some (.rep k l a, rest) := by
      intro f rest hf hs
      have e : (Re.rep k l a).text ++ rest = a.text ++ (k.text ++ (if l then b!"?" else []) ++ rest) := by
        show (a.text ++ k.text ++ (if l then b!"?" else [])) ++ rest = _
        simp
      have hlen : (Re.rep k l a).text.length = a.text.length + k.text.length + (if l then b!"?" else []).length := by
        show (a.text ++ k.text ++ (if l then b!"?" else [])).length = _
        rw [List.length_append, List.length_append]
      rw [e, ihA hok.1.1 f _ (by omega), readOp_show a k l hs.2.2]
    obtain ⟨h1, h2⟩ := fromItem (.rep k l a) hr rfl hI
    exact ⟨(fun h => (nomatch h)), fun _ => hI, fun _ => h1, h2⟩
  | cat a b iha ihb =>
    have hok := hr
    simp only [Re.ok, Bool.and_eq_true] at hok
    obtain ⟨⟨⟨hai, hao⟩, hbo⟩, hb⟩ := hok
    obtain ⟨_, ihI, _, _⟩ := iha hao
    obtain ⟨_, _, ihC, _⟩ := ihb hbo
    have hbne : b ≠ .eps := by rintro rfl; cases hb
    have hbna : ∀ x y, b ≠ .alt x y := by rintro x y rfl; cases hb
    have hbhead : ∀ rest, (b.text ++ rest).head? ≠ some 42 ∧ (b.text ++ rest).head? ≠ some 43 ∧ (b.text ++ rest).head? ≠ some 63 := by
      intro rest
      have hx : ∃ c u, b.text = c :: u ∧ c ≠ 42 ∧ c ≠ 43 ∧ c ≠ 63 := by
        by_cases hbi : b.isItem = true
        · obtain ⟨c, u, h1, h2, h3, h4, _⟩ := item_head hbo hbi
          exact ⟨c, u, h1, h2, h3, h4⟩
        · cases b with
          | eps => exact absurd rfl hbne
          | alt x y => exact absurd rfl (hbna x y)
          | cat x y =>
            simp only [Re.ok, Bool.and_eq_true] at hbo
            obtain ⟨c, u, h1, h2, h3, h4, _⟩ := item_head hbo.1.1.2 hbo.1.1.1
            refine ⟨c, u ++ y.text, ?_, h2, h3, h4⟩
            show x.text ++ y.text = _
            rw [h1]; rfl
          | _ => exact absurd rfl hbi
      obtain ⟨c, u, h1, h2, h3, h4⟩ := hx
      rw [h1]
      exact ⟨fun h => h2 (Option.some.inj h), fun h => h3 (Option.some.inj h), fun h => h4 (Option.some.inj h)⟩
    have hC : ∀ f rest, 3 * (Re.cat a b).text.length + 1 ≤ f → endsCat rest → readCat f ((Re.cat a b).text ++ rest) = some (.cat a b, rest) := by
      intro f rest hf he
      have hlen : (Re.cat a b).text.length = a.text.length + b.text.length := by
        show (a.text ++ b.text).length = _
        simp
      have hpos : 1 ≤ a.text.length := by
        obtain ⟨c, u, h1, _⟩ := item_head hao hai
        rw [h1]; simp
      obtain ⟨f, rfl⟩ : ∃ g, f = g + 1 := ⟨f - 1, by omega⟩
      have e : (Re.cat a b).text ++ rest = a.text ++ (b.text ++ rest) := List.append_assoc ..
      rw [e, readCat_item hao hai (ihI hai f _ (by omega) (hbhead rest)) (ihC hbna f rest (by omega) he), if_neg hbne]
    exact ⟨(fun h => (nomatch h)), (fun h => (nomatch h)), fun _ => hC, lift _ hC⟩
  | alt a b iha ihb =>
    have hok := hr
    simp only [Re.ok, Bool.and_eq_true] at hok
    obtain ⟨⟨hao, hbo⟩, ha⟩ := hok
    have hana : ∀ x y, a ≠ .alt x y := by rintro x y rfl; cases ha
    obtain ⟨_, _, ihC, _⟩ := iha hao
    obtain ⟨_, _, _, ihL⟩ := ihb hbo
    refine ⟨(fun h => (nomatch h)), (fun h => (nomatch h)), fun h => absurd rfl (h a b), ?_⟩
    intro f rest hf he
    have hlen : (Re.alt a b).text.length = a.text.length + 1 + b.text.length := by
      show (a.text ++ b!"|" ++ b.text).length = _
      rw [List.length_append, List.length_append]
      rfl
    obtain ⟨f, rfl⟩ : ∃ g, f = g + 1 := ⟨f - 1, by omega⟩
    have e : (Re.alt a b).text ++ rest = a.text ++ (124 :: (b.text ++ rest)) := by
      show (a.text ++ b!"|" ++ b.text) ++ rest = _
      simp
    rw [e, readAlt, ihC hana f _ (by omega) (.inr (.inl rfl))]
    dsimp only
    rw [if_pos (show (124 :: _ : Str).head? = some 124 from rfl), List.tail_cons, ihL f rest (by omega) he]
    rfl

/-- Reading is the inverse of writing. -/
theorem read_iff (e : Str) (r : Re) : Re.read e = some r ↔ r.ok = true ∧ r.text = e := by
  constructor
  · intro h
    unfold Re.read at h
    split at h
    · rename_i r' hr
      split at h
      · rename_i hok
        cases h
        have := (read_sound _).1 _ _ _ hr
        rw [List.append_nil] at this
        exact ⟨hok, this.symm⟩
      · cases h
    · cases h
  · rintro ⟨hok, rfl⟩
    have h := (read_text hok).2.2.2 (3 * r.text.length + 3) [] (by omega) (.inl rfl)
    rw [List.append_nil] at h
    unfold Re.read
    rw [h]
    dsimp only
    rw [if_pos hok]

/-- The package treats every expression of the subset as the model says. -/
theorem goRegex_does {r : Re} (h : r.ok = true) : Does goRegex r := by
  have hr := (read_iff r.text r).2 ⟨h, rfl⟩
  refine ⟨h, ?_, fun s => ?_⟩
  · show (Re.read r.text).isSome = true
    rw [hr]; rfl
  · show (match Re.read r.text with | some r => r.find s | none => []) = _
    rw [hr]

end Water
