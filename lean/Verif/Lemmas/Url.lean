import Verif.Model.Url
import Verif.Spec.Url
import Verif.Lemmas.Util
/-
Lemmas on the parsing of query strings.
-/
namespace Water
open Spec

/-! ### percent decoding -/

theorem ishex_iff : ∀ c : UInt8, ishex c = (hexOf c).isSome := by
  refine all_bytes ?_
  decide +kernel

theorem unhex_hexOf : ∀ c : UInt8, ∀ x, hexOf c = some x → unhex c = UInt8.ofNat x ∧ x < 16 := by
  have h : ∀ c : UInt8, ∀ x : Fin 256, hexOf c = some x.1 → unhex c = UInt8.ofNat x.1 ∧ x.1 < 16 := by
    refine all_bytes (P := fun c => ∀ x : Fin 256, hexOf c = some x.1 → unhex c = UInt8.ofNat x.1 ∧ x.1 < 16) ?_
    intro n x
    have : ∀ n : Fin 256, ∀ y ∈ hexOf (UInt8.ofNat n.1), unhex (UInt8.ofNat n.1) = UInt8.ofNat y ∧ y < 16 := by decide +kernel
    intro hx
    exact this n x.1 hx
  intro c x hx
  have hlt : x < 256 := by
    unfold hexOf at hx
    have := c.toNat_lt
    split at hx
    · cases hx; omega
    · split at hx
      · cases hx; omega
      · split at hx <;> cases hx
        omega
  exact h c ⟨x, hlt⟩ hx

theorem hex_join : ∀ x y : Fin 16, (UInt8.ofNat x.1 <<< 4 ||| UInt8.ofNat y.1) = UInt8.ofNat (16 * x.1 + y.1) := by
  decide +kernel

theorem hex_pair {a b : UInt8} {x y : Nat} (ha : hexOf a = some x) (hb : hexOf b = some y) :
    (unhex a <<< 4 ||| unhex b) = UInt8.ofNat (16 * x + y) := by
  obtain ⟨h1, h2⟩ := unhex_hexOf a x ha
  obtain ⟨h3, h4⟩ := unhex_hexOf b y hb
  rw [h1, h3]
  exact hex_join ⟨x, h2⟩ ⟨y, h4⟩

theorem unescape_of_encodes {t s : Str} (h : Encodes t s) : escapesOk s = true ∧ decodeQuery s = t := by
  induction h with
  | nil => exact ⟨rfl, rfl⟩
  | plain h1 h2 _ ih =>
    rw [escapesOk.eq_def, decodeQuery.eq_def]
    simp only [if_neg h1, if_neg h2, ih, and_self]
  | plus _ ih =>
    rw [escapesOk.eq_def, decodeQuery.eq_def]
    simp [ih]
  | hex ha hb _ ih =>
    rw [escapesOk, decodeQuery, if_pos rfl, if_pos rfl]
    simp [ishex_iff, ha, hb, ih, hex_pair ha hb]

theorem encodes_of_ok : ∀ (n : Nat) (s : Str), s.length ≤ n → escapesOk s = true → Encodes (decodeQuery s) s := by
  intro n
  induction n with
  | zero =>
    intro s hs _
    rw [List.length_eq_zero_iff.1 (Nat.le_zero.1 hs)]
    exact .nil
  | succ n ih =>
    intro s hs h
    cases s with
    | nil => exact .nil
    | cons c s =>
      by_cases hc : c = 37
      · subst hc
        match s, hs, h with
        | [], _, h => simp [escapesOk] at h
        | [_], _, h => simp [escapesOk] at h
        | a :: b :: s, hs, h =>
          rw [escapesOk, if_pos rfl] at h
          simp only [Bool.and_eq_true, ishex_iff] at h
          obtain ⟨⟨ha, hb⟩, h⟩ := h
          obtain ⟨x, hx⟩ := Option.isSome_iff_exists.1 ha
          obtain ⟨y, hy⟩ := Option.isSome_iff_exists.1 hb
          rw [decodeQuery, if_pos rfl]
          simp only [hex_pair hx hy]
          exact .hex hx hy (ih s (by simp at hs; omega) h)
      · have he : escapesOk s = true := by
          rw [escapesOk.eq_def] at h
          simpa only [if_neg hc] using h
        have hd : decodeQuery (c :: s) = (if c = 43 then 32 else c) :: decodeQuery s := by
          rw [decodeQuery.eq_def]
          simp only [if_neg hc]
        rw [hd]
        have := ih s (by simp at hs; omega) he
        split
        · rename_i h43; subst h43; exact .plus this
        · rename_i h43; exact .plain hc h43 this

theorem queryUnescape_iff {s t : Str} : queryUnescape s = some t ↔ Encodes t s := by
  unfold queryUnescape
  constructor
  · intro h
    split at h
    · rename_i hok
      cases h
      exact encodes_of_ok _ s (Nat.le_refl _) hok
    · cases h
  · intro h
    obtain ⟨h1, h2⟩ := unescape_of_encodes h
    rw [if_pos h1, h2]

theorem queryUnescape_none {s : Str} (h : queryUnescape s = none) (t : Str) : ¬ Encodes t s := by
  intro ht
  rw [queryUnescape_iff.2 ht] at h
  cases h

theorem encodes_unique {s t t' : Str} (h : Encodes t s) (h' : Encodes t' s) : t = t' := by
  have h1 := queryUnescape_iff.2 h
  rw [queryUnescape_iff.2 h'] at h1
  exact (Option.some.inj h1).symm

/-- the encoding of one byte -/
def queryByte (c : UInt8) : Str :=
  if c = 32 then [43] else if keptByQuery c then [c] else [37, upperHex (c.toNat / 16), upperHex (c.toNat % 16)]

theorem queryByte_safe : ∀ c : UInt8, ∀ x ∈ queryByte c, x ≠ 38 ∧ x ≠ 59 ∧ x ≠ 61 ∧ 33 ≤ x ∧ x ≤ 126 := by
  refine all_bytes (P := fun c => ∀ x ∈ queryByte c, x ≠ 38 ∧ x ≠ 59 ∧ x ≠ 61 ∧ 33 ≤ x ∧ x ≤ 126) ?_
  decide +kernel

theorem queryEscape_safe {s : Str} {x : UInt8} (hx : x ∈ queryEscape s) : x ≠ 38 ∧ x ≠ 59 ∧ x ≠ 61 ∧ 33 ≤ x ∧ x ≤ 126 := by
  obtain ⟨c, _, hc⟩ := List.mem_flatMap.1 hx
  exact queryByte_safe c x hc

theorem kept_plain : ∀ c : UInt8, keptByQuery c = true → c ≠ 37 ∧ c ≠ 43 := by
  refine all_bytes ?_
  decide +kernel

theorem queryEscape_encodes (s : Str) : Encodes s (queryEscape s) := by
  induction s with
  | nil => exact .nil
  | cons c s ih =>
    show Encodes (c :: s) (queryByte c ++ queryEscape s)
    unfold queryByte
    split
    · rename_i h; subst h; exact .plus ih
    · split
      · rename_i h
        exact .plain (kept_plain c h).1 (kept_plain c h).2 ih
      · obtain ⟨h1, h2⟩ := upperHex_hexOf c
        have h3 : UInt8.ofNat (16 * (c.toNat / 16) + c.toNat % 16) = c := by
          rw [Nat.div_add_mod]; simp
        have := Encodes.hex h1 h2 ih
        rw [h3] at this
        exact this

/-! ### pieces -/

theorem cuts_noSep {s : Str} (h : NoSep s) : cuts s = [s] := by
  induction s with
  | nil => rfl
  | cons c s ih =>
    obtain ⟨h1, h2⟩ := h
    simp only [List.mem_cons, not_or] at h1 h2
    rw [cuts, if_neg (by rintro (h | h) <;> simp [h] at h1 h2), ih ⟨h1.2, h2.2⟩]

theorem cuts_append {s q : Str} {c : UInt8} (h : NoSep s) (hc : c = 38 ∨ c = 59) : cuts (s ++ c :: q) = s :: cuts q := by
  induction s with
  | nil => rw [List.nil_append, cuts, if_pos hc]
  | cons d s ih =>
    obtain ⟨h1, h2⟩ := h
    simp only [List.mem_cons, not_or] at h1 h2
    rw [List.cons_append, cuts, if_neg (by rintro (h | h) <;> simp [h] at h1 h2), ih ⟨h1.2, h2.2⟩]

theorem sep_cases (q : Str) : NoSep q ∨ ∃ s c r, q = s ++ c :: r ∧ NoSep s ∧ (c = 38 ∨ c = 59) := by
  induction q with
  | nil => exact .inl ⟨by simp, by simp⟩
  | cons d q ih =>
    by_cases hd : d = 38 ∨ d = 59
    · exact .inr ⟨[], d, q, rfl, ⟨by simp, by simp⟩, hd⟩
    · have h1 : d ≠ 38 := fun h => hd (.inl h)
      have h2 : d ≠ 59 := fun h => hd (.inr h)
      rcases ih with ih | ⟨s, c, r, hq, hs, hc⟩
      · exact .inl ⟨by simp [h1.symm, ih.1], by simp [h2.symm, ih.2]⟩
      · exact .inr ⟨d :: s, c, r, by rw [hq]; rfl, ⟨by simp [h1.symm, hs.1], by simp [h2.symm, hs.2]⟩, hc⟩

theorem noSep_of_piece {s : Str} {ps : List (Str × Str)} (h : Piece s ps) : NoSep s := by
  cases h with
  | empty => exact ⟨by simp, by simp⟩
  | name _ h _ _ => exact h
  | pair _ _ h1 h2 _ => exact ⟨by simp [h1.1, h2.1], by simp [h1.2, h2.2]⟩

/-- the pairs added one by one -/
def addAll (f : Form) (ps : List (Str × Str)) : Form := ps.foldl (fun f p => f.append p.1 [p.2]) f

theorem readPiece_piece {s : Str} {ps : List (Str × Str)} (h : Piece s ps) (f : Form) (e : Bool) :
    readPiece (f, e) s = (addAll f ps, e) := by
  cases h with
  | empty => rfl
  | name hk _ h61 hne =>
    unfold readPiece
    rw [if_neg hne, indexByte_none.2 h61]
    simp only [queryUnescape_iff.2 hk, queryUnescape_iff.2 Encodes.nil]
    rfl
  | @pair k v s t hk hv _ _ h61 =>
    unfold readPiece
    rw [if_neg (by simp), indexByte_append h61]
    have e1 : (s ++ 61 :: t).take s.length = s := by simp
    have e2 : (s ++ 61 :: t).drop (s.length + 1) = t := by simp
    simp only [e1, e2, queryUnescape_iff.2 hk, queryUnescape_iff.2 hv]
    rfl

theorem readPiece_bad {s : Str} (hn : NoSep s) (h : ∀ ps, ¬ Piece s ps) (f : Form) (e : Bool) :
    readPiece (f, e) s = (f, true) := by
  unfold readPiece
  have hne : s ≠ [] := by rintro rfl; exact h _ .empty
  rw [if_neg hne]
  cases hi : indexByte s 61 with
  | none =>
    simp only
    cases hu : queryUnescape s with
    | none => rfl
    | some k => exact absurd (Piece.name (queryUnescape_iff.1 hu) hn (indexByte_none.1 hi) hne) (h _)
  | some i =>
    simp only
    obtain ⟨_, hs, h61⟩ := indexByte_some hi
    cases hu : queryUnescape (s.take i) with
    | none => rfl
    | some k =>
      simp only
      cases hv : queryUnescape (s.drop (i + 1)) with
      | none => rfl
      | some v =>
        have hn1 : NoSep (s.take i) := ⟨fun hm => hn.1 (List.mem_of_mem_take hm), fun hm => hn.2 (List.mem_of_mem_take hm)⟩
        have hn2 : NoSep (s.drop (i + 1)) := ⟨fun hm => hn.1 (List.mem_of_mem_drop hm), fun hm => hn.2 (List.mem_of_mem_drop hm)⟩
        have := Piece.pair (queryUnescape_iff.1 hu) (queryUnescape_iff.1 hv) hn1 hn2 h61
        rw [← hs] at this
        exact absurd this (h _)

theorem readPiece_mono (acc : Form × Bool) (s : Str) (h : acc.2 = true) : (readPiece acc s).2 = true := by
  unfold readPiece
  split
  · exact h
  · dsimp only
    split
    · rfl
    · split
      · rfl
      · exact h

theorem foldl_mono (l : List Str) (acc : Form × Bool) (h : acc.2 = true) : (l.foldl readPiece acc).2 = true := by
  induction l generalizing acc with
  | nil => exact h
  | cons s l ih => exact ih _ (readPiece_mono acc s h)

theorem foldl_query {q : Str} {ps : List (Str × Str)} (h : Query q ps) (f : Form) (e : Bool) :
    (cuts q).foldl readPiece (f, e) = (addAll f ps, e) := by
  induction h generalizing f e with
  | one hp =>
    rw [cuts_noSep (noSep_of_piece hp), List.foldl_cons, List.foldl_nil, readPiece_piece hp]
  | more hp hc _ ih =>
    rw [cuts_append (noSep_of_piece hp) hc, List.foldl_cons, readPiece_piece hp, ih]
    simp [addAll]

theorem foldl_lenient {q : Str} {ps : List (Str × Str)} (h : Lenient q ps) (f : Form) (e : Bool) :
    ((cuts q).foldl readPiece (f, e)).1 = addAll f ps := by
  have one : ∀ {s : Str} {ps : List (Str × Str)}, (Piece s ps ∨ (NoSep s ∧ ps = [] ∧ ∀ qs, ¬ Piece s qs)) → NoSep s ∧
      ∀ f e, ∃ e', readPiece (f, e) s = (addAll f ps, e') := by
    rintro s ps (hp | ⟨hn, rfl, hb⟩)
    · exact ⟨noSep_of_piece hp, fun f e => ⟨e, readPiece_piece hp f e⟩⟩
    · exact ⟨hn, fun f e => ⟨true, readPiece_bad hn hb f e⟩⟩
  induction h generalizing f e with
  | one hp =>
    obtain ⟨hn, hr⟩ := one hp
    obtain ⟨e', he⟩ := hr f e
    rw [cuts_noSep hn, List.foldl_cons, List.foldl_nil, he]
  | more hp hc _ ih =>
    obtain ⟨hn, hr⟩ := one hp
    obtain ⟨e', he⟩ := hr f e
    rw [cuts_append hn hc, List.foldl_cons, he, ih]
    simp [addAll]

theorem lenient_exists (n : Nat) : ∀ q : Str, q.length ≤ n → ∃ ps, Lenient q ps := by
  have one : ∀ s : Str, NoSep s → ∃ ps, Piece s ps ∨ (NoSep s ∧ ps = [] ∧ ∀ qs, ¬ Piece s qs) := by
    intro s hn
    by_cases h : ∃ ps, Piece s ps
    · exact ⟨h.choose, .inl h.choose_spec⟩
    · exact ⟨[], .inr ⟨hn, rfl, fun qs hq => h ⟨qs, hq⟩⟩⟩
  induction n with
  | zero =>
    intro q hq
    rw [List.length_eq_zero_iff.1 (Nat.le_zero.1 hq)]
    exact ⟨[], .one (.inl .empty)⟩
  | succ n ih =>
    intro q hq
    rcases sep_cases q with hn | ⟨s, c, r, rfl, hn, hc⟩
    · obtain ⟨ps, h⟩ := one q hn
      exact ⟨ps, .one h⟩
    · obtain ⟨ps, h⟩ := one s hn
      obtain ⟨qs, h'⟩ := ih r (by simp at hq; omega)
      exact ⟨ps ++ qs, .more h hc h'⟩

/-- A string without an error stands for something. -/
theorem query_of_ok (n : Nat) : ∀ (q : Str), q.length ≤ n → ∀ f e, ((cuts q).foldl readPiece (f, e)).2 = false →
    ∃ ps, Query q ps := by
  have one : ∀ s : Str, NoSep s → ∀ f e, (readPiece (f, e) s).2 = false → ∃ ps, Piece s ps := by
    intro s hn f e h
    by_cases hp : ∃ ps, Piece s ps
    · exact hp
    · rw [readPiece_bad hn (fun ps h => hp ⟨ps, h⟩)] at h
      cases h
  induction n with
  | zero =>
    intro q hq _ _ _
    rw [List.length_eq_zero_iff.1 (Nat.le_zero.1 hq)]
    exact ⟨[], .one .empty⟩
  | succ n ih =>
    intro q hq f e h
    rcases sep_cases q with hn | ⟨s, c, r, rfl, hn, hc⟩
    · rw [cuts_noSep hn, List.foldl_cons, List.foldl_nil] at h
      obtain ⟨ps, h⟩ := one q hn f e h
      exact ⟨ps, .one h⟩
    · rw [cuts_append hn hc, List.foldl_cons] at h
      have h1 : (readPiece (f, e) s).2 = false := by
        by_cases h1 : (readPiece (f, e) s).2 = true
        · rw [foldl_mono _ _ h1] at h; cases h
        · simpa using h1
      obtain ⟨ps, h2⟩ := one s hn f e h1
      obtain ⟨qs, h3⟩ := ih r (by simp at hq; omega) _ _ h
      exact ⟨ps ++ qs, .more h2 hc h3⟩

/-! ### values of a form -/

theorem append_keys {f : Form} {k : Str} {vs : List Str} {x : Str} :
    x ∈ (f.append k vs).map Prod.fst ↔ x ∈ f.map Prod.fst ∨ x = k := by
  induction f with
  | nil => simp [Form.append]
  | cons e f ih =>
    obtain ⟨k', vs'⟩ := e
    unfold Form.append
    split
    · rename_i h; subst h
      simp only [List.map_cons, List.mem_cons]
      constructor
      · intro h; exact .inl h
      · rintro (h | h)
        · exact h
        · exact .inl h
    · simp only [List.map_cons, List.mem_cons, ih, or_assoc]

theorem append_nodup {f : Form} (h : (f.map Prod.fst).Nodup) (k : Str) (vs : List Str) :
    ((f.append k vs).map Prod.fst).Nodup := by
  induction f with
  | nil => simp [Form.append]
  | cons e f ih =>
    obtain ⟨k', vs'⟩ := e
    simp only [List.map_cons, List.nodup_cons] at h
    unfold Form.append
    split
    · simpa using h
    · rename_i hk
      simp only [List.map_cons, List.nodup_cons]
      refine ⟨?_, ih h.2⟩
      rw [append_keys]
      rintro (h' | h')
      · exact h.1 h'
      · exact hk h'

theorem values_cons (k' : Str) (vs' : List Str) (f : Form) (k : Str) :
    values ((k', vs') :: f) k = (if k' = k then vs' else []) ++ values f k := by
  unfold values
  by_cases h : k' = k <;> simp [List.filter_cons, h]

theorem values_nil_of_not_mem {f : Form} {k : Str} (h : k ∉ f.map Prod.fst) : values f k = [] := by
  induction f with
  | nil => rfl
  | cons e f ih =>
    obtain ⟨k', vs'⟩ := e
    simp only [List.map_cons, List.mem_cons, not_or] at h
    rw [values_cons, if_neg (fun hh => h.1 hh.symm), ih h.2]
    rfl

theorem values_append {f : Form} (h : (f.map Prod.fst).Nodup) (k : Str) (vs : List Str) (x : Str) :
    values (f.append k vs) x = values f x ++ (if k = x then vs else []) := by
  induction f with
  | nil => rw [Form.append, values_cons]; simp [values]
  | cons e f ih =>
    obtain ⟨k', vs'⟩ := e
    simp only [List.map_cons, List.nodup_cons] at h
    unfold Form.append
    split
    · rename_i hk; subst hk
      rw [values_cons, values_cons]
      by_cases hx : k' = x
      · subst hx
        simp [values_nil_of_not_mem h.1]
      · simp [hx]
    · rw [values_cons, values_cons, ih h.2, List.append_assoc]

theorem addAll_nodup {f : Form} (h : (f.map Prod.fst).Nodup) (ps : List (Str × Str)) : ((addAll f ps).map Prod.fst).Nodup := by
  induction ps generalizing f with
  | nil => exact h
  | cons p ps ih => exact ih (append_nodup h _ _)

theorem values_addAll {f : Form} (h : (f.map Prod.fst).Nodup) (ps : List (Str × Str)) (x : Str) :
    values (addAll f ps) x = values f x ++ valuesIn ps x := by
  induction ps generalizing f with
  | nil => simp [addAll, valuesIn]
  | cons p ps ih =>
    have := ih (append_nodup h p.1 [p.2])
    rw [values_append h] at this
    show values (addAll (f.append p.1 [p.2]) ps) x = _
    rw [this, List.append_assoc]
    unfold valuesIn
    by_cases hx : p.1 = x <;> simp [List.filter_cons, hx]

theorem copyValues_nodup {f : Form} (h : (f.map Prod.fst).Nodup) (g : Form) : ((copyValues f g).map Prod.fst).Nodup := by
  induction g generalizing f with
  | nil => exact h
  | cons p ps ih => exact ih (append_nodup h _ _)

theorem values_copyValues {f : Form} (h : (f.map Prod.fst).Nodup) (g : Form) (x : Str) :
    values (copyValues f g) x = values f x ++ values g x := by
  induction g generalizing f with
  | nil => simp [copyValues, values]
  | cons p g ih =>
    have := ih (append_nodup h p.1 p.2)
    rw [values_append h] at this
    show values (copyValues (f.append p.1 p.2) g) x = _
    rw [this, List.append_assoc, values_cons p.1 p.2 g x]

/-! ### `url.ParseQuery` -/

theorem parseQuery_ok {q : Str} {ps : List (Str × Str)} (h : Query q ps) : parseQuery q = (addAll [] ps, false) :=
  foldl_query h [] false

theorem parseQuery_lenient {q : Str} {ps : List (Str × Str)} (h : Lenient q ps) : (parseQuery q).1 = addAll [] ps :=
  foldl_lenient h [] false

theorem parseQuery_fails (q : Str) : (parseQuery q).2 = true ↔ ∀ ps, ¬ Query q ps := by
  constructor
  · intro h ps hq
    rw [parseQuery_ok hq] at h
    cases h
  · intro h
    by_cases hf : (parseQuery q).2 = true
    · exact hf
    · obtain ⟨ps, hq⟩ := query_of_ok _ q (Nat.le_refl _) [] false (by simpa [parseQuery] using hf)
      exact absurd hq (h ps)

theorem parseQuery_nodup (q : Str) : ((parseQuery q).1.map Prod.fst).Nodup := by
  obtain ⟨ps, h⟩ := lenient_exists _ q (Nat.le_refl _)
  rw [parseQuery_lenient h]
  exact addAll_nodup (by simp) ps

theorem parseQuery_values {q : Str} {ps : List (Str × Str)} (h : Lenient q ps) (k : Str) :
    values (parseQuery q).1 k = valuesIn ps k := by
  rw [parseQuery_lenient h, values_addAll (by simp)]
  rfl

theorem query_lenient {q : Str} {ps : List (Str × Str)} (h : Query q ps) : Lenient q ps := by
  induction h with
  | one h => exact .one (.inl h)
  | more h hc _ ih => exact .more (.inl h) hc ih

end Water
