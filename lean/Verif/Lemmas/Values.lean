import Verif.Lemmas.Literal
import Verif.Lemmas.Strconv
import Verif.Spec.Values
/- White space and form lemmas. -/
namespace Water
open Spec

theorem spaceEnc_eq : spaceEnc = spaces := by decide +kernel

theorem stripF_blanks (f : Nat) (s : Str) : ∃ pre, Blanks pre ∧ s = pre ++ stripF spaceEnc f s := by
  induction f generalizing s with
  | zero => exact ⟨[], .nil, rfl⟩
  | succ n ih =>
    unfold stripF
    cases hf : spaceEnc.find? (fun e => e.isPrefixOf s) with
    | none => exact ⟨[], .nil, rfl⟩
    | some e =>
      obtain ⟨pre, h1, h2⟩ := ih (s.drop e.length)
      have hp : e.isPrefixOf s = true := List.find?_some (p := fun e : Str => e.isPrefixOf s) hf
      have hm := List.mem_of_find?_eq_some hf
      rw [List.isPrefixOf_iff_prefix] at hp
      obtain ⟨t, ht⟩ := hp
      refine ⟨e ++ pre, .cons (spaceEnc_eq ▸ hm) h1, ?_⟩
      simp only
      rw [List.append_assoc, ← h2, ← ht]; simp

theorem blanks_snoc {s e : Str} (h : Blanks s) (he : e ∈ spaceEnc) : Blanks (s ++ e) := by
  induction h with
  | nil => have := Blanks.cons (spaceEnc_eq ▸ he) .nil; simpa using this
  | cons h1 _ ih => rw [List.append_assoc]; exact .cons h1 ih

theorem stripF_blanks_rev (f : Nat) (s : Str) :
    ∃ post, Blanks post ∧ s = (stripF (spaceEnc.map List.reverse) f s.reverse).reverse ++ post := by
  induction f generalizing s with
  | zero => exact ⟨[], .nil, by simp [stripF]⟩
  | succ n ih =>
    unfold stripF
    cases hf : (spaceEnc.map List.reverse).find? (fun e => e.isPrefixOf s.reverse) with
    | none => exact ⟨[], .nil, by simp⟩
    | some e =>
      have hp : e.isPrefixOf s.reverse = true := List.find?_some (p := fun e : Str => e.isPrefixOf s.reverse) hf
      have hm := List.mem_of_find?_eq_some hf
      obtain ⟨e', he', rfl⟩ := List.mem_map.1 hm
      rw [List.isPrefixOf_iff_prefix] at hp
      obtain ⟨t, ht⟩ := hp
      have hs : s = t.reverse ++ e' := by rw [← List.reverse_reverse s, ← ht]; simp
      obtain ⟨post, h1, h2⟩ := ih t.reverse
      refine ⟨post ++ e', blanks_snoc h1 he', ?_⟩
      simp only
      rw [← ht, List.drop_left, ← List.append_assoc]
      rw [List.reverse_reverse] at h2
      rw [← h2, hs]

theorem trimSpace_trimmed (s : Str) : Trimmed s (trimSpace s) := by
  obtain ⟨a, ha, h1⟩ := stripF_blanks s.length s
  obtain ⟨b, hb, h2⟩ := stripF_blanks_rev (trimLeft s).length (trimLeft s)
  refine ⟨a, b, ha, hb, ?_, ?_⟩
  · rw [List.append_assoc]
    have : trimSpace s ++ b = trimLeft s := h2.symm
    rw [this]; exact h1
  · intro e he
    rw [← spaceEnc_eq] at he
    constructor
    · intro hp
      exact trimLeft_noEnc s e he (hp.trans (trimRight_prefix _))
    · intro hp
      have h := stripF_noEnc spaceEncRev_ne (trimLeft s).length (trimLeft s).reverse (by simp)
      refine h e.reverse (List.mem_map_of_mem he) ?_
      have : stripF (spaceEnc.map List.reverse) (trimLeft s).length (trimLeft s).reverse = (trimSpace s).reverse := by
        simp [trimSpace, trimRight]
      rw [this]
      exact List.reverse_prefix.2 hp

theorem strip_all {encs : List Str} (hne : ∀ e ∈ encs, e ≠ []) (hp : ∀ e ∈ encs, ∀ e' ∈ encs, e <+: e' → e = e')
    {x : Str} (hx : ∀ e ∈ encs, ¬ e <+: x) :
    ∀ (l : List Str) (n : Nat), (∀ e ∈ l, e ∈ encs) → l.flatten.length ≤ n → stripF encs n (l.flatten ++ x) = x := by
  have hnone : ∀ n, stripF encs n x = x := by
    intro n
    cases n with
    | zero => rfl
    | succ n =>
      unfold stripF
      rw [List.find?_eq_none.2 (fun e he => by rw [List.isPrefixOf_iff_prefix]; exact hx e he)]
  intro l
  induction l with
  | nil => intro n _ _; exact hnone n
  | cons e l ih =>
    intro n hl hn
    have he := hl e (by simp)
    have hpos : 0 < e.length := List.length_pos_iff.2 (hne e he)
    rw [List.flatten_cons, List.length_append] at hn
    cases n with
    | zero => omega
    | succ n =>
      rw [List.flatten_cons, List.append_assoc]
      have hpre : e <+: e ++ (l.flatten ++ x) := List.prefix_append _ _
      unfold stripF
      cases hf : encs.find? (fun e' => e'.isPrefixOf (e ++ (l.flatten ++ x))) with
      | none =>
        have := List.find?_eq_none.1 hf e he
        rw [List.isPrefixOf_iff_prefix] at this
        exact absurd hpre this
      | some e' =>
        have h1 := List.mem_of_find?_eq_some hf
        have h2 := List.find?_some hf
        rw [List.isPrefixOf_iff_prefix] at h2
        have : e' = e := by
          rcases List.prefix_or_prefix_of_prefix h2 hpre with h | h
          · exact hp _ h1 _ he h
          · exact (hp _ he _ h1 h).symm
        subst this
        simp only [List.drop_left]
        exact ih n (fun e he => hl e (by simp [he])) (by omega)

theorem blanks_list {s : Str} (h : Blanks s) : ∃ l : List Str, (∀ e ∈ l, e ∈ spaces) ∧ s = l.flatten := by
  induction h with
  | nil => exact ⟨[], by simp, rfl⟩
  | @cons e s he _ ih =>
    obtain ⟨l, h1, rfl⟩ := ih
    refine ⟨e :: l, ?_, rfl⟩
    intro x hx
    rcases List.mem_cons.1 hx with rfl | hx
    · exact he
    · exact h1 x hx

/-- There is only one text left when white space is taken away. -/
theorem trimmed_unique {s t : Str} (h : Trimmed s t) : t = trimSpace s := by
  obtain ⟨a, b, ha, hb, rfl, ht⟩ := h
  obtain ⟨la, hla, rfl⟩ := blanks_list ha
  obtain ⟨lb, hlb, rfl⟩ := blanks_list hb
  have pre : ∀ e ∈ spaces, ∀ e' ∈ spaces, e <+: e' → e = e' := by decide +kernel
  have suf : ∀ e ∈ spaces.map List.reverse, ∀ e' ∈ spaces.map List.reverse, e <+: e' → e = e' := by decide +kernel
  have ne : ∀ e ∈ spaces, e ≠ [] := by decide +kernel
  have ner : ∀ e ∈ spaces.map List.reverse, e ≠ [] := by decide +kernel
  have nil : ∀ e ∈ spaces, ¬ e <+: ([] : Str) := fun e he h => ne e he (List.prefix_nil.1 h)
  unfold trimSpace trimRight trimLeft
  rw [spaceEnc_eq]
  by_cases h0 : t = []
  · subst h0
    rw [List.append_nil, ← List.flatten_append, ← List.append_nil (la ++ lb).flatten]
    rw [strip_all ne pre nil (la ++ lb) _ (by
      intro e he
      rcases List.mem_append.1 he with he | he
      · exact hla e he
      · exact hlb e he) (by simp)]
    rfl
  · have hx : ∀ e ∈ spaces, ¬ e <+: t ++ lb.flatten := by
      intro e he hp
      rcases List.prefix_or_prefix_of_prefix hp (List.prefix_append t lb.flatten) with h | h
      · exact (ht e he).1 h
      · obtain ⟨q, rfl⟩ := h
        have hq : q <+: lb.flatten := by
          obtain ⟨r, hr⟩ := hp
          rw [List.append_assoc] at hr
          exact ⟨r, List.append_cancel_left hr⟩
        cases q with
        | nil => exact (ht _ he).1 (by simp)
        | cons c q =>
          cases lb with
          | nil => simp at hq
          | cons e' lb =>
            have h2 : ∀ e ∈ spaces, ∀ c ∈ e.tail, ∀ e' ∈ spaces, e'.head? ≠ some c := by decide +kernel
            refine h2 _ he c ?_ e' (hlb e' (by simp)) ?_
            · cases t with
              | nil => exact absurd rfl h0
              | cons x t => simp
            · have hne := ne e' (hlb e' (by simp))
              cases e' with
              | nil => exact absurd rfl hne
              | cons y e' =>
                obtain ⟨r, hr⟩ := hq
                rw [List.flatten_cons, List.cons_append, List.cons_append] at hr
                injection hr with hr
                rw [hr]; rfl
    rw [List.append_assoc, strip_all ne pre hx la _ hla (by simp)]
    have hrev : (t ++ lb.flatten).reverse = (lb.reverse.map List.reverse).flatten ++ t.reverse := by
      rw [List.reverse_append, List.reverse_flatten, List.map_reverse]
    rw [hrev, strip_all ner suf (x := t.reverse) ?_ _ _ ?_ ?_]
    · simp
    · intro e he hp
      obtain ⟨e', he', rfl⟩ := List.mem_map.1 he
      exact (ht e' he').2 (List.reverse_prefix.1 hp)
    · intro e he
      obtain ⟨e', he', rfl⟩ := List.mem_map.1 he
      exact List.mem_map_of_mem (hlb e' (List.mem_reverse.1 he'))
    · rw [← List.length_reverse (as := t ++ lb.flatten), hrev]; simp

/-- a string without white space bytes at its ends is left alone -/
theorem trimSpace_ends {s : Str} (h1 : ∀ c, s.head? = some c → NonSpace c) (h2 : ∀ c, s.getLast? = some c → NonSpace c) :
    trimSpace s = s := by
  have hl : trimLeft s = s := by
    cases s with
    | nil => rfl
    | cons c cs => exact trimLeft_head (h1 c rfl) rfl
  unfold trimSpace
  rw [hl]
  unfold trimRight
  have : NoEnc (spaceEnc.map List.reverse) s.reverse := by
    intro e he hp
    obtain ⟨e', he', rfl⟩ := List.mem_map.1 he
    rw [List.reverse_prefix] at hp
    obtain ⟨t, ht⟩ := hp
    cases hl : e'.getLast? with
    | none => rw [List.getLast?_eq_none_iff] at hl; exact spaceEnc_ne e' he' hl
    | some c =>
      have : s.getLast? = some c := by rw [← ht, List.getLast?_append, hl]; rfl
      exact h2 c this e' he' (List.mem_of_getLast? hl)
  rw [stripF_of_noEnc this, List.reverse_reverse]

theorem digit_nonSpace {c : UInt8} (h : IsDigit c) : NonSpace c := by
  obtain ⟨h1, h2⟩ := digit_bounds h
  have : ∀ n : Fin 256, 48 ≤ n.1 → n.1 ≤ 57 → NonSpace (UInt8.ofNat n.1) := by unfold NonSpace; decide +kernel
  have h3 := this ⟨c.toNat, c.toNat_lt⟩ h1 h2
  simpa using h3

theorem signed_trim {s : Str} {v : Int} (h : Signed s v) : trimSpace s = s := by
  have hd : ∀ t : Str, Numeral t → (∀ c, t.head? = some c → NonSpace c) ∧ (∀ c, t.getLast? = some c → NonSpace c) :=
    fun t ht => ⟨fun c hc => digit_nonSpace (ht.2 c (List.mem_of_head? hc)), fun c hc => digit_nonSpace (ht.2 c (List.mem_of_getLast? hc))⟩
  have hsign : ∀ (x : UInt8) (t : Str), NonSpace x → Numeral t → trimSpace (x :: t) = x :: t := by
    intro x t hx ht
    refine trimSpace_ends (by rintro c hc; simp at hc; subst hc; exact hx) ?_
    intro c hc
    rw [List.getLast?_cons] at hc
    cases hl : t.getLast? with
    | none => rw [List.getLast?_eq_none_iff] at hl; exact absurd hl ht.1
    | some d => rw [hl] at hc; simp at hc; subst hc; exact (hd t ht).2 _ hl
  cases h with
  | plain h => exact trimSpace_ends (hd s h).1 (hd s h).2
  | plus h => exact hsign _ _ (by unfold NonSpace; decide) h
  | minus h => exact hsign _ _ (by unfold NonSpace; decide) h

/-! ### Forms -/

theorem form_at_values {f : Form} (hd : (f.map Prod.fst).Nodup) (k : Str) : (f.at k).getD [] = values f k := by
  induction f with
  | nil => rfl
  | cons e f ih =>
    rw [List.map_cons, List.nodup_cons] at hd
    unfold Form.at values
    rw [List.find?_cons, List.filter_cons]
    cases hk : e.1 == k with
    | true =>
      simp only [if_true, Option.map_some, Option.getD_some, List.flatMap_cons]
      have : f.filter (fun e => e.1 == k) = [] := by
        rw [List.filter_eq_nil_iff]
        intro x hx hxk
        rw [beq_iff_eq] at hk hxk
        exact hd.1 (by rw [hk, ← hxk]; exact List.mem_map_of_mem hx)
      rw [this]; simp
    | false =>
      simp only [Bool.false_eq_true, if_false]
      exact ih hd.2

theorem indexByte_iff {s : Str} {c : UInt8} {i : Nat} :
    indexByte s c = some i ↔ ∃ a b, s = a ++ c :: b ∧ c ∉ a ∧ a.length = i := by
  unfold indexByte
  rw [List.findIdx?_eq_some_iff_getElem]
  constructor
  · rintro ⟨h1, h2, h3⟩
    rw [beq_iff_eq] at h2
    refine ⟨s.take i, s.drop (i + 1), ?_, ?_, ?_⟩
    · rw [← h2, List.getElem_cons_drop, List.take_append_drop]
    · intro hc
      obtain ⟨j, hj, he⟩ := List.mem_iff_getElem.1 hc
      rw [List.length_take] at hj
      rw [List.getElem_take] at he
      have := h3 j (by omega)
      rw [he] at this; simp at this
    · rw [List.length_take]; omega
  · rintro ⟨a, b, rfl, h2, rfl⟩
    refine ⟨by simp, by simp, ?_⟩
    intro j hj
    rw [List.getElem_append_left hj]
    intro hc
    rw [beq_iff_eq] at hc
    exact h2 (hc ▸ List.getElem_mem hj)

theorem mapKey_iff {name k key : Str} : mapKey name k = some key ↔ Files name key k := by
  unfold mapKey Files
  constructor
  · intro h
    split at h
    · cases h
    · rename_i i hi
      obtain ⟨a, b, rfl, h2, rfl⟩ := indexByte_iff.1 hi
      split at h
      · rename_i h1
        rw [List.take_left] at h1
        obtain ⟨h1, rfl⟩ := h1
        have hdrop : (a ++ lbrack :: b).drop (a.length + 1) = b := by
          rw [show a ++ lbrack :: b = (a ++ [lbrack]) ++ b by simp]
          rw [show a.length + 1 = (a ++ [lbrack]).length by simp, List.drop_left]
        simp only [hdrop] at h
        split at h
        · cases h
        · rename_i j hj
          obtain ⟨x, y, rfl, h4, rfl⟩ := indexByte_iff.1 hj
          split at h
          · rename_i h5
            rw [List.take_left] at h
            injection h with h; subst h
            refine ⟨y, by simp, ?_, ?_, h2, h4⟩
            · rintro rfl; simp at h1
            · rintro rfl; simp at h5
          · cases h
      · cases h
  · rintro ⟨rest, rfl, h1, h2, h3, h4⟩
    have hi : indexByte (name ++ lbrack :: key ++ rbrack :: rest) lbrack = some name.length :=
      indexByte_iff.2 ⟨name, key ++ rbrack :: rest, by simp, h3, rfl⟩
    have hdrop : (name ++ lbrack :: key ++ rbrack :: rest).drop (name.length + 1) = key ++ rbrack :: rest := by
      rw [show name ++ lbrack :: key ++ rbrack :: rest = (name ++ [lbrack]) ++ (key ++ rbrack :: rest) by simp]
      rw [show name.length + 1 = (name ++ [lbrack]).length by simp, List.drop_left]
    have htake : (name ++ lbrack :: key ++ rbrack :: rest).take name.length = name := by
      rw [List.append_assoc, List.take_left]
    have hj : indexByte (key ++ rbrack :: rest) rbrack = some key.length := indexByte_iff.2 ⟨key, rest, rfl, h4, rfl⟩
    rw [hi]
    simp only [htake, hdrop, hj, and_true]
    rw [if_pos (by have := List.length_pos_iff.2 h1; omega), if_pos (by have := List.length_pos_iff.2 h2; omega), List.take_left]

/-- the loop over the entries -/
theorem queryMapLoop_spec {name : Str} {f : Form} {acc r : Map Str Str × Bool} (h : queryMapLoop name f acc = .ok r) :
    (∀ key v, r.1 key = some v →
      acc.1 key = some v ∨ ∃ k x xs, (k, x :: xs) ∈ f ∧ Files name key k ∧ v = trimSpace x) ∧
    (∀ key, (∃ k vs, (k, vs) ∈ f ∧ Files name key k) ∨ acc.1 key ≠ none → r.1 key ≠ none) ∧
    (r.2 = true ↔ acc.2 = true ∨ ∃ k vs key, (k, vs) ∈ f ∧ Files name key k) := by
  induction f generalizing acc with
  | nil =>
    simp only [queryMapLoop, Except.ok.injEq] at h
    subst h
    refine ⟨fun key v hv => .inl hv, ?_, by simp⟩
    rintro key (⟨k, vs, hk, _⟩ | hk)
    · cases hk
    · exact hk
  | cons e f ih =>
    obtain ⟨k, vs⟩ := e
    unfold queryMapLoop at h
    cases hk : mapKey name k with
    | none =>
      rw [hk] at h
      obtain ⟨h1, h2, h3⟩ := ih h
      have hno : ∀ key, ¬ Files name key k := fun key hf => by rw [mapKey_iff.2 hf] at hk; cases hk
      refine ⟨?_, ?_, ?_⟩
      · intro key v hv
        rcases h1 key v hv with h4 | ⟨k', x, xs, h4, h5⟩
        · exact .inl h4
        · exact .inr ⟨k', x, xs, List.mem_cons_of_mem _ h4, h5⟩
      · rintro key (⟨k', vs', h4, h5⟩ | h4)
        · rcases List.mem_cons.1 h4 with h4 | h4
          · injection h4 with h6 h7; subst h6; exact absurd h5 (hno _)
          · exact h2 key (.inl ⟨k', vs', h4, h5⟩)
        · exact h2 key (.inr h4)
      · rw [h3]
        refine or_congr Iff.rfl ⟨?_, ?_⟩
        · rintro ⟨k', vs', key, h4, h5⟩; exact ⟨k', vs', key, List.mem_cons_of_mem _ h4, h5⟩
        · rintro ⟨k', vs', key, h4, h5⟩
          rcases List.mem_cons.1 h4 with h4 | h4
          · injection h4 with h6 h7; subst h6; exact absurd h5 (hno _)
          · exact ⟨k', vs', key, h4, h5⟩
    | some key0 =>
      rw [hk] at h
      have hfile := mapKey_iff.1 hk
      cases vs with
      | nil => cases h
      | cons x xs =>
        simp only at h
        obtain ⟨h1, h2, h3⟩ := ih h
        refine ⟨?_, ?_, ?_⟩
        · intro key v hv
          rcases h1 key v hv with h4 | ⟨k', x', xs', h4, h5⟩
          · simp only [Map.set] at h4
            split at h4
            · rename_i h6; subst h6
              injection h4 with h4; subst h4
              exact .inr ⟨k, x, xs, List.mem_cons_self, hfile, rfl⟩
            · exact .inl h4
          · exact .inr ⟨k', x', xs', List.mem_cons_of_mem _ h4, h5⟩
        · rintro key (⟨k', vs', h4, h5⟩ | h4)
          · rcases List.mem_cons.1 h4 with h4 | h4
            · injection h4 with h6 h7; subst h6
              have : key = key0 := by
                have := mapKey_iff.2 h5; rw [hk] at this; injection this with this; exact this.symm
              subst this
              exact h2 key (.inr (by simp [Map.set]))
            · exact h2 key (.inl ⟨k', vs', h4, h5⟩)
          · refine h2 key (.inr ?_)
            simp only [Map.set]
            split
            · simp
            · exact h4
        · constructor
          · intro _; exact .inr ⟨k, x :: xs, key0, List.mem_cons_self, hfile⟩
          · intro _; exact h3.2 (.inl rfl)

theorem queryMapLoop_ok {name : Str} {f : Form} (hv : ∀ k vs key, (k, vs) ∈ f → Files name key k → vs ≠ [])
    (acc : Map Str Str × Bool) : ∃ r, queryMapLoop name f acc = .ok r := by
  induction f generalizing acc with
  | nil => exact ⟨acc, rfl⟩
  | cons e f ih =>
    obtain ⟨k, vs⟩ := e
    have hv' : ∀ k vs key, (k, vs) ∈ f → Files name key k → vs ≠ [] :=
      fun k vs key h => hv k vs key (List.mem_cons_of_mem _ h)
    unfold queryMapLoop
    cases hk : mapKey name k with
    | none => exact ih hv' acc
    | some key =>
      cases vs with
      | nil => exact absurd rfl (hv k [] key List.mem_cons_self (mapKey_iff.1 hk))
      | cons x xs => exact ih hv' _

theorem containsStr_iff {s t : Str} (ht : t ≠ []) : containsStr s t = true ↔ ∃ a b, s = a ++ t ++ b := by
  induction s with
  | nil =>
    constructor
    · intro h
      cases t with
      | nil => exact absurd rfl ht
      | cons c t => simp [containsStr] at h
    · rintro ⟨a, b, h⟩
      have : (a ++ t ++ b).length = 0 := by rw [← h]; rfl
      simp at this
      exact absurd this.2.1 ht
  | cons c s ih =>
    simp only [containsStr, Bool.or_eq_true, ih, List.isPrefixOf_iff_prefix]
    constructor
    · rintro (⟨b, h⟩ | ⟨a, b, h⟩)
      · exact ⟨[], b, by simpa using h.symm⟩
      · exact ⟨c :: a, b, by simp [h]⟩
    · rintro ⟨a, b, h⟩
      cases a with
      | nil => exact .inl ⟨b, by simpa using h.symm⟩
      | cons x a => simp at h; exact .inr ⟨a, b, by simpa using h.2⟩

end Water
