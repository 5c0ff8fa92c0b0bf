import Verif.Spec.HeaderTrip
import Verif.Lemmas.HeaderBind
import Verif.Lemmas.Multipart
namespace Water
open Spec

/-! ### canonical names -/


theorem canonByte_idem (up : Bool) (c : UInt8) : canonByte up (canonByte up c) = canonByte up c := by
  cases up <;> revert c <;> apply all_bytes <;> decide +kernel

theorem canonByte_valid (up : Bool) (c : UInt8) : validHeaderByte c = true → validHeaderByte (canonByte up c) = true := by
  cases up <;> revert c <;> apply all_bytes <;> decide +kernel

theorem canonLoop_idem (up : Bool) (k : Str) : canonLoop up (canonLoop up k) = canonLoop up k := by
  induction k generalizing up with
  | nil => rfl
  | cons c k ih =>
    show canonByte up (canonByte up c) :: canonLoop (canonByte up (canonByte up c) == 45) (canonLoop (canonByte up c == 45) k) = _
    rw [canonByte_idem, ih]
    rfl

theorem canonLoop_valid (up : Bool) {k : Str} (h : k.all validHeaderByte = true) : (canonLoop up k).all validHeaderByte = true := by
  induction k generalizing up with
  | nil => rfl
  | cons c k ih =>
    rw [List.all_cons, Bool.and_eq_true] at h
    show (canonByte up c :: canonLoop (canonByte up c == 45) k).all validHeaderByte = true
    rw [List.all_cons, canonByte_valid up c h.1, ih _ h.2]
    rfl

theorem canonKey_idem (k : Str) : canonKey (canonKey k) = canonKey k := by
  by_cases h : k.all validHeaderByte = true
  · have e : canonKey k = canonLoop true k := if_pos h
    rw [e]
    unfold canonKey
    rw [if_pos (canonLoop_valid true h), canonLoop_idem]
  · have e : canonKey k = k := if_neg h
    rw [e, e]

/-! ### values of header lines -/

theorem strip_front {s : Str} : ∀ c, (s.dropWhile (· ∈ spaceBytes)).head? = some c → c ∉ spaceBytes := by
  induction s with
  | nil => intro c h; cases h
  | cons x s ih =>
    intro c h
    rw [List.dropWhile_cons] at h
    split at h
    · exact ih c h
    · rename_i hx
      cases h
      simpa using hx

theorem strip_mem {s : Str} {c : UInt8} (h : c ∈ stripped s) : c ∈ s := by
  unfold stripped at h
  have h := (List.dropWhile_sublist _).subset (List.mem_reverse.1 h)
  exact (List.dropWhile_sublist _).subset (List.mem_reverse.1 h)

theorem strip_last {s : Str} : ∀ c, (stripped s).getLast? = some c → c ∉ spaceBytes := by
  intro c h
  unfold stripped at h
  rw [List.getLast?_reverse] at h
  exact strip_front c h

theorem dropWhile_prefix {p : UInt8 → Bool} {s : Str} : ∃ t, s = t ++ s.dropWhile p := ⟨s.takeWhile p, List.takeWhile_append_dropWhile.symm⟩

theorem strip_head {s : Str} : ∀ c, (stripped s).head? = some c → c ∉ spaceBytes := by
  intro c h
  apply strip_front (s := s) c
  unfold stripped at h
  generalize s.dropWhile (· ∈ spaceBytes) = t at h
  obtain ⟨u, hu⟩ := dropWhile_prefix (p := fun x => decide (x ∈ spaceBytes)) (s := t.reverse)
  have : t = (t.reverse.dropWhile (· ∈ spaceBytes)).reverse ++ u.reverse := by
    have := congrArg List.reverse hu
    rw [List.reverse_reverse, List.reverse_append] at this
    exact this
  rw [this, List.head?_append, h]
  rfl

theorem fieldText_safe (v : Str) : FieldSafe (fieldText v) := by
  have hno : ∀ c ∈ fieldText v, c ≠ 10 ∧ c ≠ 13 := by
    intro c hc
    have := strip_mem hc
    obtain ⟨x, _, hx⟩ := List.mem_map.1 this
    subst hx
    split
    · decide
    · rename_i h; exact ⟨fun e => h (.inl e), fun e => h (.inr e)⟩
  have hsp : ∀ c, c ∉ spaceBytes → c ≠ 32 ∧ c ≠ 9 := by
    intro c hc
    exact ⟨fun e => hc (by rw [e]; decide), fun e => hc (by rw [e]; decide)⟩
  exact ⟨fun h => (hno _ h).1 rfl, fun h => (hno _ h).2 rfl, fun c h => hsp c (strip_head c h), fun c h => hsp c (strip_last c h)⟩

theorem dropWhile_none {p : UInt8 → Bool} {s : Str} (h : ∀ c, s.head? = some c → p c = false) : s.dropWhile p = s := by
  cases s with
  | nil => rfl
  | cons c s => rw [List.dropWhile_cons, h c rfl]; rfl

theorem fieldText_id {v : Str} (h : FieldSafe v) : fieldText v = v := by
  obtain ⟨h1, h2, h3, h4⟩ := h
  have hm : v.map (fun c => if c = 10 ∨ c = 13 then 32 else c) = v := by
    have : v.map (fun c => if c = 10 ∨ c = 13 then 32 else c) = v.map id := by
      apply List.map_congr_left
      intro c hc
      rw [if_neg]
      · rfl
      · rintro (e | e)
        · exact h1 (e ▸ hc)
        · exact h2 (e ▸ hc)
    rw [this, List.map_id]
  have hs : ∀ c, c ∈ v → c ≠ 32 ∧ c ≠ 9 → decide (c ∈ spaceBytes) = false := by
    intro c hc hb
    rw [decide_eq_false_iff_not]
    intro hx
    simp only [spaceBytes, List.mem_cons, List.not_mem_nil, or_false] at hx
    rcases hx with e | e | e | e
    · exact hb.1 e
    · exact hb.2 e
    · exact h1 (e ▸ hc)
    · exact h2 (e ▸ hc)
  unfold fieldText stripped
  rw [hm, dropWhile_none (fun c hc => hs c (List.mem_of_mem_head? hc) (h3 c hc)),
    dropWhile_none (fun c hc => hs c (List.mem_reverse.1 (List.mem_of_mem_head? hc)) (h4 c (by rw [List.head?_reverse] at hc; exact hc))), List.reverse_reverse]

/-- what is read of a value behind the colon and the space -/
theorem value_read {t : Str} (h : FieldSafe t) : (cutBlank (32 :: t)).dropWhile blankB = t := by
  obtain ⟨_, _, h3, h4⟩ := h
  have hb : ∀ c : UInt8, c ≠ 32 ∧ c ≠ 9 → blankB c = false := by
    intro c hc
    unfold blankB
    simp [hc.1, hc.2]
  rcases List.eq_nil_or_concat t with rfl | ⟨l, c, rfl⟩
  · rfl
  · have e1 : cutBlank (32 :: (l ++ [c])) = 32 :: (l ++ [c]) := cutBlank_end (x := 32 :: l) (hb c (h4 c (by simp)))
    rw [List.concat_eq_append] at *
    rw [e1, List.dropWhile_cons]
    show (l ++ [c]).dropWhile blankB = _
    exact dropWhile_none (fun x hx => hb x (h3 x hx))

/-! ### the lines -/

/-- the header of the lines -/
def addLines (h : Header) (lines : List (Str × Str)) : Header := lines.foldl (fun h l => h.add l.1 (fieldText l.2)) h

theorem field_byte (c : UInt8) : c ∈ tokenBytes → c ≠ 58 ∧ c ≠ 10 ∧ blankB c = false := by
  revert c
  apply all_bytes
  decide +kernel

theorem wire_head {lines : List (Str × Str)} (ht : TokenNames lines) (rest : Str) :
    ∀ y, (wireHeader lines ++ rest).head? = some y → blankB y = false := by
  intro y hy
  cases lines with
  | nil =>
    cases hy
    decide
  | cons l ls =>
    obtain ⟨h1, h2⟩ := ht l (by simp)
    obtain ⟨k, v⟩ := l
    cases k with
    | nil => exact absurd rfl h1
    | cons c k =>
      have : c = y := by
        simp only [wireHeader, List.flatMap_cons, List.cons_append, List.head?_cons, Option.some.injEq] at hy
        exact hy
      subst this
      exact (field_byte c (h2 c (by simp))).2.2

theorem lines_read (lines : List (Str × Str)) (ht : TokenNames lines) (rest : Str) (fuel : Nat) (hf : lines.length < fuel) (h : Header) :
    mimeHeaderLoop fuel h (wireHeader lines ++ rest) = .ok (addLines h lines) rest := by
  induction lines generalizing fuel h with
  | nil =>
    obtain ⟨f, rfl⟩ : ∃ f, fuel = f + 1 := ⟨fuel - 1, by simp at hf; omega⟩
    exact header_end f h rest
  | cons l ls ih =>
    obtain ⟨f, rfl⟩ : ∃ f, fuel = f + 1 := ⟨fuel - 1, by simp at hf; omega⟩
    obtain ⟨h1, h2⟩ := ht l (by simp)
    have ht' : TokenNames ls := fun x hx => ht x (by simp [hx])
    have e : wireHeader (l :: ls) ++ rest = l.1 ++ [colon] ++ (32 :: fieldText l.2) ++ b!"\r\n" ++ (wireHeader ls ++ rest) := by
      simp [wireHeader, colon, List.append_assoc]
    have hsafe := fieldText_safe l.2
    rw [e, header_line f h h1 (fun hc => (field_byte _ (h2 _ hc)).1 rfl) (fun hc => (field_byte _ (h2 _ hc)).2.1 rfl)
      (fun y hy => (field_byte y (h2 y (List.mem_of_mem_head? hy))).2.2)
      (by
        intro hc
        rcases (List.mem_cons (a := (10 : UInt8)) (b := 32)).1 hc with hc | hc
        · exact absurd hc (by decide)
        · exact hsafe.1 hc)
      (wire_head ht' rest), value_read hsafe]
    exact ih ht' f (by simp at hf; omega) _

theorem wire_length (lines : List (Str × Str)) : lines.length < (wireHeader lines).length := by
  unfold wireHeader
  rw [List.length_append, List.length_flatMap]
  have : ∀ ls : List (Str × Str), ls.length ≤ (ls.map (fun l => (l.1 ++ b!": " ++ fieldText l.2 ++ b!"\r\n").length)).sum := by
    intro ls
    induction ls with
    | nil => simp
    | cons l ls ih => simp only [List.map_cons, List.sum_cons, List.length_append, List.length_cons, List.length_nil] at ih ⊢; omega
  have := this lines
  simp only [List.length_cons, List.length_nil]
  omega

theorem wire_read (lines : List (Str × Str)) (ht : TokenNames lines) (rest : Str) :
    readMIMEHeader (wireHeader lines ++ rest) = .ok (addLines Map.empty lines) rest := by
  unfold readMIMEHeader
  rw [if_neg]
  · refine lines_read lines ht rest _ ?_ _
    have := wire_length lines
    rw [List.length_append]
    omega
  · have := wire_head ht rest
    cases hh : (wireHeader lines ++ rest).head? with
    | none => simp
    | some y => simp [this y hh]

theorem addLines_at (n : Str) {lines : List (Str × Str)} {vs : List Str} (h : SentAs n lines vs) (g : Header) :
    addLines g lines (canonKey n) = if vs = [] then g (canonKey n) else some ((g (canonKey n)).getD [] ++ vs.map fieldText) := by
  unfold addLines
  induction h generalizing g with
  | nil => rfl
  | @same k v ls vs hk _ ih =>
    rw [List.foldl_cons, ih]
    have : (g.add k (fieldText v)) (canonKey n) = some ((g (canonKey n)).getD [] ++ [fieldText v]) := by
      unfold Header.add
      rw [canonKey_eq.2 hk, Map.set_same]
    rw [this]
    by_cases hv : vs = [] <;> simp [hv]
  | @other k v ls vs hk _ ih =>
    rw [List.foldl_cons, ih]
    have : (g.add k (fieldText v)) (canonKey n) = g (canonKey n) := by
      unfold Header.add
      exact Map.set_other _ _ (fun e => hk (canonKey_eq.1 e.symm))
    rw [this]

/-! ### names of structs -/

theorem sendField_canon {inner : Nat → Val → List (Str × Str)} (hi : ∀ m y, ∀ p ∈ inner m y, canonKey p.1 = p.1) (fd : Field) (x : Val) :
    ∀ p ∈ sendField inner b!"header" fd x, canonKey p.1 = p.1 := by
  have hn : canonKey ((bindName fd b!"header").getD []) = (bindName fd b!"header").getD [] := by
    unfold bindName
    dsimp only
    split
    · decide
    · rw [if_pos (show b!"header" = b!"header" from rfl)]
      exact canonKey_idem _
  intro p hp
  unfold sendField at hp
  split at hp
  · cases hp
  · dsimp only at hp
    split at hp
    · exact hi _ _ p hp
    · exact hi _ _ p hp
    · cases hp
    · obtain ⟨a, _, rfl⟩ := List.mem_map.1 hp; exact hn
    · rw [List.mem_singleton.1 hp]; exact hn
    · cases hp
    · rw [List.mem_singleton.1 hp]; exact hn

theorem send_canon (E : TyEnv) (f n : Nat) (v : Val) : ∀ p ∈ send E b!"header" f n v, canonKey p.1 = p.1 := by
  induction f generalizing n v with
  | zero => intro p hp; cases hp
  | succ f ih =>
    intro p hp
    obtain ⟨q, _, hq⟩ := List.mem_flatMap.1 hp
    exact sendField_canon ih q.1 q.2 p hq

theorem names_canon (E : TyEnv) (f n : Nat) : ∀ k ∈ namesOf E b!"header" f n, canonKey k = k := by
  induction f generalizing n with
  | zero => intro p hp; cases hp
  | succ f ih =>
    intro k hk
    obtain ⟨fd, _, hq⟩ := List.mem_flatMap.1 hk
    have hn : ∀ k ∈ (bindName fd b!"header").toList, canonKey k = k := by
      intro k hk
      unfold bindName at hk
      dsimp only at hk
      split at hk
      · cases hk
      · rw [if_pos (show b!"header" = b!"header" from rfl)] at hk
        rw [List.mem_singleton.1 hk]
        exact canonKey_idem _
    unfold fieldNames at hq
    split at hq
    · cases hq
    · split at hq
      · exact ih _ k hq
      · exact ih _ k hq
      · exact hn k hq

theorem sentName_canon (fd : Field) (tag : Str) : canonKey ((sentName true fd tag).getD []) = (sentName true fd tag).getD [] ∧
    ∀ k ∈ (sentName true fd tag).toList, canonKey k = k := by
  unfold sentName
  cases Spec.lookupName fd tag with
  | none => exact ⟨by decide, by simp⟩
  | some n =>
    refine ⟨canonKey_idem n, fun k hk => ?_⟩
    simp only [Option.map_some, Option.toList_some, List.mem_singleton, if_true] at hk
    rw [hk, canonKey_idem]

theorem sendOld_canon (E : TyEnv) (tag : Str) (f : Nat) (t : Ty) (fd : Field) (x : Val) : ∀ p ∈ sendOld E true tag f t fd x, canonKey p.1 = p.1 := by
  induction f generalizing t fd x with
  | zero => intro p hp; cases hp
  | succ f ih =>
    intro p hp
    have hn := (sentName_canon fd tag).1
    unfold sendOld at hp
    split at hp
    · cases hp
    · dsimp only at hp
      split at hp
      · exact ih _ _ _ p hp
      · cases hp
      · obtain ⟨q, _, hq⟩ := List.mem_flatMap.1 hp
        split at hq
        · cases hq
        · exact ih _ _ _ p hq
      · obtain ⟨a, _, rfl⟩ := List.mem_map.1 hp; exact hn
      · obtain ⟨a, _, rfl⟩ := List.mem_map.1 hp; exact hn
      · rw [List.mem_singleton.1 hp]; exact hn

theorem namesOld_canon (E : TyEnv) (tag : Str) (f : Nat) (t : Ty) (fd : Field) : ∀ k ∈ namesOld E true tag f t fd, canonKey k = k := by
  induction f generalizing t fd with
  | zero => intro p hp; cases hp
  | succ f ih =>
    intro k hk
    have hn := (sentName_canon fd tag).2
    unfold namesOld at hk
    split at hk
    · cases hk
    · split at hk
      · exact ih _ _ k hk
      · rcases List.mem_append.1 hk with hk | hk
        · split at hk
          · cases hk
          · exact hn k hk
        · obtain ⟨fd', _, hq⟩ := List.mem_flatMap.1 hk
          split at hq
          · cases hq
          · exact ih _ _ k hq
      · exact hn k hk

/-- the values of a canonical name, in respelled lines -/
theorem wire_values {ls ls' : List (Str × Str)} (h : SameLines ls ls') (hc : ∀ p ∈ ls, canonKey p.1 = p.1) {k : Str} (hk : canonKey k = k)
    {vs : List Str} (hs : SentAs k ls' vs) : vs = valuesIn ls k := by
  induction h generalizing vs with
  | nil => cases hs; rfl
  | @cons a a' v ls ls' ha _ ih =>
    have hca : canonKey a = a := hc (a, v) (by simp)
    have hc' : ∀ p ∈ ls, canonKey p.1 = p.1 := fun p hp => hc p (by simp [hp])
    have haa := canonKey_eq.2 ha
    cases hs with
    | same h1 h2 =>
      have : a = k := by rw [← hca, ← hk, haa]; exact canonKey_eq.2 h1
      subst this
      rw [ih hc' h2]
      simp [valuesIn]
    | other h1 h2 =>
      have : a ≠ k := by
        intro e
        apply h1
        rw [← canonKey_eq, ← haa, e]
      rw [ih hc' h2]
      simp [valuesIn, this]

theorem sameLines_values {ls ls' : List (Str × Str)} (h : SameLines ls ls') : ls'.map Prod.snd = ls.map Prod.snd := by
  induction h with
  | nil => rfl
  | cons _ _ ih => simp [ih]

theorem serverHeader_other (h : Header) {k : Str} (hk : k ∉ reservedFields) : serverHeader h k = h k := by
  simp only [reservedFields, List.mem_cons, List.not_mem_nil, or_false, not_or] at hk
  obtain ⟨k1, k2, k3, _, k5⟩ := hk
  unfold serverHeader
  show (if _ then none else if _ then none else _) = _
  rw [if_neg k3, if_neg k2]
  split
  · rw [Map.set_other _ _ k5]; exact if_neg k1
  · exact if_neg k1

end Water
