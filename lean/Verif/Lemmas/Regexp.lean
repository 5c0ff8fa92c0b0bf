import Verif.Spec.Regexp
import Verif.Lemmas.Values
import Verif.Lemmas.Util
import Verif.Lemmas.Pattern
/- The search of Model/Regexp finds what Spec/Regexp describes. -/
namespace Water
open Spec

variable {t : List (Nat × Str)}

theorem Spec.Mat.le {r : Re} {k i j : Nat} {c : Caps} (h : Mat t r k i j c) : i ≤ j := by
  induction h with
  | eps | none | bot | eot => exact Nat.le_refl _
  | one => omega
  | group _ ih | nc _ ih | once _ ih | left _ ih | right _ ih => exact ih
  | more _ _ _ h1 h2 | cat _ _ h1 h2 => omega

theorem Spec.Mat.bound {r : Re} {k i j : Nat} {c : Caps} (h : Mat t r k i j c) (hi : i ≤ t.length) : j ≤ t.length := by
  induction h with
  | eps | none | bot | eot => exact hi
  | one h _ => have := (List.getElem?_eq_some_iff.1 h).1; omega
  | group _ ih | nc _ ih | once _ ih | left _ ih | right _ ih => exact ih hi
  | more _ _ _ h1 h2 | cat _ _ h1 h2 => exact h2 (h1 hi)

theorem Spec.Mat.nullable {r : Re} {k i j : Nat} {c : Caps} (h : Mat t r k i j c) : i = j → r.nullable = true := by
  induction h with
  | eps | bot | eot => intro _; rfl
  | none h =>
    intro _
    rename_i op _ _ _ _ _
    cases op
    · rfl
    · exact absurd rfl h
    · rfl
  | one => intro h; omega
  | group _ ih | nc _ ih => intro h; exact ih h
  | once _ ih => intro h; rename_i op _ _ _ _ _ _ _; cases op <;> first | rfl | exact ih h
  | more hq h1 h2 ih1 ih2 =>
    intro h
    rename_i op _ _ _ _ _ _ _ _
    have := h1.le; have := h2.le
    cases op
    · rfl
    · exact ih1 (by omega)
    · rfl
  | cat h1 h2 ih1 ih2 =>
    intro h
    have := h1.le; have := h2.le
    simp [Re.nullable, ih1 (by omega), ih2 (by omega)]
  | left _ ih => intro h; simp [Re.nullable, ih h]
  | right _ ih => intro h; simp [Re.nullable, ih h]

/-- the rounds of a repetition, said without an order -/
inductive Rounds (P : Nat → Nat → Caps → Prop) : Nat → Nat → Caps → Prop where
  | done {i} : Rounds P i i []
  | more {i m j c d} : P i m c → Rounds P m j d → Rounds P i j (c ++ d)

theorem mem_rounds {body : Nat → List (Nat × Caps)} {lazy : Bool} {f i j : Nat} {c : Caps} :
    (j, c) ∈ rounds body lazy (f + 1) i ↔
      (j = i ∧ c = []) ∨ ∃ x ∈ body i, i < x.1 ∧ ∃ d, (j, d) ∈ rounds body lazy f x.1 ∧ c = x.2 ++ d := by
  have key : (j, c) ∈ (body i).flatMap (fun x => if i < x.1 then (rounds body lazy f x.1).map (fun y => (y.1, x.2 ++ y.2)) else []) ↔
      ∃ x ∈ body i, i < x.1 ∧ ∃ d, (j, d) ∈ rounds body lazy f x.1 ∧ c = x.2 ++ d := by
    rw [List.mem_flatMap]
    constructor
    · rintro ⟨x, hx, h⟩
      split at h
      · rename_i hl
        obtain ⟨y, hy, he⟩ := List.mem_map.1 h
        cases he
        exact ⟨x, hx, hl, y.2, hy, rfl⟩
      · cases h
    · rintro ⟨x, hx, hl, d, hd, rfl⟩
      refine ⟨x, hx, ?_⟩
      rw [if_pos hl]
      exact List.mem_map.2 ⟨(j, d), hd, rfl⟩
  rw [rounds]
  split
  · rw [List.mem_cons, key, Prod.mk.injEq]
  · rw [List.mem_append, key, List.mem_singleton, Prod.mk.injEq, or_comm]

theorem rounds_iff {body : Nat → List (Nat × Caps)} {P : Nat → Nat → Caps → Prop} {lazy : Bool} {n : Nat}
    (hb : ∀ i, i ≤ n → ∀ j c, (j, c) ∈ body i ↔ P i j c) (hlt : ∀ i j c, P i j c → i < j) (hn : ∀ i j c, i ≤ n → P i j c → j ≤ n) :
    ∀ f i, i ≤ n → n - i ≤ f → ∀ j c, (j, c) ∈ rounds body lazy f i ↔ Rounds P i j c := by
  intro f
  induction f with
  | zero =>
    intro i hi hf j c
    simp only [rounds, List.mem_singleton, Prod.mk.injEq]
    constructor
    · rintro ⟨rfl, rfl⟩; exact .done
    · intro h
      cases h with
      | done => exact ⟨rfl, rfl⟩
      | more h _ => have := hlt _ _ _ h; have := hn _ _ _ hi h; omega
  | succ f ih =>
    intro i hi hf j c
    rw [mem_rounds]
    constructor
    · rintro (⟨rfl, rfl⟩ | ⟨x, hx, hl, d, hd, rfl⟩)
      · exact .done
      · have hp := (hb i hi x.1 x.2).1 hx
        exact .more hp ((ih x.1 (hn _ _ _ hi hp) (by omega) j d).1 hd)
    · intro h
      cases h with
      | done => exact .inl ⟨rfl, rfl⟩
      | @more _ m _ c d hp hr =>
        have hl := hlt _ _ _ hp
        have hm := hn _ _ _ hi hp
        exact .inr ⟨(m, c), (hb i hi m c).2 hp, hl, d, (ih m hm (by omega) j d).2 hr, rfl⟩

theorem Rounds.star {l : Bool} {a : Re} {op : RepOp} (ho : op ≠ .quest) {k i j : Nat} {c : Caps}
    (h : Rounds (fun i j c => Mat t a k i j c) i j c) : (i = j ∧ c = []) ∨ Mat t (.rep op l a) k i j c := by
  induction h with
  | done => exact .inl ⟨rfl, rfl⟩
  | more h1 _ ih =>
    rcases ih with ⟨rfl, rfl⟩ | ih
    · rw [List.append_nil]; exact .inr (.once h1)
    · exact .inr (.more ho h1 ih)

theorem Spec.Mat.rounds {l : Bool} {a : Re} {op : RepOp} {k i j : Nat} {c : Caps} (h : Mat t (.rep op l a) k i j c) :
    Rounds (fun i j c => Mat t a k i j c) i j c := by
  generalize hr : Re.rep op l a = r at h
  induction h with
  | none => exact .done
  | @once _ _ _ _ _ _ c h _ =>
    cases hr
    have := Rounds.more (P := fun i j c => Mat t a _ i j c) h .done
    rwa [List.append_nil] at this
  | more _ h _ _ ih => cases hr; exact .more h (ih rfl)
  | _ => cases hr

/-- What the search lists is what the expression can be read as. -/
theorem mem_runs {r : Re} (hr : r.ok = true) : ∀ {k i : Nat}, i ≤ t.length → ∀ j c, (j, c) ∈ runs t r k i ↔ Mat t r k i j c := by
  induction r with
  | eps =>
    intro k i _ j c
    simp only [runs, List.mem_singleton, Prod.mk.injEq]
    constructor
    · rintro ⟨rfl, rfl⟩; exact .eps
    · intro h; cases h; exact ⟨rfl, rfl⟩
  | one cs =>
    intro k i _ j c
    unfold runs
    constructor
    · intro h
      split at h
      · rename_i x hx
        split at h
        · rename_i hh
          simp only [List.mem_singleton, Prod.mk.injEq] at h
          obtain ⟨rfl, rfl⟩ := h
          exact .one hx hh
        · cases h
      · cases h
    · intro h
      cases h with
      | one hx hh => rw [hx]; dsimp only; rw [if_pos hh]; exact List.mem_singleton.2 rfl
  | group a ih =>
    intro k i hi j c
    unfold runs
    rw [List.mem_map]
    constructor
    · rintro ⟨x, hx, he⟩
      cases he
      exact .group ((ih hr hi _ _).1 hx)
    · intro h
      cases h with
      | @group _ _ _ _ c h => exact ⟨(j, c), (ih hr hi _ _).2 h, rfl⟩
  | nc a ih =>
    intro k i hi j c
    unfold runs
    rw [ih hr hi]
    constructor
    · exact .nc
    · intro h; cases h with | nc h => exact h
  | bot =>
    intro k i _ j c
    unfold runs
    constructor
    · intro h
      split at h
      · rename_i h0
        simp only [List.mem_singleton, Prod.mk.injEq] at h
        obtain ⟨rfl, rfl⟩ := h
        subst h0
        exact .bot
      · cases h
    · intro h; cases h; simp
  | eot =>
    intro k i _ j c
    unfold runs
    constructor
    · intro h
      split at h
      · rename_i h0
        simp only [List.mem_singleton, Prod.mk.injEq] at h
        obtain ⟨rfl, rfl⟩ := h
        subst h0
        exact .eot
      · cases h
    · intro h; cases h; simp
  | cat a b iha ihb =>
    intro k i hi j c
    have ha : a.ok = true ∧ b.ok = true := by simp [Re.ok] at hr; exact ⟨hr.1.1.2, hr.1.2⟩
    unfold runs
    rw [List.mem_flatMap]
    constructor
    · rintro ⟨x, hx, h⟩
      obtain ⟨y, hy, he⟩ := List.mem_map.1 h
      cases he
      have h1 := (iha ha.1 hi _ _).1 hx
      exact .cat h1 ((ihb ha.2 (h1.bound hi) _ _).1 hy)
    · intro h
      cases h with
      | @cat _ _ _ _ _ m c d h1 h2 =>
        exact ⟨(m, c), (iha ha.1 hi _ _).2 h1, List.mem_map.2 ⟨(j, d), (ihb ha.2 (h1.bound hi) _ _).2 h2, rfl⟩⟩
  | alt a b iha ihb =>
    intro k i hi j c
    have ha : a.ok = true ∧ b.ok = true := by simp [Re.ok] at hr; exact ⟨hr.1.1, hr.1.2⟩
    unfold runs
    rw [List.mem_append, iha ha.1 hi, ihb ha.2 hi]
    constructor
    · rintro (h | h)
      · exact .left h
      · exact .right h
    · intro h
      cases h with
      | left h => exact .inl h
      | right h => exact .inr h
  | rep op l a ih =>
    intro k i hi j c
    have ha : a.ok = true := by simp [Re.ok] at hr; exact hr.1.2
    have hn : op ≠ .quest → ∀ i j c, Mat t a k i j c → i < j := by
      intro ho i j c h
      have hnn : a.nullable = false := by
        simp [Re.ok] at hr
        rcases hr.2 with h | h
        · exact absurd h ho
        · exact h
      have h1 := h.le
      have h2 := h.nullable
      rcases Nat.lt_or_eq_of_le h1 with h | h
      · exact h
      · rw [hnn] at h2; exact absurd (h2 h) (by decide)
    have hrounds : op ≠ .quest → ∀ i, i ≤ t.length → ∀ j c, (j, c) ∈ rounds (runs t a k) l (t.length - i) i ↔
        Rounds (fun i j c => Mat t a k i j c) i j c := by
      intro ho i hi
      exact rounds_iff (n := t.length) (fun i hi j c => ih ha hi j c) (hn ho) (fun i j c hi h => h.bound hi) _ i hi (Nat.le_refl _)
    cases op with
    | star =>
      unfold runs
      rw [hrounds (by decide) i hi]
      constructor
      · intro h
        rcases h.star (op := .star) (l := l) (by decide) with ⟨rfl, rfl⟩ | h
        · exact .none (by decide)
        · exact h
      · exact Spec.Mat.rounds
    | plus =>
      unfold runs
      rw [List.mem_flatMap]
      constructor
      · rintro ⟨x, hx, h⟩
        obtain ⟨y, hy, he⟩ := List.mem_map.1 h
        cases he
        have h1 := (ih ha hi _ _).1 hx
        have h2 := (hrounds (by decide) _ (h1.bound hi) _ _).1 hy
        rcases h2.star (op := .plus) (l := l) (by decide) with ⟨h3, h4⟩ | h3
        · rw [h4, List.append_nil, ← h3]
          exact .once h1
        · exact .more (by decide) h1 h3
      · intro h
        cases h with
        | none h => exact absurd rfl h
        | once h =>
          exact ⟨(j, c), (ih ha hi _ _).2 h, List.mem_map.2 ⟨(j, []), (hrounds (by decide) _ (h.bound hi) _ _).2 .done, by simp⟩⟩
        | @more _ _ _ _ _ _ m c d _ h1 h2 =>
          exact ⟨(m, c), (ih ha hi _ _).2 h1, List.mem_map.2 ⟨(j, d), (hrounds (by decide) _ (h1.bound hi) _ _).2 h2.rounds, rfl⟩⟩
    | quest =>
      have hiff : (j, c) ∈ runs t (.rep .quest l a) k i ↔ (j = i ∧ c = []) ∨ (j, c) ∈ runs t a k i := by
        rw [runs]
        split
        · rw [List.mem_cons, Prod.mk.injEq]
        · rw [List.mem_append, List.mem_singleton, Prod.mk.injEq, or_comm]
      rw [hiff, ih ha hi]
      constructor
      · rintro (⟨rfl, rfl⟩ | h)
        · exact .none (by decide)
        · exact .once h
      · intro h
        cases h with
        | none => exact .inl ⟨rfl, rfl⟩
        | once h => exact .inr h
        | more h => exact absurd rfl h

/-! ### the search -/

theorem findFrom_spec (hr : Re.ok r = true) : ∀ n i, i + n = t.length + 1 →
    (findFrom t r n i = [] ∧ ∀ i', i ≤ i' → i' ≤ t.length → ∀ j c, ¬ Mat t r 1 i' j c) ∨
    ∃ i' j c, i ≤ i' ∧ i' ≤ t.length ∧ Mat t r 1 i' j c ∧ (∀ m, i ≤ m → m < i' → ∀ j c, ¬ Mat t r 1 m j c) ∧
      (runs t r 1 i').head? = some (j, c) ∧
      findFrom t r n i = cutRunes t i' j :: (List.range r.groups).map (fun k => groupText t c (k + 1)) := by
  intro n
  induction n with
  | zero =>
    intro i h
    exact .inl ⟨rfl, fun i' h1 h2 => by omega⟩
  | succ n ih =>
    intro i h
    unfold findFrom
    split
    · rename_i j caps rest hrun
      refine .inr ⟨i, j, caps, Nat.le_refl _, by omega, ?_, by omega, by rw [hrun]; rfl, rfl⟩
      exact (mem_runs hr (by omega) _ _).1 (by rw [hrun]; exact List.mem_cons_self ..)
    · rename_i hrun
      have hno : ∀ j c, ¬ Mat t r 1 i j c := by
        intro j c hm
        have := (mem_runs hr (by omega) _ _).2 hm
        rw [hrun] at this
        cases this
      rcases ih (i + 1) (by omega) with ⟨h1, h2⟩ | ⟨i', j, c, h1, h2, h3, h4, h5, h6⟩
      · refine .inl ⟨h1, fun i' hi hl => ?_⟩
        rcases Nat.lt_or_eq_of_le hi with h | h
        · exact h2 i' h hl
        · subst h; exact hno
      · refine .inr ⟨i', j, c, by omega, h2, h3, fun m hm hl => ?_, h5, h6⟩
        rcases Nat.lt_or_eq_of_le hm with h | h
        · exact h4 m h hl
        · subst h; exact hno

theorem find_length {r : Re} (hr : r.ok = true) (s : Str) :
    (r.find s).length = r.groups + 1 ∧ DescribesPart r s ∨ r.find s = [] ∧ ¬ DescribesPart r s := by
  rcases findFrom_spec (t := runesOf s) hr ((runesOf s).length + 1) 0 (by omega) with ⟨h1, h2⟩ | ⟨i', j, c, h1, h2, h3, _, _, h6⟩
  · exact .inr ⟨h1, fun ⟨i, j, c, hi, hm⟩ => h2 i (Nat.zero_le _) hi j c hm⟩
  · refine .inl ⟨?_, i', j, c, h2, h3⟩
    unfold Re.find
    rw [h6]
    simp

/-! ### the bytes of a text -/

theorem runesF_bytes : ∀ (f : Nat) (s : Str), s.length ≤ f → (runesF f s).flatMap Prod.snd = s := by
  intro f
  induction f with
  | zero =>
    intro s h
    have : s = [] := List.length_eq_zero_iff.1 (by omega)
    subst this; rfl
  | succ f ih =>
    intro s h
    cases s with
    | nil => rfl
    | cons c s =>
      unfold runesF
      rw [List.flatMap_cons, ih _ (by simp only [List.length_drop, List.length_cons] at h ⊢; omega)]
      exact List.take_append_drop ..

theorem runesOf_bytes (s : Str) : (runesOf s).flatMap Prod.snd = s := runesF_bytes _ s (Nat.le_refl _)

theorem cutRunes_all (s : Str) : cutRunes (runesOf s) 0 (runesOf s).length = s := by
  unfold cutRunes
  rw [List.take_length, List.drop_zero, runesOf_bytes]

theorem cutRunes_eq (t : List (Nat × Str)) (i j : Nat) : cutRunes t i j = ((t.drop i).take (j - i)).flatMap Prod.snd := by
  unfold cutRunes
  rw [List.drop_take]

theorem groupText_is (t : List (Nat × Str)) (c : Caps) (k : Nat) : GroupIs t c k (groupText t c k) := by
  unfold groupText
  cases h : c.reverse.find? (fun e => e.1 == k) with
  | none =>
    dsimp only
    refine .never (fun e he => ?_)
    have := List.find?_eq_none.1 h e (List.mem_reverse.2 he)
    simpa using this
  | some e =>
    obtain ⟨k', i, j⟩ := e
    dsimp only
    obtain ⟨hk, a, b, hc, hb⟩ := List.find?_eq_some_iff_append.1 h
    have hk' : k' = k := by simpa using hk
    subst hk'
    rw [cutRunes_eq]
    refine .last (a := b.reverse) (b := a.reverse) ?_ (fun e he => ?_)
    · have := congrArg List.reverse hc
      rw [List.reverse_reverse] at this
      rw [this]; simp
    · have := hb e (List.mem_reverse.1 he)
      simpa using this

theorem GroupIs_unique {t : List (Nat × Str)} {c : Caps} {k : Nat} {u : Str} (h : GroupIs t c k u) : u = groupText t c k := by
  unfold groupText
  cases h with
  | @last a b i j hc hb =>
    have : c.reverse.find? (fun e => e.1 == k) = some (k, i, j) := by
      rw [hc, List.find?_eq_some_iff_append]
      refine ⟨by simp, b.reverse, a.reverse, by simp, fun e he => ?_⟩
      have := hb e (List.mem_reverse.1 he)
      simpa using this
    rw [this]
    exact (cutRunes_eq ..).symm
  | never hn =>
    have : c.reverse.find? (fun e => e.1 == k) = none := by
      rw [List.find?_eq_none]
      intro e he
      have := hn e (List.mem_reverse.1 he)
      simpa using this
    rw [this]

/-! ### groups -/

theorem Spec.Mat.numbers {r : Re} {k i j : Nat} {c : Caps} (h : Mat t r k i j c) : ∀ e ∈ c, k ≤ e.1 ∧ e.1 < k + r.groups ∧ i ≤ e.2.1 ∧ e.2.1 ≤ e.2.2 ∧ e.2.2 ≤ j := by
  induction h with
  | eps | none | bot | eot | one => intro e he; cases he
  | group h ih =>
    intro e he
    simp only [Re.groups]
    rcases List.mem_append.1 he with he | he
    · have := ih e he; omega
    · rw [List.mem_singleton] at he; subst he; have := h.le; simp only; omega
  | nc _ ih | once _ ih => intro e he; exact ih e he
  | more _ h1 h2 ih1 ih2 =>
    intro e he
    have := h1.le; have := h2.le
    rcases List.mem_append.1 he with he | he
    · have := ih1 e he; simp only [Re.groups]; omega
    · have := ih2 e he; simp only [Re.groups] at this ⊢; omega
  | cat h1 h2 ih1 ih2 =>
    intro e he
    have := h1.le; have := h2.le
    simp only [Re.groups]
    rcases List.mem_append.1 he with he | he
    · have := ih1 e he; omega
    · have := ih2 e he; omega
  | left _ ih => intro e he; have := ih e he; simp only [Re.groups]; omega
  | right _ ih => intro e he; have := ih e he; simp only [Re.groups]; omega

/-- what is matched does not depend on the numbers of the groups -/
theorem Spec.Mat.renumber {r : Re} {k i j : Nat} {c : Caps} (h : Mat t r k i j c) : ∀ k', ∃ c', Mat t r k' i j c' := by
  induction h with
  | eps => exact fun _ => ⟨_, .eps⟩
  | none h => exact fun _ => ⟨_, .none h⟩
  | bot => exact fun _ => ⟨_, .bot⟩
  | eot => exact fun _ => ⟨_, .eot⟩
  | one h1 h2 => exact fun _ => ⟨_, .one h1 h2⟩
  | group _ ih => exact fun k' => let ⟨_, h⟩ := ih (k' + 1); ⟨_, .group h⟩
  | nc _ ih => exact fun k' => let ⟨_, h⟩ := ih k'; ⟨_, .nc h⟩
  | once _ ih => exact fun k' => let ⟨_, h⟩ := ih k'; ⟨_, .once h⟩
  | more hq _ _ ih1 ih2 => exact fun k' => let ⟨_, h1⟩ := ih1 k'; let ⟨_, h2⟩ := ih2 k'; ⟨_, .more hq h1 h2⟩
  | cat _ _ ih1 ih2 => exact fun k' => let ⟨_, h1⟩ := ih1 k'; let ⟨_, h2⟩ := ih2 _; ⟨_, .cat h1 h2⟩
  | left _ ih => exact fun k' => let ⟨_, h⟩ := ih k'; ⟨_, .left h⟩
  | right _ ih => exact fun k' => let ⟨_, h⟩ := ih _; ⟨_, .right h⟩

/-! ### how an expression is written -/

theorem count_showChar (c b : UInt8) (hb : b ≠ 92) : (showChar c).count b = if c = b then 1 else 0 := by
  have h92 : ((92 : UInt8) == b) = false := by simpa using fun h : (92 : UInt8) = b => hb h.symm
  unfold showChar
  split <;> simp [List.count_cons, h92]

theorem count_showInClass (c b : UInt8) (hb : b ≠ 92) : (showInClass c).count b = if c = b then 1 else 0 := by
  have h92 : ((92 : UInt8) == b) = false := by simpa using fun h : (92 : UInt8) = b => hb h.symm
  unfold showInClass
  split <;> simp [List.count_cons, h92]

theorem count_ranges (rs : List (UInt8 × UInt8)) (b : UInt8) (hb : b ≠ 92) (h45 : b ≠ 45) : (rs.flatMap showRange).count b =
    (rs.map (fun r => (if r.1 = b then 1 else 0) + (if r.1 ≠ r.2 ∧ r.2 = b then 1 else 0))).sum := by
  induction rs with
  | nil => rfl
  | cons r rs ih =>
    rw [List.flatMap_cons, List.count_append, ih, List.map_cons, List.sum_cons]
    congr 1
    unfold showRange
    split
    · rename_i h
      rw [count_showInClass _ _ hb]; simp [h]
    · rename_i h
      have : ([45] : Str).count b = 0 := by
        have : ((45 : UInt8) == b) = false := by simpa using fun h : (45 : UInt8) = b => h45 h.symm
        simp [List.count_cons, this]
      rw [List.count_append, List.count_append, count_showInClass _ _ hb, count_showInClass _ _ hb, this]
      simp [h]

/-- the parentheses of an expression: those of groups, and others -/
theorem count_text (r : Re) : r.text.count lparen = r.groups + falseParens lparen r ∧ r.text.count rparen = r.groups + falseParens rparen r := by
  have key : ∀ b : UInt8, b = lparen ∨ b = rparen → r.text.count b = r.groups + falseParens b r := by
    intro b hb
    have h92 : b ≠ 92 := by rcases hb with rfl | rfl <;> decide
    have h45 : b ≠ 45 := by rcases hb with rfl | rfl <;> decide
    have hz : ∀ s : Str, s ∈ [b!".", b!"\\d", b!"\\w", b!"\\s", b!"[", b!"]", b!"^", b!"$", b!"|", b!"*", b!"+", b!"?", []] → s.count b = 0 := by
      intro s hs
      rcases hb with rfl | rfl <;> revert s <;> decide
    induction r with
    | eps => rfl
    | bot => exact hz _ (by decide)
    | eot => exact hz _ (by decide)
    | one c =>
      cases c with
      | char c =>
        show (showChar c).count b = 0 + _
        rw [count_showChar _ _ h92, Nat.zero_add]; rfl
      | any => exact hz _ (by decide)
      | digit => exact hz _ (by decide)
      | word => exact hz _ (by decide)
      | space => exact hz _ (by decide)
      | set neg rs =>
        show (b!"[" ++ (if neg then b!"^" else []) ++ rs.flatMap showRange ++ b!"]").count b = 0 + _
        rw [List.count_append, List.count_append, List.count_append, count_ranges _ _ h92 h45, hz b!"[" (by decide), hz b!"]" (by decide),
          hz (if neg then b!"^" else []) (by cases neg <;> decide)]
        simp [falseParens]
    | group a ih =>
      show (b!"(" ++ a.text ++ b!")").count b = _
      rw [List.count_append, List.count_append, ih]
      have : (b!"(").count b + (b!")").count b = 1 := by rcases hb with rfl | rfl <;> decide
      simp only [Re.groups, falseParens]; omega
    | nc a ih =>
      show (b!"(?:" ++ a.text ++ b!")").count b = _
      rw [List.count_append, List.count_append, ih]
      have : (b!"(?:").count b + (b!")").count b = 1 := by rcases hb with rfl | rfl <;> decide
      simp only [Re.groups, falseParens]; omega
    | rep k l a ih =>
      show (a.text ++ k.text ++ (if l then b!"?" else [])).count b = _
      rw [List.count_append, List.count_append, ih, hz k.text (by cases k <;> decide), hz (if l then b!"?" else []) (by cases l <;> decide)]
      rfl
    | cat a c iha ihc =>
      show (a.text ++ c.text).count b = _
      rw [List.count_append, iha, ihc]
      simp only [Re.groups, falseParens]; omega
    | alt a c iha ihc =>
      show (a.text ++ b!"|" ++ c.text).count b = _
      rw [List.count_append, List.count_append, iha, ihc, hz b!"|" (by decide)]
      simp only [Re.groups, falseParens]; omega
  exact ⟨key _ (.inl rfl), key _ (.inr rfl)⟩

theorem typed_showChar (c : UInt8) (h : typedByte c = true) : ∀ x ∈ showChar c, typedByte x = true := by
  unfold showChar
  split
  · intro x hx; rcases List.mem_cons.1 hx with rfl | hx
    · decide
    · rw [List.mem_singleton] at hx; subst hx; exact h
  · intro x hx; rw [List.mem_singleton] at hx; subst hx; exact h

theorem typed_showInClass (c : UInt8) (h : typedByte c = true) : ∀ x ∈ showInClass c, typedByte x = true := by
  unfold showInClass
  split
  · intro x hx; rcases List.mem_cons.1 hx with rfl | hx
    · decide
    · rw [List.mem_singleton] at hx; subst hx; exact h
  · intro x hx; rw [List.mem_singleton] at hx; subst hx; exact h

theorem typed_text {r : Re} (hr : r.ok = true) : ∀ x ∈ r.text, typedByte x = true := by
  have hz : ∀ s ∈ [b!".", b!"\\d", b!"\\w", b!"\\s", b!"[", b!"]", b!"^", b!"$", b!"|", b!"*", b!"+", b!"?", b!"(", b!")", b!"(?:", []],
      ∀ x ∈ s, typedByte x = true := by decide
  have app : ∀ {a b : Str}, (∀ x ∈ a, typedByte x = true) → (∀ x ∈ b, typedByte x = true) → ∀ x ∈ a ++ b, typedByte x = true := by
    intro a b ha hb x hx
    rcases List.mem_append.1 hx with h | h
    · exact ha x h
    · exact hb x h
  induction r with
  | eps => exact hz _ (by decide)
  | bot => exact hz _ (by decide)
  | eot => exact hz _ (by decide)
  | one c =>
    cases c with
    | char c => exact typed_showChar c hr
    | any => exact hz _ (by decide)
    | digit => exact hz _ (by decide)
    | word => exact hz _ (by decide)
    | space => exact hz _ (by decide)
    | set neg rs =>
      simp only [Re.ok, CharSet.ok, Bool.and_eq_true, List.all_eq_true] at hr
      refine app (app (app (hz _ (by decide)) (hz _ (by cases neg <;> decide))) ?_) (hz _ (by decide))
      intro x hx
      obtain ⟨r, hm, hx⟩ := List.mem_flatMap.1 hx
      have h := hr.2 r hm
      unfold showRange at hx
      split at hx
      · exact typed_showInClass _ h.1.1 x hx
      · exact app (app (typed_showInClass _ h.1.1) (by decide)) (typed_showInClass _ h.1.2) x hx
  | group a ih => exact app (app (hz _ (by decide)) (ih hr)) (hz _ (by decide))
  | nc a ih => exact app (app (hz _ (by decide)) (ih hr)) (hz _ (by decide))
  | rep k l a ih =>
    have ha : a.ok = true := by simp [Re.ok] at hr; exact hr.1.2
    exact app (app (ih ha) (hz _ (by cases k <;> decide))) (hz _ (by cases l <;> decide))
  | cat a b iha ihb =>
    have ha : a.ok = true ∧ b.ok = true := by simp [Re.ok] at hr; exact ⟨hr.1.1.2, hr.1.2⟩
    exact app (iha ha.1) (ihb ha.2)
  | alt a b iha ihb =>
    have ha : a.ok = true ∧ b.ok = true := by simp [Re.ok] at hr; exact ⟨hr.1.1, hr.1.2⟩
    exact app (app (iha ha.1) (hz _ (by decide))) (ihb ha.2)

end Water
