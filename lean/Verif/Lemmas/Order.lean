import Verif.Lemmas.Select
import Verif.Spec.Choice
/- `Wins` is a strict total order on the registered patterns that accept a path. -/
namespace Water
open Spec
variable {α : Type}

theorem before_asymm {β : Type} {P Q : β → Prop} {l : List β} (h1 : Before P Q l) (h2 : Before Q P l) : False := by
  obtain ⟨a1, x, a2, ha, hPx, hQx, hna⟩ := h1
  obtain ⟨b1, y, b2, hb, hQy, hPy, hnb⟩ := h2
  rw [ha] at hb
  rcases List.append_eq_append_iff.1 hb with ⟨d, h3, h4⟩ | ⟨d, h3, h4⟩
  · cases d with
    | nil => simp at h4; exact hQx (h4.1 ▸ hQy)
    | cons z d => simp at h4; subst h3; exact hnb x (by simp [h4.1]) hPx
  · cases d with
    | nil => simp at h4; exact hPy (h4.1 ▸ hPx)
    | cons z d => simp at h4; subst h3; exact hna y (by simp [h4.1]) hQy

theorem before_trans {β : Type} {P Q R : β → Prop} {l : List β} (h1 : Before P Q l) (h2 : Before Q R l) : Before P R l := by
  obtain ⟨a1, x, a2, ha, hPx, hQx, hna⟩ := h1
  obtain ⟨b1, y, b2, hb, hQy, hRy, hnb⟩ := h2
  rw [ha] at hb
  rcases List.append_eq_append_iff.1 hb with ⟨d, h3, h4⟩ | ⟨d, h3, h4⟩
  · cases d with
    | nil => simp at h4; exact absurd (h4.1 ▸ hQy) hQx
    | cons z d =>
      simp at h4
      subst h3
      exact ⟨a1, x, a2, ha, hPx, hnb x (by simp [h4.1]), fun y hy => hnb y (by simp [hy])⟩
  · cases d with
    | nil => simp at h4; exact absurd (h4.1 ▸ hQy) hQx
    | cons z d => simp at h4; subst h3; exact absurd hQy (hna y (by simp [h4.1]))

/-- of two properties that occur, one occurs first, if they are never both true -/
theorem before_total {β : Type} {P Q : β → Prop} {l : List β} (hd : ∀ x ∈ l, ¬ (P x ∧ Q x)) (hP : ∃ x ∈ l, P x) (hQ : ∃ x ∈ l, Q x) :
    Before P Q l ∨ Before Q P l := by
  induction l with
  | nil => simp at hP
  | cons z l ih =>
    by_cases hPz : P z
    · exact .inl ⟨[], z, l, rfl, hPz, fun h => hd z (by simp) ⟨hPz, h⟩, by simp⟩
    · by_cases hQz : Q z
      · exact .inr ⟨[], z, l, rfl, hQz, hPz, by simp⟩
      · have h1 : ∃ x ∈ l, P x := by
          obtain ⟨x, hx, hp⟩ := hP
          rcases List.mem_cons.1 hx with rfl | hx
          · exact absurd hp hPz
          · exact ⟨x, hx, hp⟩
        have h2 : ∃ x ∈ l, Q x := by
          obtain ⟨x, hx, hp⟩ := hQ
          rcases List.mem_cons.1 hx with rfl | hx
          · exact absurd hp hQz
          · exact ⟨x, hx, hp⟩
        rcases ih (fun x hx => hd x (by simp [hx])) h1 h2 with ⟨a, x, b, e, p, q, r⟩ | ⟨a, x, b, e, p, q, r⟩
        · refine .inl ⟨z :: a, x, b, by rw [e]; rfl, p, q, ?_⟩
          intro y hy
          rcases List.mem_cons.1 hy with rfl | hy
          · exact hQz
          · exact r y hy
        · refine .inr ⟨z :: a, x, b, by rw [e]; rfl, p, q, ?_⟩
          intro y hy
          rcases List.mem_cons.1 hy with rfl | hy
          · exact hPz
          · exact r y hy

theorem before_append {β : Type} {P Q : β → Prop} {l : List β} (l' : List β) (h : Before P Q l) : Before P Q (l ++ l') := by
  obtain ⟨a, x, b, e, p, q, r⟩ := h
  exact ⟨a, x, b ++ l', by rw [e]; simp, p, q, r⟩

theorem differ_symm {r r' c : List Str} {a b : Str} {ra rb : List Str} (h : Differ r r' c a ra b rb) : Differ r' r c b rb a ra := by
  obtain ⟨h1, h2, h3⟩ := h
  refine ⟨h2, h1, ?_⟩
  rcases h3 with h | ⟨h, h'⟩ | ⟨h, h'⟩
  · exact .inl (Ne.symm h)
  · exact .inr (.inr ⟨h', h⟩)
  · exact .inr (.inl ⟨h', h⟩)

/-- the first difference of two patterns is unique -/
theorem differ_unique {r r' : List Str} : ∀ {c c' : List Str} {a b : Str} {ra rb : List Str} {a' b' : Str} {ra' rb' : List Str},
    Differ r r' c a ra b rb → Differ r r' c' a' ra' b' rb' → c = c' ∧ a = a' ∧ ra = ra' ∧ b = b' ∧ rb = rb' := by
  intro c
  induction c generalizing r r' with
  | nil =>
    intro c' a b ra rb a' b' ra' rb' h h'
    obtain ⟨h1, h2, h3⟩ := h
    obtain ⟨h1', h2', h3'⟩ := h'
    cases c' with
    | nil =>
      rw [h1] at h1'; rw [h2] at h2'
      simp at h1' h2'
      exact ⟨rfl, h1'.1, h1'.2, h2'.1, h2'.2⟩
    | cons z c' =>
      rw [h1] at h1'; rw [h2] at h2'
      simp at h1' h2'
      rcases h3 with h | ⟨h, _⟩ | ⟨_, h⟩
      · exact absurd (h1'.1.trans h2'.1.symm) h
      · rw [h] at h1'; simp at h1'
      · rw [h] at h2'; simp at h2'
  | cons y c ih =>
    intro c' a b ra rb a' b' ra' rb' h h'
    obtain ⟨h1, h2, h3⟩ := h
    obtain ⟨h1', h2', h3'⟩ := h'
    cases c' with
    | nil =>
      rw [h1] at h1'; rw [h2] at h2'
      simp at h1' h2'
      rcases h3' with h | ⟨h, _⟩ | ⟨_, h⟩
      · exact absurd (h1'.1.symm.trans h2'.1) h
      · rw [h] at h1'; simp at h1'
      · rw [h] at h2'; simp at h2'
    | cons z c' =>
      rw [h1] at h1'; rw [h2] at h2'
      simp at h1' h2'
      obtain ⟨e1, e2, e3, e4, e5⟩ := ih (r := c ++ a :: ra) (r' := c ++ b :: rb) ⟨rfl, rfl, h3⟩ ⟨h1'.2, h2'.2, h3'⟩
      exact ⟨by rw [h1'.1, e1], e2, e3, e4, e5⟩

theorem wins_asymm {tbl : List (Entry α)} {k : Nat} {r r' : List Str} (h : Wins tbl k r r') : ¬ Wins tbl k r' r := by
  intro h'
  obtain ⟨c, a, ra, b, rb, hd, hw⟩ := h
  obtain ⟨c', b', rb', a', ra', hd', hw'⟩ := h'
  obtain ⟨rfl, rfl, rfl, rfl, rfl⟩ := differ_unique hd (differ_symm hd')
  rcases hw with ⟨h1, h2, h3⟩ | ⟨h1, h2, h3, h4⟩ | ⟨h1, h2, h3, h4⟩ | ⟨h1, h2, h3, h4, h5, h6⟩
  · rcases hw' with ⟨g1, g2, g3⟩ | ⟨g1, g2, g3, g4⟩ | ⟨g1, g2, g3, g4⟩ | ⟨g1, g2, g3, g4, g5, g6⟩
    · rcases h3 with h3 | ⟨h3, h4⟩ <;> rcases g3 with g3 | ⟨g3, g4⟩
      · omega
      · omega
      · omega
      · exact before_asymm h4 g4
    · exact h1 g2
    · exact h1 g2
    · exact h1 g2
  · rcases hw' with ⟨g1, g2, g3⟩ | ⟨g1, g2, g3, g4⟩ | ⟨g1, g2, g3, g4⟩ | ⟨g1, g2, g3, g4, g5, g6⟩
    · exact g1 h2
    · exact g1 h2
    · exact h1 g2
    · exact h1 g2
  · rcases hw' with ⟨g1, g2, g3⟩ | ⟨g1, g2, g3, g4⟩ | ⟨g1, g2, g3, g4⟩ | ⟨g1, g2, g3, g4, g5, g6⟩
    · exact g1 h2
    · exact g1 h2
    · rcases h4 with h4 | ⟨h4, h5⟩ <;> rcases g4 with g4 | ⟨g4, g5⟩
      · omega
      · omega
      · omega
      · exact before_asymm h5 g5
    · omega
  · rcases hw' with ⟨g1, g2, g3⟩ | ⟨g1, g2, g3, g4⟩ | ⟨g1, g2, g3, g4⟩ | ⟨g1, g2, g3, g4, g5, g6⟩
    · exact g1 h2
    · exact g1 h2
    · omega
    · exact before_asymm h6 g6

/-- `Wins` only looks at what comes first, so it survives later registrations -/
theorem wins_append {tbl : List (Entry α)} {k : Nat} {r r' : List Str} (l : List (Entry α)) (h : Wins tbl k r r') :
    Wins (tbl ++ l) k r r' := by
  obtain ⟨c, a, ra, b, rb, hd, hw⟩ := h
  refine ⟨c, a, ra, b, rb, hd, ?_⟩
  rcases hw with ⟨h1, h2, h3⟩ | ⟨h1, h2, h3, h4⟩ | ⟨h1, h2, h3, h4⟩ | ⟨h1, h2, h3, h4, h5, h6⟩
  · refine .inl ⟨h1, h2, ?_⟩
    rcases h3 with h3 | ⟨h3, h4⟩
    · exact .inl h3
    · exact .inr ⟨h3, before_append l h4⟩
  · exact .inr (.inl ⟨h1, h2, h3, h4⟩)
  · refine .inr (.inr (.inl ⟨h1, h2, h3, ?_⟩))
    rcases h4 with h4 | ⟨h4, h5⟩
    · exact .inl h4
    · exact .inr ⟨h4, before_append l h5⟩
  · exact .inr (.inr (.inr ⟨h1, h2, h3, h4, h5, before_append l h6⟩))

theorem firstHandlers_unique {tbl : List (Entry α)} {r : List Str} {h h' : List α} (h1 : FirstHandlers tbl r h)
    (h2 : FirstHandlers tbl r h') : h = h' := by
  obtain ⟨a1, x, a2, ha, hx, hh, hn⟩ := h1
  obtain ⟨b1, y, b2, hb, hy, hh', hn'⟩ := h2
  rw [ha] at hb
  rcases List.append_eq_append_iff.1 hb with ⟨d, h3, h4⟩ | ⟨d, h3, h4⟩
  · cases d with
    | nil => simp at h4; rw [← hh, ← hh', h4.1]
    | cons z d => simp at h4; subst h3; exact absurd hx (hn' x (by simp [h4.1]))
  · cases d with
    | nil => simp at h4; rw [← hh, ← hh', h4.1]
    | cons z d => simp at h4; subst h3; exact absurd hy (hn y (by simp [h4.1]))

theorem lastUri_unique {tbl : List (Entry α)} {r : List Str} {u u' : Str} (h1 : LastUri tbl r u) (h2 : LastUri tbl r u') : u = u' := by
  obtain ⟨a1, x, a2, ha, hx, hh, hn⟩ := h1
  obtain ⟨b1, y, b2, hb, hy, hh', hn'⟩ := h2
  rw [ha] at hb
  rcases List.append_eq_append_iff.1 hb with ⟨d, h3, h4⟩ | ⟨d, h3, h4⟩
  · cases d with
    | nil => simp at h4; rw [← hh, ← hh', h4.1]
    | cons z d => simp at h4; exact absurd hy (hn y (by rw [h4.2]; simp))
  · cases d with
    | nil => simp at h4; rw [← hh, ← hh', h4.1]
    | cons z d => simp at h4; exact absurd hx (hn' x (by rw [h4.2]; simp))

theorem best_unique {rx : Regex} {tbl : List (Entry α)} {ss r r' : List Str} (h : Best rx tbl ss r) (h' : Best rx tbl ss r') : r = r' := by
  obtain ⟨⟨x, hx, rfl⟩, ha, hb⟩ := h
  obtain ⟨⟨y, hy, rfl⟩, ha', hb'⟩ := h'
  rcases hb y hy ha' with h | h
  · exact h.symm
  · rcases hb' x hx ha with g | g
    · exact g
    · exact absurd g (wins_asymm h)

theorem firstHandlers_entry {tbl : List (Entry α)} {r : List Str} {h : List α} (hf : FirstHandlers tbl r h) : ∃ x ∈ tbl, x.segs = r := by
  obtain ⟨a1, x, a2, ha, hx, -⟩ := hf
  exact ⟨x, by rw [ha]; simp, hx⟩

theorem accepts_length {rx : Regex} {r ss : List Str} (h : Accepts rx r ss) : r.length ≤ ss.length := by
  induction h with
  | last _ => simp
  | rest _ => simp
  | cons _ _ ih => simpa using ih

theorem accepts_end {rx : Regex} {b : Str} : ∀ {c ss : List Str}, Accepts rx (c ++ [b]) ss →
    ss.length = c.length + 1 ∨ (c.length + 1 < ss.length ∧ kind b = .star) := by
  intro c
  induction c with
  | nil =>
    intro ss h
    cases h with
    | last _ => exact .inl rfl
    | rest h => exact .inr ⟨by simp, h⟩
  | cons z c ih =>
    intro ss h
    cases c with
    | nil =>
      cases h with
      | cons h1 h2 =>
        rcases ih (ss := _ :: _) (by simpa using h2) with h | ⟨h, h'⟩
        · exact .inl (by simpa using h)
        · exact .inr ⟨by simpa using h, h'⟩
    | cons y c =>
      cases h with
      | cons h1 h2 =>
        rcases ih (ss := _ :: _) (by simpa using h2) with h | ⟨h, h'⟩
        · exact .inl (by simpa using h)
        · exact .inr ⟨by simpa using h, h'⟩

theorem differ_exists : ∀ {r r' : List Str}, r ≠ [] → r' ≠ [] → r ≠ r' → ∃ c a ra b rb, Differ r r' c a ra b rb := by
  intro r
  induction r with
  | nil => intro r' h; exact absurd rfl h
  | cons a r ih =>
    intro r' _ h' hne
    cases r' with
    | nil => exact absurd rfl h'
    | cons b r' =>
      by_cases hab : a = b
      · subst hab
        by_cases hr : r = []
        · subst hr
          exact ⟨[], a, [], a, r', rfl, rfl, .inr (.inl ⟨rfl, fun h => hne (by rw [h])⟩)⟩
        · by_cases hr' : r' = []
          · subst hr'
            exact ⟨[], a, r, a, [], rfl, rfl, .inr (.inr ⟨hr, rfl⟩)⟩
          · obtain ⟨c, x, rx, y, ry, h1, h2, h3⟩ := ih hr hr' (fun h => hne (by rw [h]))
            exact ⟨a :: c, x, rx, y, ry, by rw [h1]; rfl, by rw [h2]; rfl, h3⟩
      · exact ⟨[], a, r, b, r', rfl, rfl, .inl hab⟩

theorem wins_total {rx : Regex} {tbl : List (Entry α)} {ss r r' : List Str} (hr : ∃ x ∈ tbl, x.segs = r) (hr' : ∃ x ∈ tbl, x.segs = r')
    (ha : Accepts rx r ss) (ha' : Accepts rx r' ss) (hne : r ≠ r') : Wins tbl ss.length r r' ∨ Wins tbl ss.length r' r := by
  obtain ⟨c, a, ra, b, rb, hd⟩ := differ_exists (accepts_ne_nil ha).1 (accepts_ne_nil ha').1 hne
  have hd' := differ_symm hd
  obtain ⟨h1, h2, h3⟩ := hd
  by_cases hra : ra = []
  · by_cases hrb : rb = []
    · subst hra hrb
      rcases accepts_end (h1 ▸ ha) with hk | ⟨hk, hka⟩
      · rcases Nat.lt_trichotomy (kind a).rank (kind b).rank with hl | hl | hl
        · exact .inl ⟨c, a, [], b, [], ⟨h1, h2, h3⟩, .inr (.inr (.inl ⟨rfl, rfl, hk, .inl hl⟩))⟩
        · rcases before_total (P := fun e : Entry α => e.segs = r) (Q := fun e => e.segs = r') (l := tbl)
            (fun x _ h => hne (h.1.symm.trans h.2)) hr hr' with hb | hb
          · exact .inl ⟨c, a, [], b, [], ⟨h1, h2, h3⟩, .inr (.inr (.inl ⟨rfl, rfl, hk, .inr ⟨hl, hb⟩⟩))⟩
          · exact .inr ⟨c, b, [], a, [], hd', .inr (.inr (.inl ⟨rfl, rfl, hk, .inr ⟨hl.symm, hb⟩⟩))⟩
        · exact .inr ⟨c, b, [], a, [], hd', .inr (.inr (.inl ⟨rfl, rfl, hk, .inl hl⟩))⟩
      · rcases accepts_end (h2 ▸ ha') with hk' | ⟨_, hkb⟩
        · omega
        · rcases before_total (P := fun e : Entry α => e.segs = r) (Q := fun e => e.segs = r') (l := tbl)
            (fun x _ h => hne (h.1.symm.trans h.2)) hr hr' with hb | hb
          · exact .inr ⟨c, b, [], a, [], hd', .inr (.inr (.inr ⟨rfl, rfl, hk, hkb, hka, hb⟩))⟩
          · exact .inl ⟨c, a, [], b, [], ⟨h1, h2, h3⟩, .inr (.inr (.inr ⟨rfl, rfl, hk, hka, hkb, hb⟩))⟩
    · subst hra
      have hl := accepts_length ha'
      have hp : 0 < rb.length := List.length_pos_iff.2 hrb
      rw [h2, List.length_append, List.length_cons] at hl
      rcases accepts_end (h1 ▸ ha) with hk | ⟨hk, hka⟩
      · omega
      · exact .inr ⟨c, b, rb, a, [], hd', .inr (.inl ⟨hrb, rfl, hka, hk⟩)⟩
  · by_cases hrb : rb = []
    · subst hrb
      have hl := accepts_length ha
      have hp : 0 < ra.length := List.length_pos_iff.2 hra
      rw [h1, List.length_append, List.length_cons] at hl
      rcases accepts_end (h2 ▸ ha') with hk | ⟨hk, hkb⟩
      · omega
      · exact .inl ⟨c, a, ra, b, [], ⟨h1, h2, h3⟩, .inr (.inl ⟨hra, rfl, hkb, hk⟩)⟩
    · have hab : a ≠ b := by
        rcases h3 with h | ⟨h, _⟩ | ⟨_, h⟩
        · exact h
        · exact absurd h hra
        · exact absurd h hrb
      rcases Nat.lt_trichotomy (kind a).rank (kind b).rank with hl | hl | hl
      · exact .inl ⟨c, a, ra, b, rb, ⟨h1, h2, h3⟩, .inl ⟨hra, hrb, .inl hl⟩⟩
      · have hT : ∀ {q : List Str} {z : Str} {rz : List Str}, (∃ x ∈ tbl, x.segs = q) → q = c ++ z :: rz → rz ≠ [] →
            ∃ x ∈ tbl, Through (c ++ [z]) x := by
          rintro q z rz ⟨x, hx, rfl⟩ hq hz
          cases rz with
          | nil => exact absurd rfl hz
          | cons y rz => exact ⟨x, hx, y, rz, by rw [hq]; simp⟩
        rcases before_total (P := Through (c ++ [a])) (Q := Through (c ++ [b])) (l := tbl) (by
            rintro x _ ⟨⟨q, t, e1⟩, q', t', e2⟩
            rw [e1] at e2
            simp at e2
            exact hab e2.1) (hT hr h1 hra) (hT hr' h2 hrb) with hb | hb
        · exact .inl ⟨c, a, ra, b, rb, ⟨h1, h2, h3⟩, .inl ⟨hra, hrb, .inr ⟨hl, hb⟩⟩⟩
        · exact .inr ⟨c, b, rb, a, ra, hd', .inl ⟨hrb, hra, .inr ⟨hl.symm, hb⟩⟩⟩
      · exact .inr ⟨c, b, rb, a, ra, hd', .inl ⟨hrb, hra, .inl hl⟩⟩

/-- the clauses of `Wins` at a given first difference -/
def WinsAt (tbl : List (Entry α)) (k : Nat) (r r' c : List Str) (a : Str) (ra : List Str) (b : Str) (rb : List Str) : Prop :=
  (ra ≠ [] ∧ rb ≠ [] ∧ ((kind a).rank < (kind b).rank ∨
      ((kind a).rank = (kind b).rank ∧ Before (Through (c ++ [a])) (Through (c ++ [b])) tbl))) ∨
  (ra ≠ [] ∧ rb = [] ∧ kind b = .star ∧ c.length + 1 < k) ∨
  (ra = [] ∧ rb = [] ∧ k = c.length + 1 ∧ ((kind a).rank < (kind b).rank ∨
      ((kind a).rank = (kind b).rank ∧ Before (fun e => e.segs = r) (fun e => e.segs = r') tbl))) ∨
  (ra = [] ∧ rb = [] ∧ c.length + 1 < k ∧ kind a = .star ∧ kind b = .star ∧
      Before (fun e => e.segs = r') (fun e => e.segs = r) tbl)

theorem wins_trans_same {tbl : List (Entry α)} {k : Nat} {r1 r2 r3 c : List Str} {a b d : Str} {ra rb rd : List Str} (hne : r1 ≠ r3)
    (hd : Differ r1 r2 c a ra b rb) (hw : WinsAt tbl k r1 r2 c a ra b rb) (hd' : Differ r2 r3 c b rb d rd)
    (hw' : WinsAt tbl k r2 r3 c b rb d rd) : Wins tbl k r1 r3 := by
  obtain ⟨h1, h2, h3⟩ := hd
  obtain ⟨g1, g2, g3⟩ := hd'
  have hdif : Differ r1 r3 c a ra d rd := by
    refine ⟨h1, g2, ?_⟩
    by_cases had : a = d
    · subst had
      by_cases hra : ra = []
      · by_cases hrd : rd = []
        · exact absurd (by rw [h1, g2, hra, hrd]) hne
        · exact .inr (.inl ⟨hra, hrd⟩)
      · by_cases hrd : rd = []
        · exact .inr (.inr ⟨hra, hrd⟩)
        · exfalso
          rcases hw with ⟨p1, p2, p3⟩ | ⟨p1, p2, p3, p4⟩ | ⟨p1, p2, p3, p4⟩ | ⟨p1, p2, p3, p4, p5, p6⟩
          · rcases hw' with ⟨q1, q2, q3⟩ | ⟨q1, q2, q3, q4⟩ | ⟨q1, q2, q3, q4⟩ | ⟨q1, q2, q3, q4, q5, q6⟩
            · rcases p3 with p3 | ⟨p3, p4⟩ <;> rcases q3 with q3 | ⟨q3, q4⟩
              · omega
              · omega
              · omega
              · exact before_asymm p4 q4
            · exact hrd q2
            · exact hrd q2
            · exact hrd q2
          · rcases hw' with ⟨q1, q2, q3⟩ | ⟨q1, q2, q3, q4⟩ | ⟨q1, q2, q3, q4⟩ | ⟨q1, q2, q3, q4, q5, q6⟩
            · exact q1 p2
            · exact q1 p2
            · exact hrd q2
            · exact hrd q2
          · exact hra p1
          · exact hra p1
    · exact .inl had
  refine ⟨c, a, ra, d, rd, hdif, ?_⟩
  rcases hw with ⟨p1, p2, p3⟩ | ⟨p1, p2, p3, p4⟩ | ⟨p1, p2, p3, p4⟩ | ⟨p1, p2, p3, p4, p5, p6⟩
  · rcases hw' with ⟨q1, q2, q3⟩ | ⟨q1, q2, q3, q4⟩ | ⟨q1, q2, q3, q4⟩ | ⟨q1, q2, q3, q4, q5, q6⟩
    · refine .inl ⟨p1, q2, ?_⟩
      rcases p3 with p3 | ⟨p3, p4⟩ <;> rcases q3 with q3 | ⟨q3, q4⟩
      · exact .inl (by omega)
      · exact .inl (by omega)
      · exact .inl (by omega)
      · exact .inr ⟨by omega, before_trans p4 q4⟩
    · exact .inr (.inl ⟨p1, q2, q3, q4⟩)
    · exact absurd q1 p2
    · exact absurd q1 p2
  · rcases hw' with ⟨q1, q2, q3⟩ | ⟨q1, q2, q3, q4⟩ | ⟨q1, q2, q3, q4⟩ | ⟨q1, q2, q3, q4, q5, q6⟩
    · exact absurd p2 q1
    · exact absurd p2 q1
    · omega
    · exact .inr (.inl ⟨p1, q2, q5, p4⟩)
  · rcases hw' with ⟨q1, q2, q3⟩ | ⟨q1, q2, q3, q4⟩ | ⟨q1, q2, q3, q4⟩ | ⟨q1, q2, q3, q4, q5, q6⟩
    · exact absurd p2 q1
    · exact absurd p2 q1
    · refine .inr (.inr (.inl ⟨p1, q2, p3, ?_⟩))
      rcases p4 with p4 | ⟨p4, p5⟩ <;> rcases q4 with q4 | ⟨q4, q5⟩
      · exact .inl (by omega)
      · exact .inl (by omega)
      · exact .inl (by omega)
      · exact .inr ⟨by omega, before_trans p5 q5⟩
    · omega
  · rcases hw' with ⟨q1, q2, q3⟩ | ⟨q1, q2, q3, q4⟩ | ⟨q1, q2, q3, q4⟩ | ⟨q1, q2, q3, q4, q5, q6⟩
    · exact absurd p2 q1
    · exact absurd p2 q1
    · omega
    · exact .inr (.inr (.inr ⟨p1, q2, p3, p4, q5, before_trans q6 p6⟩))

theorem wins_trans {tbl : List (Entry α)} {k : Nat} {r1 r2 r3 : List Str} (h : Wins tbl k r1 r2) (h' : Wins tbl k r2 r3) :
    Wins tbl k r1 r3 := by
  have hne : r1 ≠ r3 := fun e => wins_asymm h (e ▸ h')
  obtain ⟨c, a, ra, b, rb, ⟨h1, h2, h3⟩, hw⟩ := h
  obtain ⟨c', b', rb', d, rd, ⟨g1, g2, g3⟩, hw'⟩ := h'
  have hcut : c ++ b :: rb = c' ++ b' :: rb' := h2.symm.trans g1
  rcases List.append_eq_append_iff.1 hcut with ⟨z, e1, e2⟩ | ⟨z, e1, e2⟩
  · cases z with
    | nil =>
      simp at e1 e2
      obtain ⟨rfl, rfl⟩ := e2
      subst e1
      exact wins_trans_same hne ⟨h1, h2, h3⟩ hw ⟨g1, g2, g3⟩ hw'
    | cons y z =>
      simp at e2
      obtain ⟨rfl, e2⟩ := e2
      subst e1
      have hrb : rb ≠ [] := by rw [e2]; simp
      refine ⟨c, a, ra, b, z ++ d :: rd, ⟨h1, by rw [g2]; simp, ?_⟩, ?_⟩
      · rcases h3 with h | ⟨h, _⟩ | ⟨_, h⟩
        · exact .inl h
        · exact .inr (.inl ⟨h, by simp⟩)
        · exact absurd h hrb
      · rcases hw with ⟨p1, p2, p3⟩ | ⟨p1, p2, p3, p4⟩ | ⟨p1, p2, p3, p4⟩ | ⟨p1, p2, p3, p4, p5, p6⟩
        · exact .inl ⟨p1, by simp, p3⟩
        · exact absurd p2 hrb
        · exact absurd p2 hrb
        · exact absurd p2 hrb
  · cases z with
    | nil =>
      simp at e1 e2
      obtain ⟨rfl, rfl⟩ := e2
      subst e1
      exact wins_trans_same hne ⟨h1, h2, h3⟩ hw ⟨g1, g2, g3⟩ hw'
    | cons y z =>
      simp at e2
      obtain ⟨rfl, e2⟩ := e2
      subst e1
      have hrb : rb' ≠ [] := by rw [e2]; simp
      refine ⟨c', b', z ++ a :: ra, d, rd, ⟨by rw [h1]; simp, g2, ?_⟩, ?_⟩
      · rcases g3 with h | ⟨h, _⟩ | ⟨_, h⟩
        · exact .inl h
        · exact absurd h hrb
        · exact .inr (.inr ⟨by simp, h⟩)
      · rcases hw' with ⟨p1, p2, p3⟩ | ⟨p1, p2, p3, p4⟩ | ⟨p1, p2, p3, p4⟩ | ⟨p1, p2, p3, p4, p5, p6⟩
        · exact .inl ⟨by simp, p2, p3⟩
        · exact .inr (.inl ⟨by simp, p2, p3, p4⟩)
        · exact absurd p1 hrb
        · exact absurd p1 hrb

end Water
