import Verif.Lemmas.Text
import Verif.Lemmas.Strconv
/-
Lemmas on cookie lines.
-/
namespace Water
open Spec

theorem token_iff {s : Str} : cookieNameValid s = true ↔ Token s := by
  unfold cookieNameValid Token
  simp [List.all_eq_true, valid_iff]

theorem valueByte_iff (c : UInt8) : cookieValueByte c = true ↔ ValueByte c := by
  unfold cookieValueByte ValueByte
  refine all_bytes (P := fun c => (0x20 ≤ c && c < 0x7f && c != 34 && c != 59 && c != 92) = true ↔
    (32 ≤ c ∧ c ≤ 126 ∧ c ≠ 34 ∧ c ≠ 59 ∧ c ≠ 92)) ?_ c
  decide +kernel

theorem pathByte_iff (c : UInt8) : cookiePathByte c = true ↔ PathByte c := by
  unfold cookiePathByte PathByte
  refine all_bytes (P := fun c => (0x20 ≤ c && c < 0x7f && c != 59) = true ↔ (32 ≤ c ∧ c ≤ 126 ∧ c ≠ 59)) ?_ c
  decide +kernel

theorem token_byte : ∀ c : UInt8, c ∈ tokenBytes → NonSpace c ∧ c ≠ 59 ∧ c ≠ 61 ∧ c ≠ 34 ∧ c ≠ 44 := by
  refine all_bytes ?_
  unfold NonSpace
  decide +kernel

theorem value_byte : ∀ c : UInt8, cookieValueByte c = true → c ≠ 59 ∧ c ≠ 34 ∧ (c ≠ 32 → NonSpace c) := by
  refine all_bytes ?_
  unfold NonSpace
  decide +kernel

theorem filter_valid {s : Str} (h : ∀ c ∈ s, ValueByte c) : s.filter cookieValueByte = s :=
  List.filter_eq_self.2 (fun c hc => (valueByte_iff c).2 (h c hc))

/-- what is left of a value -/
theorem sanitizeValue_eq (v : Str) : sanitizeValue v = wire (v.filter cookieValueByte) := by
  unfold sanitizeValue wire
  dsimp only
  split
  · rename_i h
    have : v.filter cookieValueByte = [] := List.isEmpty_iff.1 h
    rw [this]; rfl
  · simp only [List.contains_iff_mem, Bool.or_eq_true]

theorem wire_no_semi {v : Str} (h : 59 ∉ v) : 59 ∉ wire v := by
  unfold wire
  split
  · simp [h]
  · exact h

theorem filter_no_semi (v : Str) : 59 ∉ v.filter cookieValueByte := by
  intro h
  have := (List.mem_filter.1 h).2
  exact absurd this (by decide)

theorem sanitizePath_no_semi (v : Str) : 59 ∉ sanitizePath v := by
  intro h
  have := (List.mem_filter.1 h).2
  exact absurd this (by decide)

theorem domainLoop_no_semi {last : UInt8} {ok : Bool} {len : Nat} {s : Str} (h : domainLoop last ok len s = true) : 59 ∉ s := by
  induction s generalizing last ok len with
  | nil => simp
  | cons c cs ih =>
    unfold domainLoop at h
    have : c ≠ 59 := by
      rintro rfl
      simp at h
    simp only [List.mem_cons, not_or]
    refine ⟨fun h => this h.symm, ?_⟩
    split at h
    · exact ih h
    · split at h
      · exact ih h
      · split at h
        · split at h
          · cases h
          · exact ih h
        · split at h
          · split at h
            · cases h
            · split at h
              · cases h
              · exact ih h
          · cases h

theorem domainName_no_semi {s : Str} (h : cookieDomainName s = true) : 59 ∉ s := by
  unfold cookieDomainName at h
  split at h
  · cases h
  · dsimp only at h
    have := domainLoop_no_semi h
    split at this
    · rename_i hd
      cases s with
      | nil => cases hd
      | cons c cs =>
        simp at hd
        subst hd
        simpa using this
    · exact this

theorem itoa_no_semi (i : Int) : 59 ∉ itoa i := by
  have h := itoa_signed i
  have hd : ∀ {s : Str}, Numeral s → 59 ∉ s := by
    intro s hs hm
    have := hs.2 59 hm
    exact absurd this (by unfold IsDigit; decide)
  unfold itoa
  split
  · intro hm
    rcases List.mem_cons.1 hm with hm | hm
    · exact absurd hm (by decide)
    · exact hd (itoaNat_spec _).1 hm
  · exact hd (itoaNat_spec _).1

/-- attributes joined by semicolons -/
theorem join_semi (x : Str) (l : List Str) : join [59] (x :: l) = x ++ l.flatMap (fun p => 59 :: p) := by
  induction l generalizing x with
  | nil => simp [join]
  | cons y ys ih =>
    rw [join_cons_ne (by simp), ih]
    simp

/-! ### domains -/

/-- a byte of a label -/
def labelBytes : Str := smallLetters ++ capitalLetters ++ decimals ++ b!"-"

theorem label_cases : ∀ c : UInt8,
    (((97 ≤ c && c ≤ 122) || (65 ≤ c && c ≤ 90)) = true ↔ c ∈ smallLetters ++ capitalLetters) ∧
    ((48 ≤ c && c ≤ 57) = true ↔ c ∈ decimals) ∧
    (c ∈ labelBytes ↔ c ∈ smallLetters ++ capitalLetters ∨ c ∈ decimals ∨ c = 45) ∧
    (c ∈ smallLetters ++ capitalLetters → c ≠ 45) ∧ (c ∈ decimals → c ≠ 45) ∧
    (c ∈ smallLetters ++ capitalLetters → c ∉ decimals) ∧ (c ∈ labelBytes → c ≠ 46) := by
  refine all_bytes ?_; decide +kernel

theorem labels_bytes {s : Str} (h : Labels s) : ∀ c ∈ s, c ∈ labelBytes ∨ c = 46 := by
  induction h with
  | last h => exact fun c hc => .inl (h.2.1 c hc)
  | cons h _ _ ih =>
    intro c hc
    rcases List.mem_append.1 hc with hc | hc
    · exact .inl (h.2.1 c hc)
    · rcases List.mem_cons.1 hc with rfl | hc
      · exact .inr rfl
      · exact ih c hc

theorem hostLabel_no_dot {l : Str} (h : HostLabel l) : 46 ∉ l :=
  fun hc => (label_cases 46).2.2.2.2.2.2 (h.2.1 _ hc) rfl

theorem labels_last {p : Str} (hp : 46 ∉ p) : Labels p ↔ HostLabel p := by
  constructor
  · intro h
    cases h with
    | last h => exact h
    | cons => exact absurd (by simp) hp
  · exact .last

theorem labels_dot {p s : Str} (hp : 46 ∉ p) : Labels (p ++ 46 :: s) ↔ p ≠ [] ∧ HostLabel p ∧ Labels s := by
  constructor
  · intro h
    generalize he : p ++ 46 :: s = t at h
    cases h with
    | last h => exact absurd (by rw [← he]; simp) (hostLabel_no_dot h)
    | @cons l rest h1 h2 h3 =>
      have : p = l ∧ s = rest := by
        have hl := hostLabel_no_dot h1
        clear h1 h2 h3
        induction p generalizing l with
        | nil =>
          cases l with
          | nil => simpa using he
          | cons c l =>
            injection he with h1; subst h1; simp at hl
        | cons d p ih =>
          cases l with
          | nil => injection he with h1; subst h1; simp at hp
          | cons c l =>
            injection he with h1 h2
            have := ih (fun h => hp (by simp [h])) h2 (fun h => hl (by simp [h]))
            rw [h1, this.1]; exact ⟨rfl, this.2⟩
      obtain ⟨rfl, rfl⟩ := this
      exact ⟨h2, h1, h3⟩
  · rintro ⟨h1, h2, h3⟩
    exact .cons h2 h1 h3

theorem domainLoop_iff (cs : Str) : ∀ (last : UInt8) (ok : Bool) (p : Str), (∀ c ∈ p, c ∈ labelBytes) → p.head? ≠ some 45 →
    (p = [] → last = 46) → (p ≠ [] → p.getLast? = some last) →
    (domainLoop last ok p.length cs = true ↔ (ok = true ∨ ∃ c ∈ cs, c ∈ smallLetters ++ capitalLetters) ∧ Labels (p ++ cs)) := by
  induction cs with
  | nil =>
    intro last ok p hb hh h0 h1
    have hdot : 46 ∉ p := fun h => (label_cases 46).2.2.2.2.2.2 (hb _ h) rfl
    rw [List.append_nil, labels_last hdot]
    simp only [domainLoop, Bool.and_eq_true, bne_iff_ne, ne_eq, decide_eq_true_eq, List.not_mem_nil, false_and, exists_false, or_false]
    have hl : last ≠ 45 ↔ p.getLast? ≠ some 45 := by
      by_cases hp : p = []
      · rw [h0 hp, hp]; simp
      · rw [h1 hp]; simp
    constructor
    · rintro ⟨⟨a, b⟩, c⟩; exact ⟨c, b, hb, hh, hl.1 a⟩
    · rintro ⟨c, h⟩; exact ⟨⟨hl.2 h.2.2.2, h.1⟩, c⟩
  | cons c cs ih =>
    intro last ok p hb hh h0 h1
    have hdot : 46 ∉ p := fun h => (label_cases 46).2.2.2.2.2.2 (hb _ h) rfl
    obtain ⟨l1, l2, l3, l4, l5, l6, l7⟩ := label_cases c
    have step : ∀ ok', c ∈ labelBytes → (p = [] → c ≠ 45) →
        (domainLoop c ok' (p.length + 1) cs = true ↔
          (ok' = true ∨ ∃ c ∈ cs, c ∈ smallLetters ++ capitalLetters) ∧ Labels (p ++ c :: cs)) := by
      intro ok' hc hd
      have := ih c ok' (p ++ [c]) (by
        intro x hx
        rcases List.mem_append.1 hx with hx | hx
        · exact hb x hx
        · simp at hx; rw [hx]; exact hc) (by
        cases p with
        | nil => simpa using hd rfl
        | cons x p => simpa using hh) (by simp) (by simp)
      rw [List.length_append, List.length_singleton, List.append_assoc] at this
      exact this
    have lastdot : p ≠ [] → last ≠ 46 := by
      intro hp he
      have := h1 hp
      rw [he] at this
      exact hdot (List.mem_of_getLast? this)
    unfold domainLoop
    by_cases hc1 : ((97 ≤ c && c ≤ 122) || (65 ≤ c && c ≤ 90)) = true
    · rw [if_pos hc1, step true (l3.2 (.inl (l1.1 hc1))) (fun _ => l4 (l1.1 hc1))]
      refine and_congr_left (fun _ => ?_)
      exact ⟨fun _ => .inr ⟨c, by simp, l1.1 hc1⟩, fun _ => .inl rfl⟩
    · rw [if_neg hc1]
      have nl : c ∉ smallLetters ++ capitalLetters := fun h => hc1 (l1.2 h)
      have hex : (∃ x ∈ c :: cs, x ∈ smallLetters ++ capitalLetters) ↔ ∃ x ∈ cs, x ∈ smallLetters ++ capitalLetters := by
        constructor
        · rintro ⟨x, hx, h⟩
          rcases List.mem_cons.1 hx with rfl | hx
          · exact absurd h nl
          · exact ⟨x, hx, h⟩
        · rintro ⟨x, hx, h⟩; exact ⟨x, by simp [hx], h⟩
      rw [hex]
      by_cases hc2 : (48 ≤ c && c ≤ 57) = true
      · rw [if_pos hc2]
        exact step ok (l3.2 (.inr (.inl (l2.1 hc2)))) (fun _ => l5 (l2.1 hc2))
      · rw [if_neg hc2]
        by_cases hc3 : c = 45
        · rw [if_pos hc3]
          by_cases hl : last = 46
          · rw [if_pos hl]
            have hp : p = [] := Classical.byContradiction (fun hp => lastdot hp hl)
            subst hp; subst hc3
            simp only [Bool.false_eq_true, false_iff, not_and, List.nil_append]
            rintro - h
            generalize he : (45 :: cs : Str) = t at h
            cases h with
            | last h => rw [← he] at h; exact h.2.2.1 rfl
            | @cons l rest h h' _ =>
              cases l with
              | nil => exact h' rfl
              | cons x l => injection he with he; rw [← he] at h; exact h.2.2.1 rfl
          · rw [if_neg hl]
            exact step ok (l3.2 (.inr (.inr hc3))) (fun hp => absurd (h0 hp) hl)
        · rw [if_neg hc3]
          by_cases hc4 : c = 46
          · subst hc4
            rw [if_pos rfl, labels_dot hdot]
            by_cases hl : last = 46 ∨ last = 45
            · rw [if_pos hl]
              simp only [Bool.false_eq_true, false_iff, not_and]
              intro _ hp hlab
              rcases hl with hl | hl
              · exact absurd hl (lastdot hp)
              · have := h1 hp; rw [hl] at this; exact absurd this hlab.2.2.2
            · rw [if_neg hl]
              by_cases hlen : p.length > 63 ∨ p.length = 0
              · rw [if_pos hlen]
                simp only [Bool.false_eq_true, false_iff, not_and]
                intro _ hp hlab
                rcases hlen with h | h
                · have := hlab.1; omega
                · exact absurd (List.length_eq_zero_iff.1 h) hp
              · rw [if_neg hlen]
                have hp : p ≠ [] := fun h => hlen (.inr (by rw [h]; rfl))
                have hlab : HostLabel p := ⟨by omega, hb, hh, by rw [h1 hp]; simpa using fun h => hl (.inr h)⟩
                have := ih 46 ok [] (by simp) (by simp) (fun _ => rfl) (fun h => absurd rfl h)
                rw [List.length_nil, List.nil_append] at this
                rw [this]
                exact and_congr_right (fun _ => ⟨fun h => ⟨hp, hlab, h⟩, fun h => h.2.2⟩)
          · rw [if_neg hc4]
            simp only [Bool.false_eq_true, false_iff, not_and]
            intro _ h
            rcases labels_bytes h c (by simp) with h | h
            · rcases l3.1 h with h | h | h
              · exact nl h
              · exact hc2 (l2.2 h)
              · exact hc3 h
            · exact hc4 h

theorem domainName_iff (d : Str) : cookieDomainName d = true ↔ DomainName d := by
  unfold cookieDomainName DomainName
  by_cases h : d.length = 0 ∨ d.length > 255
  · rw [if_pos h]
    simp only [Bool.false_eq_true, false_iff]
    rintro ⟨h1, h2, -⟩
    rcases h with h | h
    · exact h1 (List.length_eq_zero_iff.1 h)
    · omega
  · rw [if_neg h]
    have hne : d ≠ [] := fun hd => h (.inl (by rw [hd]; rfl))
    have hle : d.length ≤ 255 := by omega
    have key : ∀ e : Str, domainLoop 46 false 0 e = true ↔ Labels e ∧ ∃ c ∈ e, c ∈ smallLetters ++ capitalLetters := by
      intro e
      have := domainLoop_iff e 46 false [] (by simp) (by simp) (fun _ => rfl) (fun h => absurd rfl h)
      rw [List.length_nil, List.nil_append] at this
      rw [this]
      simp [and_comm]
    simp only [key]
    by_cases hd : d.head? = some 46
    · rw [if_pos hd]
      obtain ⟨e, rfl⟩ : ∃ e, d = 46 :: e := by
        cases d with
        | nil => cases hd
        | cons x e => injection hd with hd; exact ⟨e, by rw [hd]⟩
      refine ⟨fun h => ⟨hne, hle, e, .inl rfl, by simpa using h⟩, ?_⟩
      rintro ⟨-, -, e', h | ⟨rfl, h⟩, h2⟩
      · injection h with _ h; subst h; simpa using h2
      · exact absurd rfl h
    · rw [if_neg hd]
      refine ⟨fun h => ⟨hne, hle, d, .inr ⟨rfl, hd⟩, h⟩, ?_⟩
      rintro ⟨-, -, e', rfl | ⟨rfl, h⟩, h2⟩
      · exact absurd rfl hd
      · exact h2

theorem domainValid_eq {ip ok : Str → Bool} (h : ∀ d, ok d = true ↔ DomainName d ∨ ip d = true) : ok = cookieDomainValid ip := by
  funext d
  rw [Bool.eq_iff_iff, h, cookieDomainValid, Bool.or_eq_true, domainName_iff]

/-! ### reading cookies back -/

/-- what a client sends back for a cookie it was given -/
def sendBack (c : Str × Str) : Str := c.1 ++ [61] ++ wire c.2

theorem wire_parse {v : Str} (h : ∀ c ∈ v, ValueByte c) : parseCookieValue (wire v) = some v := by
  have hall : v.all cookieValueByte = true := List.all_eq_true.2 (fun c hc => (valueByte_iff c).2 (h c hc))
  unfold wire parseCookieValue
  split
  · have h1 : ([34] ++ v ++ [34]).length > 1 ∧ ([34] ++ v ++ [34]).head? = some 34 ∧
        ([34] ++ v ++ [34]).getLast? = some 34 := by
      rw [List.getLast?_append]; simp
    simp only [if_pos h1]
    have : (([34] ++ v ++ [34] : Str).drop 1).dropLast = v := by simp
    rw [this, if_pos hall]
  · have h1 : ¬ (v.length > 1 ∧ v.head? = some 34 ∧ v.getLast? = some 34) := by
      rintro ⟨_, h2, _⟩
      exact (h 34 (List.mem_of_head? h2)).2.2.1 rfl
    simp only [if_neg h1, if_pos hall]

theorem sendBack_ends {c : Str × Str} (hn : Token c.1) (hv : ∀ x ∈ c.2, ValueByte x) :
    (∀ x, (sendBack c).head? = some x → NonSpace x) ∧ (∀ x, (sendBack c).getLast? = some x → NonSpace x) := by
  obtain ⟨n, v⟩ := c
  refine ⟨?_, ?_⟩
  · intro x hx
    cases n with
    | nil => exact absurd rfl hn.1
    | cons y ys =>
      simp [sendBack] at hx
      subst hx
      exact (token_byte _ (hn.2 _ List.mem_cons_self)).1
  · intro x hx
    unfold sendBack wire at hx
    split at hx
    · rw [← List.append_assoc, List.getLast?_append] at hx
      simp at hx
      subst hx
      unfold NonSpace; decide
    · rename_i hs
      rw [List.getLast?_append] at hx
      cases hl : v.getLast? with
      | none =>
        rw [hl] at hx
        simp at hx
        subst hx
        unfold NonSpace; decide
      | some y =>
        rw [hl] at hx
        simp at hx
        subst hx
        have hm := List.mem_of_getLast? hl
        exact (value_byte _ ((valueByte_iff _).2 (hv _ hm))).2.2 (fun h => hs (Or.inl (h ▸ hm)))

theorem sendBack_no_semi {c : Str × Str} (hn : Token c.1) (hv : ∀ x ∈ c.2, ValueByte x) : 59 ∉ sendBack c := by
  unfold sendBack
  simp only [List.mem_append, not_or]
  refine ⟨⟨?_, by decide⟩, wire_no_semi (fun h => (hv _ h).2.2.2.1 rfl)⟩
  intro h
  exact (token_byte _ (hn.2 _ h)).2.1 rfl

theorem sendBack_ne (c : Str × Str) : sendBack c ≠ [] := by simp [sendBack]

theorem trimLeft_space {s : Str} (h : ∀ c, s.head? = some c → NonSpace c) : trimLeft (32 :: s) = s := by
  have h1 : trimLeft s = s := by
    cases s with
    | nil => rfl
    | cons c cs => exact trimLeft_head (h c rfl) rfl
  have h2 : trimLeft (32 :: s) = trimLeft s := by
    unfold trimLeft
    rw [show (32 :: s).length = s.length + 1 from rfl, stripF]
    have : (spaceEnc.find? (fun e => e.isPrefixOf (32 :: s))) = some [32] := by
      unfold spaceEnc
      simp
    rw [this]
    rfl
  rw [h2, h1]

/-- a leading space does not matter -/
theorem trimSpace_lead {s lead : Str} (hl : lead = [] ∨ lead = [32]) (h1 : ∀ c, s.head? = some c → NonSpace c)
    (h2 : ∀ c, s.getLast? = some c → NonSpace c) : trimSpace (lead ++ s) = s := by
  rcases hl with rfl | rfl
  · exact trimSpace_ends h1 h2
  · show trimRight (trimLeft (32 :: s)) = s
    rw [trimLeft_space h1]
    have h3 := trimSpace_ends h1 h2
    unfold trimSpace at h3
    have h4 : trimLeft s = s := by
      cases s with
      | nil => rfl
      | cons c cs => exact trimLeft_head (h1 c rfl) rfl
    rwa [h4] at h3

theorem cookiePart_sendBack {c : Str × Str} {lead : Str} (hl : lead = [] ∨ lead = [32]) (hn : Token c.1)
    (hv : ∀ x ∈ c.2, ValueByte x) : cookiePart (lead ++ sendBack c) = some c := by
  obtain ⟨h1, h2⟩ := sendBack_ends hn hv
  unfold cookiePart
  dsimp only
  rw [trimSpace_lead hl h1 h2, if_neg (sendBack_ne c)]
  have hi : indexByte (sendBack c) 61 = some c.1.length := by
    unfold sendBack
    rw [List.append_assoc]
    exact indexByte_append (fun h => (token_byte _ (hn.2 _ h)).2.2.1 rfl)
  rw [hi]
  dsimp only
  have ht : (sendBack c).take c.1.length = c.1 := by simp [sendBack]
  have hd : (sendBack c).drop (c.1.length + 1) = wire c.2 := by
    simp [sendBack, List.drop_append]
  simp only [ht, hd, wire_parse hv, token_iff.2 hn]
  rfl

/-- the Cookie line of a client that has these cookies -/
def cookieHeader (cs : List (Str × Str)) : Str := join b!"; " (cs.map sendBack)

theorem cookieLine_all {cs : List (Str × Str)} (hn : ∀ c ∈ cs, Token c.1) (hv : ∀ c ∈ cs, ∀ x ∈ c.2, ValueByte x) :
    ∀ (f : Nat) (lead : Str), cs.length < f → (lead = [] ∨ (lead = [32] ∧ cs ≠ [])) →
      cookieLine f (lead ++ cookieHeader cs) = cs := by
  induction cs with
  | nil =>
    intro f lead hf hl
    rcases hl with rfl | ⟨_, hl⟩
    · cases f with
      | zero => omega
      | succ f => rfl
    · exact absurd rfl hl
  | cons c cs ih =>
    intro f lead hf hl
    have hl' : lead = [] ∨ lead = [32] := hl.imp_right And.left
    have hc := hn c List.mem_cons_self
    have hcv := hv c List.mem_cons_self
    have hls : (59 : UInt8) ∉ lead := by rcases hl' with rfl | rfl <;> decide
    have hns : (59 : UInt8) ∉ lead ++ sendBack c := by
      simp only [List.mem_append, not_or]
      exact ⟨hls, sendBack_no_semi hc hcv⟩
    cases f with
    | zero => simp at hf
    | succ f =>
      cases cs with
      | nil =>
        have e : lead ++ cookieHeader [c] = lead ++ sendBack c := rfl
        rw [e]
        have hi : indexByte (lead ++ sendBack c) 59 = none := indexByte_none.2 hns
        have hp := cookiePart_sendBack hl' hc hcv
        cases hb : lead ++ sendBack c with
        | nil => simp [sendBack] at hb
        | cons a as =>
          rw [hb] at hi hp
          unfold cookieLine
          simp only [hi, hp]
          cases f with
          | zero => rfl
          | succ f => rfl
      | cons d ds =>
        have e : lead ++ cookieHeader (c :: d :: ds) = (lead ++ sendBack c) ++ 59 :: ([32] ++ cookieHeader (d :: ds)) := by
          simp [cookieHeader, join]
        rw [e]
        have hi : indexByte ((lead ++ sendBack c) ++ 59 :: ([32] ++ cookieHeader (d :: ds))) 59 = some (lead ++ sendBack c).length :=
          indexByte_append hns
        have hp := cookiePart_sendBack hl' hc hcv
        have hr := ih (fun x hx => hn x (List.mem_cons_of_mem _ hx)) (fun x hx => hv x (List.mem_cons_of_mem _ hx)) f [32]
          (by simp at hf ⊢; omega) (Or.inr ⟨rfl, by simp⟩)
        have hlen : ∃ n, (lead ++ sendBack c).length = n + 1 := by
          refine ⟨(lead ++ sendBack c).length - 1, ?_⟩
          have : 0 < (lead ++ sendBack c).length := List.length_pos_iff.2 (by simp [sendBack])
          omega
        obtain ⟨n, hlen⟩ := hlen
        rw [hlen] at hi
        have ht : ((lead ++ sendBack c) ++ 59 :: ([32] ++ cookieHeader (d :: ds))).take (n + 1) = lead ++ sendBack c := by
          rw [← hlen]; exact List.take_left
        have hd : ((lead ++ sendBack c) ++ 59 :: ([32] ++ cookieHeader (d :: ds))).drop (n + 2) =
            [32] ++ cookieHeader (d :: ds) := by
          rw [show n + 2 = (lead ++ sendBack c).length + 1 by omega]
          rw [List.drop_append, List.drop_eq_nil_of_le (by omega)]; simp
        cases hb : (lead ++ sendBack c) ++ 59 :: ([32] ++ cookieHeader (d :: ds)) with
        | nil => simp at hb
        | cons a as =>
          rw [hb] at hi ht hd
          unfold cookieLine
          simp only [hi, ht, hd, hp, hr]
          rfl

theorem cookieHeader_length (cs : List (Str × Str)) : cs.length ≤ (cookieHeader cs).length := by
  induction cs with
  | nil => simp
  | cons c cs ih =>
    have : 0 < (sendBack c).length := List.length_pos_iff.2 (sendBack_ne c)
    cases cs with
    | nil => simp [cookieHeader, join]; omega
    | cons d ds =>
      have e : cookieHeader (c :: d :: ds) = sendBack c ++ b!"; " ++ cookieHeader (d :: ds) := rfl
      rw [e]
      simp only [List.length_append, List.length_cons] at ih ⊢
      omega

theorem cookieHeader_ends {cs : List (Str × Str)} (hn : ∀ c ∈ cs, Token c.1) (hv : ∀ c ∈ cs, ∀ x ∈ c.2, ValueByte x) :
    (∀ x, (cookieHeader cs).head? = some x → NonSpace x) ∧ (∀ x, (cookieHeader cs).getLast? = some x → NonSpace x) := by
  induction cs with
  | nil => exact ⟨by simp [cookieHeader, join], by simp [cookieHeader, join]⟩
  | cons c cs ih =>
    have hc := sendBack_ends (hn c List.mem_cons_self) (hv c List.mem_cons_self)
    obtain ⟨_, ih2⟩ := ih (fun x hx => hn x (List.mem_cons_of_mem _ hx)) (fun x hx => hv x (List.mem_cons_of_mem _ hx))
    cases cs with
    | nil => exact hc
    | cons d ds =>
      have e : cookieHeader (c :: d :: ds) = sendBack c ++ b!"; " ++ cookieHeader (d :: ds) := rfl
      have hne : cookieHeader (d :: ds) ≠ [] := by
        intro h
        have := cookieHeader_length (d :: ds)
        rw [h] at this; simp at this
      rw [e]
      refine ⟨?_, ?_⟩
      · intro x hx
        refine hc.1 x ?_
        rw [List.append_assoc, List.head?_append] at hx
        cases h : (sendBack c).head? with
        | none => exact absurd (List.head?_eq_none_iff.1 h) (sendBack_ne c)
        | some y => rw [h] at hx; exact hx
      · intro x hx
        refine ih2 x ?_
        rw [List.getLast?_append] at hx
        cases h : (cookieHeader (d :: ds)).getLast? with
        | none => exact absurd (List.getLast?_eq_none_iff.1 h) hne
        | some y => rw [h] at hx; exact hx

end Water
