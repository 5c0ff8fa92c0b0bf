import Verif.Model.Wire
import Verif.Spec.Wire
import Verif.Lemmas.HeaderTrip
namespace Water
open Spec
variable {ω : Type}

theorem trimString_stripped (s : Str) : trimString s = stripped s := by
  have : asciiSpace = fun c => decide (c ∈ spaceBytes) := by
    funext c
    revert c
    apply all_bytes
    decide +kernel
  unfold trimString stripped
  rw [this]

theorem writeField_text (l : Str × Str) : writeField l = l.1 ++ b!": " ++ fieldText l.2 ++ b!"\r\n" := by
  unfold writeField
  rw [trimString_stripped]
  have : newlineToSpace l.2 = l.2.map (fun c => if c = 10 ∨ c = 13 then 32 else c) := by
    unfold newlineToSpace
    apply List.map_congr_left
    intro c _
    simp
  rw [this]
  rfl

/-- a text is cut at its first `c` in one way -/
theorem cut_once {c : UInt8} {a b x y : Str} (ha : c ∉ a) (hb : c ∉ b) (h : a ++ c :: x = b ++ c :: y) : a = b ∧ x = y := by
  induction a generalizing b with
  | nil =>
    cases b with
    | nil => simpa using h
    | cons d b => simp only [List.nil_append, List.cons_append, List.cons.injEq] at h; exact absurd (by simp [h.1]) hb
  | cons d a ih =>
    cases b with
    | nil => simp only [List.nil_append, List.cons_append, List.cons.injEq] at h; exact absurd (by simp [h.1]) ha
    | cons e b =>
      simp only [List.cons_append, List.cons.injEq] at h
      obtain ⟨h1, h2⟩ := ih (fun hc => ha (by simp [hc])) (fun hc => hb (by simp [hc])) h.2
      exact ⟨by rw [h.1, h1], h2⟩

/-- the end of a line without its line feed -/
theorem lineEnd_cases {e : Str} (h : LineEnd e) : ∃ r : Str, e = r ++ [10] ∧ (r = [13] ∨ r = []) := by
  rcases h with rfl | rfl
  · exact ⟨[13], rfl, .inl rfl⟩
  · exact ⟨[], rfl, .inr rfl⟩

theorem dropWhile_empty {p : UInt8 → Bool} {s : Str} : s.dropWhile p = [] ↔ ∀ c ∈ s, p c = true := by
  induction s with
  | nil => simp
  | cons c s ih =>
    rw [List.dropWhile_cons]
    by_cases h : p c = true
    · rw [if_pos h, ih]; simp [h]
    · rw [if_neg h]; simp [h]

theorem stripped_cr (v r : Str) (hr : r = [13] ∨ r = []) : stripped (v ++ r) = stripped v := by
  rcases hr with rfl | rfl
  · unfold stripped
    by_cases hv : ∀ c ∈ v, decide (c ∈ spaceBytes) = true
    · have h1 : v.dropWhile (· ∈ spaceBytes) = [] := dropWhile_empty.2 hv
      have h2 : (v ++ [13]).dropWhile (· ∈ spaceBytes) = [] := by
        refine dropWhile_empty.2 fun c hc => ?_
        rcases List.mem_append.1 hc with h | h
        · exact hv c h
        · rw [List.mem_singleton.1 h]; decide
      rw [h1, h2]
    · have : (v ++ [13]).dropWhile (· ∈ spaceBytes) = v.dropWhile (· ∈ spaceBytes) ++ [13] := by
        rw [List.dropWhile_append]
        rw [if_neg]
        intro h
        rw [List.isEmpty_iff] at h
        exact hv (dropWhile_empty.1 h)
      rw [this, List.reverse_append]
      rfl
  · rw [List.append_nil]

theorem stripped_blank (v : Str) : stripped (32 :: v) = stripped v := by
  unfold stripped
  rw [List.dropWhile_cons]
  rfl

theorem stripped_safe {v : Str} (h : FieldSafe v) : stripped v = v := by
  have h1 := fieldText_id h
  have h2 : fieldText v = stripped v := by
    unfold fieldText
    have : v.map (fun c => if c = 10 ∨ c = 13 then 32 else c) = v.map id := by
      apply List.map_congr_left
      intro c hc
      rw [if_neg]
      · rfl
      · rintro (e | e)
        · exact h.1 (e ▸ hc)
        · exact h.2.1 (e ▸ hc)
    rw [this, List.map_id]
  rw [← h2, h1]

theorem token_marks {k : Str} (h : Token k) : 10 ∉ k ∧ 13 ∉ k ∧ 58 ∉ k := by
  have : ∀ c : UInt8, c ∈ tokenBytes → c ≠ 10 ∧ c ≠ 13 ∧ c ≠ 58 := by apply all_bytes; decide +kernel
  exact ⟨fun hc => (this _ (h.2 _ hc)).1 rfl, fun hc => (this _ (h.2 _ hc)).2.1 rfl, fun hc => (this _ (h.2 _ hc)).2.2 rfl⟩

/-- The lines are read in one way. -/
theorem headLines_read {lines : List (Str × Str)} (ht : ∀ l ∈ lines, Token l.1) (rest : Str) :
    ReadsFields (lines.flatMap writeField ++ b!"\r\n" ++ rest) (lines.map (fun l => (l.1, fieldText l.2))) rest := by
  induction lines with
  | nil => exact .done rest (.inl rfl)
  | cons l ls ih =>
    have hs := fieldText_safe l.2
    have := ReadsFields.line (v := 32 :: fieldText l.2) (ht l (by simp))
      (by intro hc; rcases List.mem_cons.1 hc with e | e; exact absurd e (by decide); exact hs.1 e) (.inl rfl) (ih (fun x hx => ht x (by simp [hx])))
    rw [stripped_blank, stripped_safe hs] at this
    simpa [writeField_text, List.append_assoc] using this

theorem headLines_unique {lines : List (Str × Str)} (ht : ∀ l ∈ lines, Token l.1) (rest : Str) {t : Str} {fs : List (Str × Str)} {r : Str}
    (h : ReadsFields t fs r) (e : t = lines.flatMap writeField ++ b!"\r\n" ++ rest) :
    fs = lines.map (fun l => (l.1, fieldText l.2)) ∧ r = rest := by
  induction h generalizing lines with
  | @done e' rest' he =>
    obtain ⟨q, rfl, hq⟩ := lineEnd_cases he
    cases lines with
    | nil =>
      have e : q ++ 10 :: rest' = [13] ++ 10 :: rest := by simpa using e
      have := cut_once (by rcases hq with rfl | rfl <;> decide) (by decide) e
      exact ⟨rfl, this.2⟩
    | cons l ls =>
      exfalso
      have h1 := ht l (by simp)
      obtain ⟨k, v⟩ := l
      cases k with
      | nil => exact h1.1 rfl
      | cons c k =>
        have hno := token_marks h1
        rcases hq with rfl | rfl
        · simp only [List.flatMap_cons, writeField_text, List.cons_append, List.cons.injEq] at e
          exact hno.2.1 (by rw [e.1]; simp)
        · simp only [List.flatMap_cons, writeField_text, List.cons_append, List.nil_append, List.cons.injEq] at e
          exact hno.1 (by rw [e.1]; simp)
  | @line name v e' t fs r hn hv he _ ih =>
    obtain ⟨q, rfl, hq⟩ := lineEnd_cases he
    have hno := token_marks hn
    cases lines with
    | nil =>
      exfalso
      cases name with
      | nil => exact hn.1 rfl
      | cons c k =>
        simp only [List.cons_append, List.flatMap_nil, List.nil_append, List.cons.injEq] at e
        exact hno.2.1 (by rw [e.1]; simp)
    | cons l ls =>
      have hk := token_marks (ht l (by simp))
      have hs := fieldText_safe l.2
      have e : name ++ 58 :: (v ++ q ++ 10 :: t) = l.1 ++ 58 :: (32 :: fieldText l.2 ++ [13] ++ 10 :: (ls.flatMap writeField ++ b!"\r\n" ++ rest)) := by
        simpa [writeField_text, List.append_assoc] using e
      obtain ⟨e1, e2⟩ := cut_once hno.2.2 hk.2.2 e
      have hq10 : (10 : UInt8) ∉ q := by rcases hq with rfl | rfl <;> decide
      obtain ⟨e3, e4⟩ := cut_once (by intro hc; rcases List.mem_append.1 hc with h | h; exact hv h; exact hq10 h)
        (by
          intro hc
          rcases List.mem_append.1 hc with h | h
          · rcases List.mem_cons.1 h with h | h
            · exact absurd h (by decide)
            · exact hs.1 h
          · exact absurd h (by decide)) e2
      obtain ⟨i1, i2⟩ := ih (fun x hx => ht x (by simp [hx])) e4
      refine ⟨?_, i2⟩
      have : stripped v = fieldText l.2 := by
        rw [← stripped_cr v q hq, e3, stripped_cr _ [13] (.inl rfl), stripped_blank, stripped_safe hs]
      rw [i1, this, e1]
      rfl

/-! ### names -/

theorem canon_token {k : Str} (h : Token k) : Token (canonKey k) := by
  have hv : k.all validHeaderByte = true := List.all_eq_true.2 (fun c hc => (valid_iff c).2 (h.2 c hc))
  have e : canonKey k = canonLoop true k := if_pos hv
  refine ⟨fun hn => h.1 (canonKey_nil hn), fun c hc => ?_⟩
  rw [e] at hc
  exact (valid_iff c).1 (List.all_eq_true.1 (canonLoop_valid true hv) c hc)

theorem named_set {h : Header} (hh : Named h) {k : Str} (hk : Token k) (v : List Str) : Named (Map.set h k v) := by
  intro x hx
  unfold Map.set at hx
  by_cases e : x = k
  · exact e ▸ hk
  · exact hh x (by rwa [if_neg e] at hx)

theorem named_put {h : Header} (hh : Named h) {k : Str} (hk : Token k) (v : Str) : Named (h.put k v) := named_set hh (canon_token hk) _

theorem named_add {h : Header} (hh : Named h) {k : Str} (hk : Token k) (v : Str) : Named (h.add k v) := named_set hh (canon_token hk) _

theorem named_drop {h : Header} (hh : Named h) (k : Str) : Named (h.drop k) := by
  intro x hx
  unfold Header.drop at hx
  split at hx
  · exact absurd rfl hx
  · exact hh x hx

/-- the names in the header, and in what was sent -/
def NamedSt (s : St ω) : Prop := Named s.rw.header ∧ ∀ b code h, WEvent.status b code h ∈ s.rw.log → Named h

theorem named_writeHeader {bad : Int → Bool} {w : Writer} (code : Int) (h : Named w.header ∧ ∀ b c x, WEvent.status b c x ∈ w.log → Named x) :
    Named (w.writeHeader bad code).2.header ∧ ∀ b c x, WEvent.status b c x ∈ (w.writeHeader bad code).2.log → Named x := by
  unfold Writer.writeHeader
  split
  · exact h
  · refine ⟨h.1, fun b c x hx => ?_⟩
    rcases List.mem_append.1 hx with hx | hx
    · exact h.2 b c x hx
    · cases List.mem_singleton.1 hx
      exact h.1

theorem named_write {w : Writer} (d : Str) (h : Named w.header ∧ ∀ b c x, WEvent.status b c x ∈ w.log → Named x) :
    Named (w.write d).header ∧ ∀ b c x, WEvent.status b c x ∈ (w.write d).log → Named x := by
  unfold Writer.write
  split
  · refine ⟨h.1, fun b c x hx => ?_⟩
    simp only [List.mem_cons, List.not_mem_nil, or_false, reduceCtorEq] at hx
    cases hx
    exact h.1
  · refine ⟨h.1, fun b c x hx => ?_⟩
    rcases List.mem_append.1 hx with hx | hx
    · exact h.2 b c x hx
    · cases List.mem_singleton.1 hx

theorem token_ctype : Token kContentType := ⟨by decide, by decide +kernel⟩

theorem named_ctxHeader {o : Oracle} {s : St ω} (code : Int) (h : NamedSt s) : NamedSt (s.writeHeader o code).2 := by
  unfold St.writeHeader
  split
  · exact h
  · exact named_writeHeader (bad := o.bad) (w := s.rw) code h

theorem named_ctxWrite {o : Oracle} {s : St ω} (d : Str) (h : NamedSt s) : NamedSt (s.write o d).2 := by
  unfold St.write
  split
  · exact named_write d h
  · have h1 : ∀ s1 : St ω, NamedSt s1 → NamedSt (match s1.writeHeader o 200 with
        | (true, s) => (true, s)
        | (false, s) => (false, { s with rw := s.rw.write d })).2 := by
      intro s1 hs
      have := named_ctxHeader (o := o) 200 hs
      generalize s1.writeHeader o 200 = x at this
      obtain ⟨b, s2⟩ := x
      cases b
      · exact named_write d this
      · exact this
    refine h1 _ ?_
    split
    · exact ⟨named_put h.1 token_ctype _, h.2⟩
    · exact h

theorem named_parse {o : Oracle} {req : Req} {s : St ω} (h : NamedSt s) : NamedSt (s.parseForm o req).2 := by
  unfold St.parseForm
  split
  · exact h
  · exact h

theorem named_call {o : Oracle} {req : Req} (s : St ω) (c : Call ω) (hc : NamesWell c) (h : NamedSt s) : NamedSt (doCall o req s c).2 := by
  cases c with
  | writeHeader code =>
    have := named_ctxHeader (o := o) code h
    simp only [doCall]
    generalize s.writeHeader o code = x at this
    obtain ⟨b, s2⟩ := x
    cases b <;> exact this
  | write d =>
    have := named_ctxWrite (o := o) d h
    simp only [doCall]
    generalize s.write o d = x at this
    obtain ⟨b, s2⟩ := x
    cases b <;> exact this
  | setHeader k v => exact ⟨named_put h.1 hc v, h.2⟩
  | header f => exact ⟨hc _ h.1, h.2⟩
  | rawWriteHeader code =>
    have := named_writeHeader (bad := o.bad) (w := s.rw) code h
    simp only [doCall]
    generalize s.rw.writeHeader o.bad code = x at this
    obtain ⟨b, s2⟩ := x
    cases b <;> exact this
  | rawWrite d => exact named_write d h
  | parseForm =>
    have := named_parse (o := o) (req := req) h
    simp only [doCall]
    generalize s.parseForm o req = x at this
    obtain ⟨b, s2⟩ := x
    cases b <;> exact this
  | readForm f =>
    have := named_parse (o := o) (req := req) h
    simp only [doCall]
    generalize s.parseForm o req = x at this
    obtain ⟨b, s2⟩ := x
    cases b <;> exact this
  | param k => simp only [doCall]; split <;> exact h
  | envSet k v => simp only [doCall]; split <;> exact h
  | envGet k => simp only [doCall]; split <;> exact h
  | readBody l => simp only [doCall]; split <;> exact h
  | _ => exact h

end Water
