import Verif.Spec.Disposition
import Verif.Props.Util
import Verif.Props.QueryMap
import Verif.Lemmas.Text
/-
C150: a download is saved under its name.
-/
namespace Water
open Spec

theorem capital_hexOf (c x y : UInt8) (h1 : capitalHex[c.toNat / 16]? = some x) (h2 : capitalHex[c.toNat % 16]? = some y) :
    hexOf x = some (c.toNat / 16) ∧ hexOf y = some (c.toNat % 16) := by
  have key : ∀ c : UInt8, (capitalHex[c.toNat / 16]?).bind hexOf = some (c.toNat / 16) ∧ (capitalHex[c.toNat % 16]?).bind hexOf = some (c.toNat % 16) := by
    apply all_bytes; decide +kernel
  have := key c
  rw [h1, h2] at this
  exact this

theorem byte_digits (c : UInt8) : UInt8.ofNat (16 * (c.toNat / 16) + c.toNat % 16) = c := by
  revert c
  apply all_bytes
  decide +kernel

theorem kept_attr (c : UInt8) (h : c ∈ segmentBytes) : c ∈ attrBytes ↔ c ∉ b!":=@" := by
  revert c
  apply all_bytes
  decide +kernel

theorem segment_plain (c : UInt8) (h : c ∈ segmentBytes) : c ≠ 37 ∧ c ≠ 34 ∧ c ≠ 92 ∧ c ≠ 39 ∧ c ≠ 59 ∧ 32 ≤ c ∧ c ≠ 127 := by
  revert c
  apply all_bytes
  decide +kernel

theorem off_segment (c : UInt8) (h : c ∈ b!":=@") : c ∈ segmentBytes := by
  revert c
  apply all_bytes
  decide +kernel

/-- an escaped name is read as that name, and only if it has none of the three characters -/
theorem ext_of_percent {name e v : Str} (hp : Percent segmentBytes name e) (hx : ExtChars v e) : v = name ∧ ∀ c ∈ name, c ∉ b!":=@" := by
  induction hp generalizing v with
  | nil => cases hx; exact ⟨rfl, fun c h => absurd h List.not_mem_nil⟩
  | @keep c s t hc hp ih =>
    cases hx with
    | keep ha hx =>
      obtain ⟨rfl, h⟩ := ih hx
      refine ⟨rfl, fun d hd => ?_⟩
      rcases List.mem_cons.1 hd with rfl | hd
      · exact (kept_attr d hc).1 ha
      · exact h d hd
    | code => exact absurd rfl (segment_plain _ hc).1
  | @code c x y s t hc h1 h2 hp ih =>
    cases hx with
    | keep ha _ => exact absurd ha (by decide +kernel)
    | code a1 a2 hx =>
      obtain ⟨rfl, h⟩ := ih hx
      obtain ⟨b1, b2⟩ := capital_hexOf c x y h1 h2
      rw [b1] at a1
      rw [b2] at a2
      cases a1
      cases a2
      refine ⟨by rw [byte_digits], fun d hd => ?_⟩
      rcases List.mem_cons.1 hd with rfl | hd
      · exact fun hm => hc (off_segment _ hm)
      · exact h d hd

theorem percent_ext {name e : Str} (hp : Percent segmentBytes name e) (hn : ∀ c ∈ name, c ∉ b!":=@") : ExtChars name e := by
  induction hp with
  | nil => exact .nil
  | @keep c s t hc hp ih => exact .keep ((kept_attr c hc).2 (hn c (by simp))) (ih (fun d hd => hn d (by simp [hd])))
  | @code c x y s t hc h1 h2 hp ih =>
    obtain ⟨b1, b2⟩ := capital_hexOf c x y h1 h2
    have := ExtChars.code b1 b2 (ih (fun d hd => hn d (by simp [hd])))
    rwa [byte_digits] at this

theorem percent_bytes {name e : Str} (hp : Percent segmentBytes name e) : ∀ c ∈ e, c ≠ 34 ∧ c ≠ 92 ∧ c ≠ 39 ∧ 32 ≤ c ∧ c ≠ 127 ∧ c ≠ 59 := by
  have hex : ∀ x ∈ capitalHex, x ≠ 34 ∧ x ≠ 92 ∧ x ≠ 39 ∧ 32 ≤ x ∧ x ≠ 127 ∧ x ≠ 59 := by decide +kernel
  induction hp with
  | nil => exact fun c h => absurd h List.not_mem_nil
  | @keep c s t hc hp ih =>
    intro d hd
    rcases List.mem_cons.1 hd with rfl | hd
    · obtain ⟨_, a1, a2, a3, a6, a4, a5⟩ := segment_plain _ hc
      exact ⟨a1, a2, a3, a4, a5, a6⟩
    · exact ih d hd
  | @code c x y s t hc h1 h2 hp ih =>
    intro d hd
    simp only [List.mem_cons] at hd
    rcases hd with rfl | rfl | rfl | hd
    · decide
    · exact hex _ (List.mem_of_getElem? h1)
    · exact hex _ (List.mem_of_getElem? h2)
    · exact ih d hd

theorem quoted_plain {e : Str} (h : ∀ c ∈ e, c ≠ 34 ∧ c ≠ 92 ∧ c ≠ 39 ∧ 32 ≤ c ∧ c ≠ 127 ∧ c ≠ 59) : QuotedChars e e := by
  induction e with
  | nil => exact .nil
  | cons c e ih =>
    obtain ⟨a1, a2, _, a3, a4, _⟩ := h c (by simp)
    exact .char a1 a2 (.inr a3) a4 (ih (fun d hd => h d (by simp [hd])))

theorem quoted_cut {v t e r r' : Str} (hq : QuotedChars v t) (h : t ++ 34 :: r = e ++ 34 :: r') (he : ∀ c ∈ e, c ≠ 34 ∧ c ≠ 92) : v = e ∧ t = e ∧ r = r' := by
  induction hq generalizing e with
  | nil =>
    cases e with
    | nil => exact ⟨rfl, rfl, (List.cons.inj h).2⟩
    | cons d e => exact absurd (List.cons.inj h).1.symm (he d (by simp)).1
  | @char c v t h1 _ _ _ _ ih =>
    cases e with
    | nil => exact absurd (List.cons.inj h).1 h1
    | cons d e =>
      obtain ⟨a, b⟩ := List.cons.inj h
      obtain ⟨x, y, z⟩ := ih b (fun c hc => he c (by simp [hc]))
      exact ⟨by rw [a, x], by rw [a, y], z⟩
  | pair _ _ _ ih =>
    cases e with
    | nil => exact absurd (List.cons.inj h).1 (by decide)
    | cons d e => exact absurd (List.cons.inj h).1.symm (he d (by simp)).2

theorem token_no {n : Str} (h : Token n) : (61 : UInt8) ∉ n ∧ (59 : UInt8) ∉ n ∧ (34 : UInt8) ∉ n ∧ (32 : UInt8) ∉ n ∧ (9 : UInt8) ∉ n := by
  refine ⟨?_, ?_, ?_, ?_, ?_⟩ <;> exact fun hm => absurd (h.2 _ hm) (by decide +kernel)

/-- a blank and a name before the sign of equality can be read in one way only -/
theorem parm_name {blank name rest n r : Str} (hb : ∀ c ∈ blank, c = 32 ∨ c = 9) (hn : Token name) (hm : Token n)
    (h : blank ++ (name ++ 61 :: rest) = 32 :: (n ++ 61 :: r)) : name = n ∧ rest = r := by
  have skip : ∀ (blank : Str), (∀ c ∈ blank, c = 32 ∨ c = 9) → blank ++ (name ++ 61 :: rest) = n ++ 61 :: r → name = n ∧ rest = r := by
    intro blank hb h
    cases blank with
    | nil => exact cut_at h (token_no hn).1 (token_no hm).1
    | cons c blank =>
      cases n with
      | nil => exact absurd rfl hm.1
      | cons d n =>
        have hc := hb c (by simp)
        rw [(List.cons.inj h).1] at hc
        rcases hc with rfl | rfl
        · exact absurd List.mem_cons_self (token_no hm).2.2.2.1
        · exact absurd List.mem_cons_self (token_no hm).2.2.2.2
  cases blank with
  | nil =>
    cases name with
    | nil => exact absurd rfl hn.1
    | cons d name => exact absurd ((List.cons.inj h).1 ▸ List.mem_cons_self) (token_no hn).2.2.2.1
  | cons c blank => exact skip blank (fun d hd => hb d (by simp [hd])) (List.cons.inj h).2

theorem utf8_mark {cs : Str} (h : cs ∈ [b!"UTF-8", b!"utf-8", b!"Utf-8"]) : (39 : UInt8) ∉ cs := by
  revert cs
  decide +kernel

theorem lang_mark {l : Str} (h : ∀ c ∈ l, c ∈ smallLetters ++ capitalLetters ++ decimals ++ b!"-") : (39 : UInt8) ∉ l :=
  fun hm => absurd (h _ hm) (by decide +kernel)

theorem star_parm {e v t rest name : Str} {ps : List (Str × Str)} (hp : Percent segmentBytes name e) (hx : ExtValue v t) (hr : DispParms rest ps)
    (h : t ++ rest = b!"UTF-8''" ++ e) : v = name ∧ ps = [] ∧ ValidUtf8 name ∧ ∀ c ∈ name, c ∉ b!":=@" := by
  obtain ⟨cs, lang, chars, rfl, h1, h2, h3, h4⟩ := hx
  have h : cs ++ 39 :: (lang ++ 39 :: (chars ++ rest)) = b!"UTF-8" ++ 39 :: ([] ++ 39 :: e) := by simpa using h
  have h5 := (cut_at h (utf8_mark h1) (by decide)).2
  have h6 := (cut_at h5 (lang_mark h2) (by decide)).2
  have hno : (59 : UInt8) ∉ e := fun hm => (percent_bytes hp 59 hm).2.2.2.2.2 rfl
  cases hr with
  | nil =>
    rw [List.append_nil] at h6
    subst h6
    obtain ⟨rfl, h7⟩ := ext_of_percent hp h3
    exact ⟨rfl, rfl, h4, h7⟩
  | plain => exact absurd (h6 ▸ by simp) hno
  | ext => exact absurd (h6 ▸ by simp) hno

/-- **C150**: whatever a reader by the grammar makes of the value, it is the type, the escaped name under `filename` and the name itself under
`filename*`; and there is such a reading only for names in UTF-8 without the three characters. -/
theorem C150_read (inline : List Bool) {name : Str} (hn : name ≠ []) {ty : Str} {ps : List (Str × Str)} (h : DispText (dispositionFor inline name) ty ps) :
    ty = (if inline.head? = some true then b!"inline" else b!"attachment") ∧
    (∃ e, Percent segmentBytes name e ∧ ps = [(b!"filename", e), (b!"filename*", name)]) ∧ ValidUtf8 name ∧ ∀ c ∈ name, c ∉ b!":=@" := by
  obtain ⟨e, hp, ht⟩ := C51_text inline name
  rw [if_neg hn] at ht
  obtain ⟨rest, h1, h2, h3⟩ := h
  rw [ht] at h1
  have hty : Token (if inline.head? = some true then b!"inline" else b!"attachment") := by
    split <;> exact ⟨by decide, by decide +kernel⟩
  generalize (if inline.head? = some true then b!"inline" else b!"attachment") = T at *
  have h1 : T ++ 59 :: (32 :: (b!"filename" ++ 61 :: (34 :: (e ++ 34 :: (59 :: (32 :: (b!"filename*" ++ 61 :: (b!"UTF-8''" ++ e)))))))) = ty ++ rest := by
    rw [← h1]; simp
  have tok1 : Token b!"filename" := ⟨by decide, by decide +kernel⟩
  have tok2 : Token b!"filename*" := ⟨by decide, by decide +kernel⟩
  have hb := percent_bytes hp
  cases h3 with
  | nil =>
    rw [List.append_nil] at h1
    exact absurd (h1 ▸ by simp) (token_no h2).2.1
  | @plain blank n v t rest ps a1 a2 a3 a4 a5 =>
    obtain ⟨b1, b2⟩ := cut_at h1 (token_no hty).2.1 (token_no h2).2.1
    obtain ⟨rfl, b3⟩ := parm_name a1 a2 tok1 b2.symm
    cases a4 with
    | token ht' =>
      obtain ⟨c1, c2⟩ := ht'
      cases v with
      | nil => exact absurd rfl c1
      | cons x v => exact absurd (c2 x (by simp)) (by rw [(List.cons.inj b3).1]; decide +kernel)
    | @quoted t hq =>
      have b4 : t ++ 34 :: rest = e ++ 34 :: (59 :: (32 :: (b!"filename*" ++ 61 :: (b!"UTF-8''" ++ e)))) := by
        have := (List.cons.inj b3).2
        simpa using this
      obtain ⟨rfl, _, b5⟩ := quoted_cut hq b4 (fun c hc => ⟨(hb c hc).1, (hb c hc).2.1⟩)
      cases a5 with
      | nil => cases b5
      | @plain blank n v' t' rest' ps d1 d2 d3 d4 d5 =>
        obtain ⟨rfl, b6⟩ := parm_name d1 d2 tok2 (List.cons.inj b5).2
        exact absurd rfl d3
      | @ext blank n v' t' rest' ps d1 d2 d3 d4 d5 =>
        obtain ⟨rfl, b6⟩ := parm_name d1 d2 tok2 (List.cons.inj b5).2
        obtain ⟨rfl, rfl, f1, f2⟩ := star_parm hp d4 d5 b6
        exact ⟨b1.symm, ⟨_, hp, rfl⟩, f1, f2⟩
  | @ext blank n v t rest ps a1 a2 a3 a4 a5 =>
    obtain ⟨b1, b2⟩ := cut_at h1 (token_no hty).2.1 (token_no h2).2.1
    obtain ⟨rfl, b3⟩ := parm_name a1 a2 tok1 b2.symm
    exact absurd a3 (by decide)

/-- **C150 (partial), exactly.** A reader by the grammar saves the file under its name if and only if the name is UTF-8 and has no colon, no
sign of equality and no at sign. -/
theorem C150_exact_partial (inline : List Bool) {name : Str} (hn : name ≠ []) :
    (∃ ty ps, DispText (dispositionFor inline name) ty ps ∧ savedName ps = some name) ↔ ValidUtf8 name ∧ ∀ c ∈ name, c ∉ b!":=@" := by
  constructor
  · rintro ⟨ty, ps, h, _⟩
    exact (C150_read inline hn h).2.2
  · rintro ⟨hu, hc⟩
    obtain ⟨e, hp, ht⟩ := C51_text inline name
    rw [if_neg hn] at ht
    have hty : Token (if inline.head? = some true then b!"inline" else b!"attachment") := by
      split <;> exact ⟨by decide, by decide +kernel⟩
    have tok1 : Token b!"filename" := ⟨by decide, by decide +kernel⟩
    have tok2 : Token b!"filename*" := ⟨by decide, by decide +kernel⟩
    have hx : ExtValue name (b!"UTF-8''" ++ e) := ⟨b!"UTF-8", [], e, by simp, by decide, fun c h => absurd h List.not_mem_nil, percent_ext hp hc, hu⟩
    have d2 := DispParms.ext (blank := [32]) (by simp) tok2 (by decide) hx DispParms.nil
    have d1 := DispParms.plain (blank := [32]) (by simp) tok1 (by decide) (.quoted (quoted_plain (percent_bytes hp))) d2
    refine ⟨_, _, ⟨_, ?_, hty, d1⟩, rfl⟩
    rw [ht]
    simp

/-- C150: a reader that knows `filename` only (RFC 2616) saves the file under the escaped name, which is the name exactly if nothing in it had to
be escaped. -/
theorem C150_old {name e : Str} (hp : Percent segmentBytes name e) : e = name ↔ ∀ c ∈ name, c ∈ segmentBytes := by
  constructor
  · intro h
    have hlen : ∀ {n e : Str}, Percent segmentBytes n e → n.length ≤ e.length := by
      intro n e h
      induction h with
      | nil => simp
      | keep _ _ ih => simpa using ih
      | code _ _ _ _ ih => simp only [List.length_cons]; omega
    have key : ∀ {n e : Str}, Percent segmentBytes n e → e.length = n.length → ∀ c ∈ n, c ∈ segmentBytes := by
      intro n e h
      induction h with
      | nil => exact fun _ c hc => absurd hc List.not_mem_nil
      | keep hc _ ih =>
        intro hl d hd
        rcases List.mem_cons.1 hd with rfl | hd
        · exact hc
        · exact ih (by simpa using hl) d hd
      | code _ _ _ hp _ =>
        intro hl
        have := hlen hp
        simp only [List.length_cons] at hl
        omega
    exact key hp (by rw [h])
  · intro h
    induction hp with
    | nil => rfl
    | keep _ _ ih => rw [ih (fun d hd => h d (by simp [hd]))]
    | code hc _ _ _ _ => exact absurd (h _ (by simp)) hc

/-- C150: without a name there are no parameters, and the browser chooses a name. -/
theorem C150_unnamed (inline : List Bool) {ty : Str} {ps : List (Str × Str)} (h : DispText (dispositionFor inline []) ty ps) : savedName ps = none := by
  obtain ⟨_, _, ht⟩ := C51_text inline []
  rw [if_pos rfl, List.append_nil] at ht
  obtain ⟨rest, h1, _, h3⟩ := h
  have hno : (59 : UInt8) ∉ dispositionFor inline [] := by rw [ht]; split <;> decide +kernel
  cases h3 with
  | nil => rfl
  | plain => exact absurd (h1 ▸ by simp) hno
  | ext => exact absurd (h1 ▸ by simp) hno

/-- C150 for all names is false: `a@b.txt` is sent as `attachment; filename="a@b.txt"; filename*=UTF-8''a@b.txt`, which is not of the grammar. -/
theorem C150_refuted : dispositionFor [] b!"a@b.txt" = b!"attachment; filename=\"a@b.txt\"; filename*=UTF-8''a@b.txt" ∧
    ¬ ∃ ty ps, DispText (dispositionFor [] b!"a@b.txt") ty ps := by
  refine ⟨by decide +kernel, ?_⟩
  rintro ⟨ty, ps, h⟩
  exact (C150_read [] (by decide) h).2.2.2 64 (by decide) (by decide)

/-- Beside the theorems: a name with a quote, a blank and a letter that is not ASCII. -/
theorem Demo.C150_demo : dispositionFor [true] b!"a \"é.txt" = b!"inline; filename=\"a%20%22%C3%A9.txt\"; filename*=UTF-8''a%20%22%C3%A9.txt" ∧
    ∃ ty ps, DispText (dispositionFor [true] b!"a \"é.txt") ty ps ∧ savedName ps = some b!"a \"é.txt" := by
  refine ⟨by decide +kernel, (C150_exact_partial [true] (by decide)).2 ⟨⟨[97, 32, 34, 233, 46, 116, 120, 116], ?_, by decide +kernel⟩, by decide +kernel⟩⟩
  intro n hn
  simp only [List.mem_cons, List.not_mem_nil, or_false] at hn
  rcases hn with rfl | rfl | rfl | rfl | rfl | rfl | rfl | rfl <;> (unfold CodePoint; omega)

end Water
