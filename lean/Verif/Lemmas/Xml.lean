import Verif.Spec.Xml
import Verif.Lemmas.JsonBind
import Verif.Lemmas.Values
/- Texts of XML: what is written for a value, and that a text says one thing. -/
namespace Water
open Spec
variable {E : TyEnv}

theorem retag_forXml (fd : Field) : retag fd = forXml fd := rfl

theorem xsays_append {a b : Str} {x y : List XItem} (h : XSays a x) (h' : XSays b y) : XSays (a ++ b) (x ++ y) := by
  induction h with
  | nil => exact h'
  | chr h1 h2 _ ih => rw [List.append_assoc]; exact .chr h1 h2 ih
  | ref h1 h2 _ ih => rw [List.cons_append, List.append_assoc, List.cons_append]; exact .ref h1 h2 ih
  | elem h1 h2 _ _ ih =>
    simp only [List.cons_append, List.append_assoc]
    exact .elem h1 h2 ih

theorem name_bytes {k : Str} (h : XName k) : ∀ c ∈ k, c ≠ 62 ∧ c ≠ 47 ∧ c ≠ 59 := by
  obtain ⟨c, r, rfl, h1, h2⟩ := h
  have key : ∀ c ∈ nameStarts ++ b!"-.0123456789", c ≠ 62 ∧ c ≠ 47 ∧ c ≠ 59 := by decide
  intro d hd
  rcases List.mem_cons.1 hd with rfl | hd
  · exact key _ (List.mem_append_left _ h1)
  · exact key _ (h2 d hd)

theorem inBase_unique {b : Nat} {s : Str} {n : Nat} (h : InBase b s n) : ∀ {m}, InBase b s m → m = n := by
  have ne : ∀ {s n}, InBase b s n → s ≠ [] := by rintro s n (_ | _) <;> simp
  induction h with
  | @one c d h1 _ =>
    intro m h
    generalize e : [c] = t at h
    cases h with
    | one h' _ => cases e; rw [h1] at h'; exact (Option.some.inj h').symm
    | @more s _ _ _ hs _ _ => cases s with
      | nil => exact absurd rfl (ne hs)
      | cons _ s => simp at e
  | @more s n c d hs h1 h2 ih =>
    intro m h
    generalize e : s ++ [c] = t at h
    cases h with
    | one h' _ =>
      cases s with
      | nil => exact absurd rfl (ne hs)
      | cons _ s => simp at e
    | @more s' n' c' d' hs' h1' h2' =>
      obtain ⟨rfl, e2⟩ := List.append_inj' e rfl
      cases e2
      rw [h1] at h1'
      cases h1'
      rw [ih hs']

theorem inBase_bytes {b : Nat} {s : Str} {n : Nat} (h : InBase b s n) : s ≠ [] ∧ ∀ c ∈ s, c ≠ 59 ∧ ∃ d, digitOf c = some d ∧ d < b := by
  have key : ∀ {c : UInt8} {d : Nat}, digitOf c = some d → c ≠ 59 := by
    rintro c d h rfl
    rw [show digitOf 59 = none from by decide] at h
    cases h
  induction h with
  | one h1 h2 =>
    refine ⟨by simp, ?_⟩
    intro c hc
    rw [List.mem_singleton] at hc
    subst hc
    exact ⟨key h1, _, h1, h2⟩
  | more _ h1 h2 ih =>
    refine ⟨by simp, ?_⟩
    intro c hc
    rcases List.mem_append.1 hc with hc | hc
    · exact ih.2 c hc
    · rw [List.mem_singleton] at hc
      subst hc
      exact ⟨key h1, _, h1, h2⟩

theorem refTo_bytes {x : Str} {n : Nat} (h : RefTo x n) : ∀ c ∈ x, c ≠ 59 := by
  rcases h with h | ⟨s, rfl, h⟩ | ⟨s, rfl, h⟩
  · exact (by decide : ∀ p ∈ entities, ∀ c ∈ p.1, c ≠ 59) _ h
  · intro c hc
    rcases List.mem_cons.1 hc with rfl | hc
    · decide
    · exact ((inBase_bytes h).2 c hc).1
  · intro c hc
    rcases List.mem_cons.1 hc with rfl | hc
    · decide
    · rcases List.mem_cons.1 hc with rfl | hc
      · decide
      · exact ((inBase_bytes h).2 c hc).1

theorem refTo_unique {x : Str} {m n : Nat} (h : RefTo x m) (h' : RefTo x n) : m = n := by
  have hx : ∀ s, ¬ InBase 10 (120 :: s) n ∧ ¬ InBase 10 (120 :: s) m := by
    intro s
    have hd : ∀ k, ¬ InBase 10 (120 :: s) k := by
      intro k hk
      obtain ⟨-, d, h, -⟩ := (inBase_bytes hk).2 120 List.mem_cons_self
      rw [show digitOf 120 = none from by decide] at h
      cases h
    exact ⟨hd n, hd m⟩
  have he : ∀ p ∈ entities, ∀ s, p.1 ≠ 35 :: s := by
    intro p hp s e
    have := (by decide : ∀ p ∈ entities, p.1.head? ≠ some 35) p hp
    rw [e] at this
    exact this rfl
  rcases h with h | ⟨s, rfl, h⟩ | ⟨s, rfl, h⟩
  · rcases h' with h' | ⟨s, rfl, h'⟩ | ⟨s, rfl, h'⟩
    · exact (by decide : ∀ p ∈ entities, ∀ q ∈ entities, p.1 = q.1 → p.2 = q.2) _ h _ h' rfl
    · exact absurd rfl (he _ h s)
    · exact absurd rfl (he _ h _)
  · rcases h' with h' | ⟨s', e, h'⟩ | ⟨s', e, h'⟩
    · exact absurd rfl (he _ h' s)
    · cases e; exact (inBase_unique h h').symm
    · cases e; exact absurd h (hx _).2
  · rcases h' with h' | ⟨s', e, h'⟩ | ⟨s', e, h'⟩
    · exact absurd rfl (he _ h' _)
    · cases e; exact absurd h' (hx _).1
    · cases e; exact (inBase_unique h h').symm

/-- what a character begins with -/
theorem char_lead {n : Nat} (h : XmlChar n) (h' : n ∉ [13, 38, 60, 62]) : ∃ c r, charBytes n = c :: r ∧ c ≠ 60 ∧ c ≠ 38 := by
  by_cases hn : n < 0x80
  · refine ⟨_, [], charBytes_ascii hn, ?_, ?_⟩
    · intro e
      have : n = 60 := by
        have := congrArg UInt8.toNat e
        simp only [UInt8.toNat_ofNat'] at this
        simp at this
        omega
      exact h' (by simp [this])
    · intro e
      have : n = 38 := by
        have := congrArg UInt8.toNat e
        simp only [UInt8.toNat_ofNat'] at this
        simp at this
        omega
      exact h' (by simp [this])
  · obtain ⟨c, r, e⟩ := charBytes_ne n
    have hc := charBytes_high h.1 (by omega) c (by rw [e]; exact List.mem_cons_self)
    refine ⟨c, r, e, ?_, ?_⟩ <;> rintro rfl <;> exact absurd hc (by decide)

/-- content ends where an end tag is -/
theorem xsays_unique {t : Str} {l : List XItem} (h : XSays t l) : ∀ {t' l' r r'}, XSays t' l' → t ++ 60 :: 47 :: r = t' ++ 60 :: 47 :: r' →
    t = t' ∧ l = l' ∧ r = r' := by
  have hname : ∀ {k : Str} {x y : Str}, XName k → ¬ 60 :: (k ++ x) = 60 :: 47 :: y := by
    rintro k x y ⟨c, r, rfl, h1, -⟩ e
    simp only [List.cons_append, List.cons.injEq, true_and] at e
    rw [e.1] at h1
    exact absurd h1 (by decide)
  induction h with
  | nil =>
    intro t' l' r r' h' e
    cases h' with
    | nil => cases e; exact ⟨rfl, rfl, rfl⟩
    | chr h1 h2 h3 =>
      obtain ⟨c, x, h4, h5, -⟩ := char_lead h1 h2
      rw [h4] at e
      simp only [List.nil_append, List.cons_append, List.cons.injEq] at e
      exact absurd e.1.symm h5
    | ref => simp at e
    | elem h1 h2 h3 =>
      simp only [List.nil_append, List.cons_append, List.append_assoc] at e
      exact absurd e.symm (hname h1)
  | @chr n t l h1 h2 _ ih =>
    intro t' l' r r' h' e
    obtain ⟨c, x, h4, h5, h6⟩ := char_lead h1 h2
    cases h' with
    | nil =>
      rw [h4] at e
      simp only [List.nil_append, List.cons_append, List.cons.injEq] at e
      exact absurd e.1 h5
    | @chr n' t' l' h1' h2' h3' =>
      rw [List.append_assoc, List.append_assoc] at e
      obtain ⟨rfl, e2⟩ := charBytes_prefix h1.1 h1'.1 e
      obtain ⟨rfl, rfl, rfl⟩ := ih h3' e2
      exact ⟨rfl, rfl, rfl⟩
    | ref =>
      rw [h4] at e
      simp only [List.cons_append, List.cons.injEq] at e
      exact absurd e.1 h6
    | elem =>
      rw [h4] at e
      simp only [List.cons_append, List.cons.injEq] at e
      exact absurd e.1 h5
  | @ref x t n l h1 h2 _ ih =>
    intro t' l' r r' h' e
    cases h' with
    | nil => simp at e
    | @chr n' t' l' h1' h2' h3' =>
      obtain ⟨c, x', h4, -, h6⟩ := char_lead h1' h2'
      rw [h4] at e
      simp only [List.cons_append, List.cons.injEq] at e
      exact absurd e.1.symm h6
    | @ref x' t' n' l' h1' h2' h3' =>
      simp only [List.cons_append, List.append_assoc, List.cons.injEq, true_and] at e
      obtain ⟨rfl, e2⟩ := span_unique (P := fun c => c ≠ 59) (refTo_bytes h1) (refTo_bytes h1') (by simp) (by simp) e
      obtain ⟨rfl, rfl, rfl⟩ := ih h3' (List.cons.inj e2).2
      rw [refTo_unique h1 h1']
      exact ⟨rfl, rfl, rfl⟩
    | elem => simp at e
  | @elem k c t kids l h1 _ _ ih1 ih2 =>
    intro t' l' r r' h' e
    cases h' with
    | nil =>
      simp only [List.nil_append, List.cons_append, List.append_assoc] at e
      exact absurd e (hname h1)
    | @chr n' t' l' h1' h2' h3' =>
      obtain ⟨c, x', h4, h5, -⟩ := char_lead h1' h2'
      rw [h4] at e
      simp only [List.cons_append, List.cons.injEq] at e
      exact absurd e.1.symm h5
    | ref => simp at e
    | @elem k' c' t' kids' l' h1' h2' h3' =>
      simp only [List.cons_append, List.append_assoc, List.cons.injEq, true_and] at e
      obtain ⟨rfl, e2⟩ := span_unique (P := fun c => c ≠ 62) (fun c hc => (name_bytes h1 c hc).1) (fun c hc => (name_bytes h1' c hc).1)
        (by simp) (by simp) e
      obtain ⟨rfl, rfl, e3⟩ := ih1 h2' (List.cons.inj e2).2
      have e4 := List.append_cancel_left e3
      obtain ⟨rfl, rfl, rfl⟩ := ih2 h3' (List.cons.inj e4).2
      exact ⟨rfl, rfl, rfl⟩

theorem xmlDoc_unique {t : Str} {x x' : XItem} (h : XmlDoc t x) (h' : XmlDoc t x') : x = x' := by
  obtain ⟨k, c, kids, rfl, h1, h2, rfl⟩ := h
  obtain ⟨k', c', kids', rfl, h1', h2', e⟩ := h'
  simp only [List.cons.injEq, true_and] at e
  obtain ⟨rfl, e2⟩ := span_unique (P := fun c => c ≠ 62) (fun c hc => (name_bytes h1 c hc).1) (fun c hc => (name_bytes h1' c hc).1)
    (by simp) (by simp) e
  obtain ⟨-, rfl, -⟩ := xsays_unique h2 h2' (List.cons.inj e2).2
  rfl

/-! ### What is written for a string -/

/-- what the text for a string says, character by character -/
def xcodesF : Nat → Str → List Nat
  | 0, _ => []
  | _ + 1, [] => []
  | f + 1, c :: rest =>
    (if xmlRange (decodeRune (c :: rest)).1 then (decodeRune (c :: rest)).1 else 0xFFFD) :: xcodesF f ((c :: rest).drop (decodeRune (c :: rest)).2)

theorem xmlRange_iff {n : Nat} : xmlRange n = true ↔ XmlChar n := by
  unfold xmlRange XmlChar CodePoint
  simp only [Bool.or_eq_true, Bool.and_eq_true, beq_iff_eq, decide_eq_true_eq]
  omega

theorem xmlChar_fffd : XmlChar 0xFFFD := xmlRange_iff.1 (by decide)

theorem decodeRune_cases (c : UInt8) (s : Str) :
    (∃ n, CodePoint n ∧ charBytes n <+: c :: s ∧ decodeRune (c :: s) = (n, (charBytes n).length)) ∨
    (∀ n, CodePoint n → ¬ charBytes n <+: c :: s) ∧ decodeRune (c :: s) = (0xFFFD, 1) := by
  by_cases h : ∃ n, CodePoint n ∧ charBytes n <+: c :: s
  · obtain ⟨n, h1, h2⟩ := h
    obtain ⟨r, hr⟩ := h2
    exact .inl ⟨n, h1, ⟨r, hr⟩, by rw [← hr, decodeRune_char h1]⟩
  · have h : ∀ n, CodePoint n → ¬ charBytes n <+: c :: s := fun n h1 h2 => h ⟨n, h1, h2⟩
    exact .inr ⟨h, (decodeRune_bad h).2⟩

theorem xsays_nil_append {a : Str} {n : Nat} (h : XSays a [.chr n]) {t : Str} {l : List XItem} (h' : XSays t l) : XSays (a ++ t) (.chr n :: l) :=
  xsays_append h h'

theorem xsays_chr {n : Nat} (h : XmlChar n) (h' : n ∉ [13, 38, 60, 62]) : XSays (charBytes n) [.chr n] := by
  have := XSays.chr h h' .nil
  rwa [List.append_nil] at this

theorem xsays_ref {x : Str} {n : Nat} (h : RefTo x n) (h' : XmlChar n) : XSays (38 :: (x ++ [59])) [.chr n] := .ref h h' .nil

theorem xsays_fffd : XSays [0xEF, 0xBF, 0xBD] [.chr 0xFFFD] := xsays_chr (n := 0xFFFD) xmlChar_fffd (by decide)

theorem xmlText_says : ∀ (f : Nat) (s : Str), XSays (xmlTextF f s) ((xcodesF f s).map .chr) := by
  intro f
  induction f with
  | zero => intro s; rw [xmlTextF, xcodesF]; exact .nil
  | succ f ih =>
    intro s
    cases s with
    | nil => rw [xmlTextF, xcodesF]; exact .nil
    | cons c rest =>
      have key : ∀ n k, (∀ (_ : ¬ (n = 0xFFFD ∧ k = 1)) , (c :: rest).take k = charBytes n) → CodePoint n →
          XSays (match xmlEsc n with
            | some e => e
            | none => if n = 0xFFFD ∧ k = 1 then [0xEF, 0xBF, 0xBD] else (c :: rest).take k)
            [.chr (if xmlRange n then n else 0xFFFD)] := by
        intro n k hk hn
        unfold xmlEsc
        by_cases h1 : n = 34
        · subst h1; exact xsays_ref (x := b!"#34") (.inr (.inl ⟨b!"34", rfl, .more (.one (d := 3) (by decide) (by decide)) (d := 4) (by decide) (by decide)⟩)) (xmlRange_iff.1 (by decide))
        by_cases h2 : n = 39
        · subst h2; exact xsays_ref (x := b!"#39") (.inr (.inl ⟨b!"39", rfl, .more (.one (d := 3) (by decide) (by decide)) (d := 9) (by decide) (by decide)⟩)) (xmlRange_iff.1 (by decide))
        by_cases h3 : n = 38
        · subst h3; exact xsays_ref (x := b!"amp") (.inl (by decide)) (xmlRange_iff.1 (by decide))
        by_cases h4 : n = 60
        · subst h4; exact xsays_ref (x := b!"lt") (.inl (by decide)) (xmlRange_iff.1 (by decide))
        by_cases h5 : n = 62
        · subst h5; exact xsays_ref (x := b!"gt") (.inl (by decide)) (xmlRange_iff.1 (by decide))
        by_cases h6 : n = 9
        · subst h6; exact xsays_ref (x := b!"#x9") (.inr (.inr ⟨b!"9", rfl, .one (by decide) (by decide)⟩)) (xmlRange_iff.1 (by decide))
        by_cases h7 : n = 10
        · subst h7; exact xsays_ref (x := b!"#xA") (.inr (.inr ⟨b!"A", rfl, .one (by decide) (by decide)⟩)) (xmlRange_iff.1 (by decide))
        by_cases h8 : n = 13
        · subst h8; exact xsays_ref (x := b!"#xD") (.inr (.inr ⟨b!"D", rfl, .one (by decide) (by decide)⟩)) (xmlRange_iff.1 (by decide))
        rw [if_neg h1, if_neg h2, if_neg h3, if_neg h4, if_neg h5, if_neg h6, if_neg h7, if_neg h8]
        by_cases h9 : xmlRange n = true
        · rw [if_pos h9, h9]
          simp only [Bool.not_true, Bool.false_eq_true, if_false]
          split
          · rename_i h; rw [h.1]; exact xsays_fffd
          · rename_i h; rw [hk h]
            exact xsays_chr (xmlRange_iff.1 h9) (by simp; omega)
        · rw [if_neg h9, if_pos (by simpa using h9)]
          exact xsays_fffd
      rcases decodeRune_cases c rest with ⟨n, h1, ⟨r, h2⟩, h3⟩ | ⟨-, h3⟩
      · rw [xmlTextF, xcodesF, h3]
        exact xsays_nil_append (key n _ (fun _ => by rw [← h2, List.take_left]) h1) (ih _)
      · rw [xmlTextF, xcodesF, h3]
        exact xsays_nil_append (key _ _ (by simp) (xmlChar_fffd.1)) (ih _)

theorem xcodes_all (f : Nat) : ∀ s, ∀ n ∈ xcodesF f s, XmlChar n := by
  induction f with
  | zero => intro s n hn; rw [xcodesF] at hn; exact absurd hn List.not_mem_nil
  | succ f ih =>
    intro s
    cases s with
    | nil => intro n hn; rw [xcodesF] at hn; exact absurd hn List.not_mem_nil
    | cons c rest =>
      intro n hn
      rw [xcodesF] at hn
      rcases List.mem_cons.1 hn with rfl | hn
      · split
        · rename_i h; exact xmlRange_iff.1 h
        · exact xmlChar_fffd
      · exact ih _ n hn

theorem xcodes_valid (l : List Nat) (h : ∀ n ∈ l, XmlChar n) : ∀ f, (l.flatMap charBytes).length ≤ f → xcodesF f (l.flatMap charBytes) = l := by
  induction l with
  | nil => intro f _; cases f <;> rfl
  | cons n l ih =>
    intro f hf
    have hn := h n List.mem_cons_self
    obtain ⟨c, r, e⟩ := charBytes_ne n
    rw [List.flatMap_cons] at hf ⊢
    cases f with
    | zero => rw [e] at hf; simp at hf
    | succ f =>
      have hd := decodeRune_char hn.1 (l.flatMap charBytes)
      have hdr : (charBytes n ++ l.flatMap charBytes).drop (charBytes n).length = l.flatMap charBytes := List.drop_left
      generalize hs : charBytes n ++ l.flatMap charBytes = s at *
      cases s with
      | nil => rw [e] at hs; simp at hs
      | cons c' s =>
        rw [xcodesF, hd, hdr, if_pos (xmlRange_iff.2 hn), ih (fun m hm => h m (List.mem_cons_of_mem _ hm)) f (by
          rw [← hs, e] at hf; simp only [List.cons_append, List.length_cons, List.length_append] at hf; omega)]

theorem xcodes_cleaned : ∀ (f : Nat) (s : Str), s.length ≤ f → XmlCleaned s (xcodesF f s) := by
  intro f
  induction f with
  | zero => intro s hs; cases s with
    | nil => exact .nil
    | cons _ _ => simp at hs
  | succ f ih =>
    intro s hs
    cases s with
    | nil => exact .nil
    | cons c rest =>
      rcases decodeRune_cases c rest with ⟨n, h1, ⟨r, h2⟩, h3⟩ | ⟨h2, h3⟩
      · rw [xcodesF, h3]
        obtain ⟨a, b, e⟩ := charBytes_ne n
        have hr : r.length ≤ f := by
          have := congrArg List.length h2
          rw [e] at this
          simp only [List.cons_append, List.length_cons, List.length_append] at this hs
          omega
        simp only [← h2, List.drop_left]
        by_cases hx : xmlRange n = true
        · rw [if_pos hx]; exact .good (xmlRange_iff.1 hx) (ih r hr)
        · rw [if_neg hx]; exact .never h1 (fun h => hx (xmlRange_iff.2 h)) (ih r hr)
      · rw [xcodesF, h3]
        have := XmlCleaned.bad h2 (ih rest (by simp at hs; omega))
        simpa using this

/-! ### What is written for a value -/

/-- the characters that are written for a value that is neither a struct nor a slice -/
def leafCodes : Val → List Nat
  | .int i => (itoa i).map UInt8.toNat
  | .uint n => (itoaNat n).map UInt8.toNat
  | .bool b => (if b then b!"true" else b!"false").map UInt8.toNat
  | .string s => xcodesF s.length s
  | _ => []

theorem says_ascii {s : Str} (h : ∀ c ∈ s, c ∈ b!"-0123456789truefalse") : XSays s ((s.map UInt8.toNat).map .chr) := by
  induction s with
  | nil => exact .nil
  | cons c s ih =>
    have hc := h c List.mem_cons_self
    have key : ∀ c ∈ b!"-0123456789truefalse", c < 0x80 ∧ xmlRange c.toNat = true ∧ c.toNat ∉ [13, 38, 60, 62] := by decide
    obtain ⟨h1, h2, h3⟩ := key c hc
    have := XSays.chr (xmlRange_iff.1 h2) h3 (ih (fun d hd => h d (List.mem_cons_of_mem _ hd)))
    rwa [charBytes_byte c h1] at this

theorem itoa_bytes (i : Int) : ∀ c ∈ itoa i, c ∈ b!"-0123456789truefalse" := by
  intro c hc
  have h1 := numText_bytes (numText_int (itoa_digits i))
  have hd : ∀ n, ∀ c ∈ itoaNat n, c ∈ b!"-0123456789truefalse" := by
    intro n c hc
    have := digit_bounds ((itoaNat_spec n).1.2 c hc)
    have key : ∀ c : UInt8, 48 ≤ c.toNat ∧ c.toNat ≤ 57 → c ∈ b!"-0123456789truefalse" := by apply all_bytes; decide +kernel
    exact key c this
  unfold itoa at hc
  split at hc
  · rcases List.mem_cons.1 hc with rfl | hc
    · decide
    · exact hd _ c hc
  · exact hd _ c hc

theorem leaf_says (v : Val) : XSays (xmlLeaf v) ((leafCodes v).map .chr) := by
  cases v with
  | int i => exact says_ascii (itoa_bytes i)
  | uint n =>
    have : itoa (n : Int) = itoaNat n := by unfold itoa; simp
    have h := itoa_bytes n
    rw [this] at h
    exact says_ascii h
  | bool b => cases b <;> exact says_ascii (by decide)
  | string s => exact xmlText_says _ s
  | _ => exact .nil

mutual
/-- the elements that are written for a value -/
def xitems (E : TyEnv) (k : Str) (opt : Bool) : Ty → Val → List XItem
  | .ptr t, .ptr v => xitems E k opt t v
  | .ptr _, _ => []
  | .slice t, .slice vs => xelems E k opt t vs
  | .slice _, _ => []
  | .struct n, .struct vs => [.elem k (xfields E ((E n).map retag) vs)]
  | _, v => [.elem k ((leafCodes v).map .chr)]

def xelems (E : TyEnv) (k : Str) (opt : Bool) (t : Ty) : List Val → List XItem
  | [] => []
  | v :: vs => (if opt && emptyVal v then [] else xitems E k opt t v) ++ xelems E k opt t vs

def xfields (E : TyEnv) : List Field → List Val → List XItem
  | fd :: fds, v :: vs =>
    (match sentAs fd v with
      | none => []
      | some k => xitems E k (omitsEmpty fd) fd.ty v) ++ xfields E fds vs
  | _, _ => []
end

theorem elem_says {k c : Str} {kids : List XItem} (hk : XName k) (h : XSays c kids) : XSays (xmlElem k c) [.elem k kids] := by
  have := XSays.elem hk h .nil
  unfold xmlElem
  simpa using this

/-! ### What is written says the elements -/

theorem elems_says {k : Str} {opt : Bool} {t : Ty} (vs : List Val)
    (h : ∀ (i : Nat) v, vs[i]? = some v → XSays (xmlValue E k opt t v) (xitems E k opt t v)) :
    XSays (xmlElems E k opt t vs) (xelems E k opt t vs) := by
  induction vs with
  | nil => rw [xmlElems, xelems]; exact .nil
  | cons v vs ih =>
    rw [xmlElems, xelems]
    refine xsays_append ?_ (ih (fun i w hw => h (i + 1) w hw))
    split
    · exact .nil
    · exact h 0 v rfl

theorem fields_says (fds : List Field) : ∀ vs : List Val,
    (∀ (i : Nat) fd v k, fds[i]? = some fd → vs[i]? = some v → sentAs fd v = some k →
      XSays (xmlValue E k (omitsEmpty fd) fd.ty v) (xitems E k (omitsEmpty fd) fd.ty v)) →
    XSays (xmlFields E fds vs) (xfields E fds vs) := by
  induction fds with
  | nil => intro vs _; rw [xmlFields, xfields] <;> first | exact .nil | simp
  | cons fd fds ih =>
    intro vs h
    cases vs with
    | nil => rw [xmlFields, xfields] <;> first | exact .nil | simp
    | cons v vs =>
      rw [xmlFields, xfields]
      refine xsays_append ?_ (ih vs (fun i fd w k hf hw hs => h (i + 1) fd w k hf hw hs))
      cases hs : sentAs fd v with
      | none => exact .nil
      | some k => exact h 0 fd v k rfl rfl hs

theorem xmlFields_name {fds : List Field} (h : XmlFields fds) {i : Nat} {fd : Field} {v : Val} {k : Str}
    (hi : (fds.map retag)[i]? = some fd) (hs : sentAs fd v = some k) : XName k := by
  have hm : fd ∈ fds.map forXml := List.mem_of_getElem? hi
  obtain ⟨opt, h1, -⟩ := sentAs_some (h.1.1 fd hm).2 hs
  obtain ⟨fd', h2, rfl⟩ := List.mem_map.1 hm
  exact (h.2 fd' h2).2 k opt h1

theorem xml_says {t : Ty} {v : Val} (h : XmlVal E t v) : ∀ {k : Str} {opt : Bool}, XName k → XSays (xmlValue E k opt t v) (xitems E k opt t v) := by
  induction h with
  | int => intro k opt hk; rw [xmlValue, xitems] <;> first | exact elem_says hk (leaf_says _) | simp
  | uint => intro k opt hk; rw [xmlValue, xitems] <;> first | exact elem_says hk (leaf_says _) | simp
  | bool => intro k opt hk; rw [xmlValue, xitems] <;> first | exact elem_says hk (leaf_says _) | simp
  | string => intro k opt hk; rw [xmlValue, xitems] <;> first | exact elem_says hk (leaf_says _) | simp
  | nilPtr => intro k opt hk; rw [xmlValue, xitems] <;> first | exact .nil | simp
  | ptr _ ih => intro k opt hk; rw [xmlValue, xitems]; exact ih hk
  | nilSlice => intro k opt hk; rw [xmlValue, xitems] <;> first | exact .nil | simp
  | slice _ _ ih => intro k opt hk; rw [xmlValue, xitems]; exact elems_says _ (fun i v hv => ih i v hv hk)
  | @struct n vs hf hl _ ih =>
    intro k opt hk
    rw [xmlValue, xitems]
    refine elem_says hk (fields_says _ _ ?_)
    intro i fd v k' hi hv hs
    have hn := xmlFields_name hf hi hs
    rw [List.getElem?_map] at hi
    cases hfd : (E n)[i]? with
    | none => rw [hfd] at hi; cases hi
    | some fd' =>
      rw [hfd] at hi
      cases hi
      exact ih i fd' v hfd hv hn

/-! ### Reading the elements -/

/-- elements read into one variable, one after the other -/
def xfold (E : TyEnv) (t : Ty) : List XItem → Val → Option Val
  | [], w => some w
  | x :: xs, w => (xmlThrough (readXItem E x) t w).bind (xfold E t xs)

/-- each element read into a variable of its own -/
def xmap (E : TyEnv) (t : Ty) : List XItem → Option (List Val)
  | [] => some []
  | x :: xs => (xmlThrough (readXItem E x) t (blank t)).bind (fun v => (xmap E t xs).map (v :: ·))

theorem through_ptr (f : Ty → Val → Option Val) {t : Ty} (h : ∀ t', t ≠ .ptr t') (w : Val) :
    xmlThrough f (.ptr t) w = (xmlThrough f t (behindPtr t w)).map .ptr := by
  cases t with
  | ptr t' => exact absurd rfl (h t')
  | _ => rw [xmlThrough]; simp

theorem xfold_ptr {t : Ty} (h : ∀ t', t ≠ .ptr t') : ∀ (xs : List XItem) (w : Val),
    xfold E (.ptr t) xs (.ptr w) = (xfold E t xs w).map .ptr := by
  intro xs
  induction xs with
  | nil => intro w; rfl
  | cons x xs ih =>
    intro w
    rw [xfold, xfold, through_ptr _ h, behindPtr]
    cases xmlThrough (readXItem E x) t w with
    | none => rfl
    | some v => exact ih v

theorem xfold_ptr_new {t : Ty} (h : ∀ t', t ≠ .ptr t') (x : XItem) (xs : List XItem) :
    xfold E (.ptr t) (x :: xs) .zero = (xfold E t (x :: xs) (blank t)).map .ptr := by
  rw [xfold, xfold, through_ptr _ h, show behindPtr t .zero = blank t from rfl]
  cases xmlThrough (readXItem E x) t (blank t) with
  | none => rfl
  | some v => exact xfold_ptr h xs v

theorem xfold_slice {t : Ty} : ∀ (xs : List XItem) (old : List Val),
    xfold E (.slice t) xs (.slice old) = (xmap E t xs).map (fun ws => .slice (old ++ ws)) := by
  intro xs
  induction xs with
  | nil => intro old; simp [xfold, xmap]
  | cons x xs ih =>
    intro old
    rw [xfold, xmap, xmlThrough]
    cases xmlThrough (readXItem E x) t (blank t) with
    | none => rfl
    | some v =>
      simp only [Option.map_some, Option.bind_some, oldElems, ih]
      cases xmap E t xs with
      | none => rfl
      | some ws => simp

theorem xfold_slice_new {t : Ty} (x : XItem) (xs : List XItem) :
    xfold E (.slice t) (x :: xs) .zero = (xmap E t (x :: xs)).map .slice := by
  rw [xfold, xmap, xmlThrough]
  cases xmlThrough (readXItem E x) t (blank t) with
  | none => rfl
  | some v =>
    simp only [Option.map_some, Option.bind_some, oldElems, xfold_slice]
    cases xmap E t xs with
    | none => rfl
    | some ws => simp

theorem xitems_named (E : TyEnv) (k : Str) (opt : Bool) (t : Ty) (v : Val) :
    ∀ x ∈ xitems E k opt t v, x.name = some k := by
  have key : ∀ (m : Nat) (t : Ty) (v : Val), sizeOf v < m → ∀ x ∈ xitems E k opt t v, x.name = some k := by
    intro m
    induction m with
    | zero => intro t v h; omega
    | succ m ih =>
      intro t v hm x hx
      have leaf : ∀ l, x ∈ [XItem.elem k l] → x.name = some k := by
        intro l h
        rw [List.mem_singleton] at h
        subst h; rfl
      cases t with
      | ptr t =>
        cases v with
        | ptr v => rw [xitems] at hx; exact ih t v (by simp at hm; omega) x hx
        | _ => rw [xitems] at hx <;> first | exact absurd hx List.not_mem_nil | simp
      | slice t =>
        cases v with
        | slice vs =>
          rw [xitems] at hx
          have : ∀ vs : List Val, sizeOf vs < m → ∀ x ∈ xelems E k opt t vs, x.name = some k := by
            intro vs
            induction vs with
            | nil => intro _ x hx; rw [xelems] at hx; exact absurd hx List.not_mem_nil
            | cons v vs ihv =>
              intro hvs x hx
              rw [xelems] at hx
              rcases List.mem_append.1 hx with hx | hx
              · split at hx
                · exact absurd hx List.not_mem_nil
                · exact ih t v (by simp at hvs; omega) x hx
              · exact ihv (by simp at hvs; omega) x hx
          exact this vs (by simp at hm; omega) x hx
        | _ => rw [xitems] at hx <;> first | exact absurd hx List.not_mem_nil | simp
      | struct n =>
        cases v with
        | struct vs => rw [xitems] at hx; exact leaf _ hx
        | _ => rw [xitems] at hx <;> first | exact leaf _ hx | simp
      | _ => rw [xitems] at hx <;> first | exact leaf _ hx | simp
  exact key _ t v (Nat.lt_succ_self _)

theorem idx_exact {fds : List Field} (hp : PlainFields fds) {i : Nat} {fd : Field} {k : Str} {opt : Bool} (hi : fds[i]? = some fd)
    (hk : SentUnder fd k opt) : fds.findIdx? (fun fd => jsonKey fd == some k) = some i := by
  have h := fieldFor_exact hp hi hk
  have hx : ∃ x, fds.findIdx? (fun fd => jsonKey fd == some k) = some x := by
    cases hc : fds.findIdx? (fun fd => jsonKey fd == some k) with
    | some x => exact ⟨x, rfl⟩
    | none =>
      rw [List.findIdx?_eq_none_iff] at hc
      have := hc fd (List.mem_of_getElem? hi)
      rw [(sentUnder_head hk).1] at this
      simp at this
  obtain ⟨x, hx⟩ := hx
  unfold fieldFor at h
  rw [hx] at h
  rw [hx]
  exact h

/-- the elements of one field -/
theorem items_field {fds : List Field} (hp : PlainFields fds) {i : Nat} {fd : Field} {k : Str} {opt : Bool} (hi : fds[i]? = some fd)
    (hk : SentUnder fd k opt) (rest : List XItem) : ∀ (xs : List XItem) (w : Val) (now : List Val), (∀ x ∈ xs, x.name = some k) → now[i]? = some w →
    readXItems E fds (xs ++ rest) now = (xfold E fd.ty xs w).bind (fun v => readXItems E fds rest (now.set i v)) := by
  intro xs
  induction xs with
  | nil =>
    intro w now _ hw
    have : now.set i w = now := by
      apply List.ext_getElem?
      intro j
      rw [List.getElem?_set]
      by_cases h : i = j
      · subst h
        rw [if_pos rfl, hw, if_pos (List.getElem?_eq_some_iff.1 hw).1]
      · rw [if_neg h]
    rw [xfold, Option.bind_some, this]; rfl
  | cons x xs ih =>
    intro w now hx hw
    rw [List.cons_append, readXItems, hx x List.mem_cons_self]
    simp only []
    rw [idx_exact hp hi hk]
    simp only [hi, hw]
    rw [xfold]
    cases xmlThrough (readXItem E x) fd.ty w with
    | none => rfl
    | some v =>
      simp only [Option.bind_some]
      have hlt := (List.getElem?_eq_some_iff.1 hw).1
      rw [ih v (now.set i v) (fun y hy => hx y (List.mem_cons_of_mem _ hy)) (by rw [List.getElem?_set, if_pos rfl, if_pos hlt])]
      congr 1
      funext u
      rw [List.set_set]

theorem blanks_get {fds : List Field} {i : Nat} {w : Val} (h : (fds.map (fun fd => blank fd.ty))[i]? = some w) :
    ∃ fd, fds[i]? = some fd ∧ w = blank fd.ty := by
  rw [List.getElem?_map] at h
  cases hf : fds[i]? with
  | none => rw [hf] at h; cases h
  | some fd => rw [hf] at h; cases h; exact ⟨fd, rfl, rfl⟩

/-- the fields of a struct, from the `p`-th on -/
theorem xfields_read {fds : List Field} (hp : PlainFields fds) {vs : List Val} (hv : vs.length = fds.length)
    (hun : ∀ (i : Nat) fd v, fds[i]? = some fd → vs[i]? = some v → (NeverSent fd ∨ ∃ k, SentUnder fd k true ∧ EmptyV v) → v = blank fd.ty)
    (hs : ∀ (i : Nat) fd v k opt, fds[i]? = some fd → vs[i]? = some v → SentUnder fd k opt → (opt = true → ¬ EmptyV v) →
      xfold E fd.ty (xitems E k opt fd.ty v) (blank fd.ty) = some v) :
    ∀ (m p : Nat), p + m = fds.length → ∀ now : List Val, now.length = fds.length → (∀ i, i < p → now[i]? = vs[i]?) →
      (∀ i fd, p ≤ i → fds[i]? = some fd → now[i]? = some (blank fd.ty)) →
      readXItems E fds (xfields E (fds.drop p) (vs.drop p)) now = some vs := by
  intro m
  induction m with
  | zero =>
    intro p hpm now hn hlo hhi
    have : now = vs := by
      apply List.ext_getElem?
      intro i
      by_cases hi : i < p
      · exact hlo i hi
      · rw [List.getElem?_eq_none (by omega), List.getElem?_eq_none (by omega)]
    subst this
    rw [List.drop_eq_nil_of_le (by omega), xfields]
    · rw [readXItems]
    · simp
  | succ m ih =>
    intro p hpm now hn hlo hhi
    have hpf : p < fds.length := by omega
    have hpv : p < vs.length := by omega
    rw [List.drop_eq_getElem_cons hpf, List.drop_eq_getElem_cons hpv, xfields]
    have e1 := List.getElem?_eq_getElem hpf
    have e2 := List.getElem?_eq_getElem hpv
    have e4 := hhi p _ (Nat.le_refl _) e1
    have hpl := (hp.1 _ (List.getElem_mem hpf)).2
    cases hsa : sentAs fds[p] vs[p] with
    | none =>
      have hu := hun p _ _ e1 e2 ((sentAs_none hpl).1 hsa)
      exact ih (p + 1) (by omega) now hn (by
        intro i hi
        by_cases h : i < p
        · exact hlo i h
        · have : i = p := by omega
          subst this
          rw [e4, e2, hu]) (fun i fd hi hf => hhi i fd (by omega) hf)
    | some k =>
      obtain ⟨opt, hk, ho⟩ := sentAs_some hpl hsa
      have h2 := hs p _ _ k opt e1 e2 hk ho
      simp only []
      rw [items_field hp e1 hk _ _ _ _ (xitems_named E k _ _ _) e4, (sentUnder_head hk).2, h2, Option.bind_some]
      exact ih (p + 1) (by omega) (now.set p vs[p]) (by rw [List.length_set]; exact hn) (by
        intro i hi
        rw [List.getElem?_set]
        by_cases h : p = i
        · subst h
          rw [if_pos rfl, if_pos (by omega), e2]
        · rw [if_neg h]; exact hlo i (by omega)) (by
        intro i fd hi hf
        rw [List.getElem?_set, if_neg (by omega)]
        exact hhi i fd (by omega) hf)

theorem dataOf_codes (f : Nat → Str) (l : List Nat) : dataOf f (l.map .chr) = l.flatMap f := by
  induction l with
  | nil => rfl
  | cons n l ih => rw [List.map_cons, dataOf, ih, List.flatMap_cons]

theorem dataOf_ascii {s : Str} (h : ∀ c ∈ s, c ∈ b!"-0123456789truefalse") : dataOf utf8Bytes ((s.map UInt8.toNat).map .chr) = s := by
  rw [dataOf_codes]
  induction s with
  | nil => rfl
  | cons c s ih =>
    rw [List.map_cons, List.flatMap_cons, ih (fun d hd => h d (List.mem_cons_of_mem _ hd))]
    unfold utf8Bytes
    rw [charBytes_byte c ((by decide : ∀ c ∈ b!"-0123456789truefalse", c < 0x80) c (h c List.mem_cons_self))]
    rfl

theorem read_leaf (k : Str) (kids : List XItem) {t : Ty} (h : ∀ n, t ≠ .struct n) (cur : Val) :
    readXItem E (.elem k kids) t cur = readLeaf (dataOf utf8Bytes kids) t := by
  rw [readXItem]
  exact h

theorem int_leaf {bits : Nat} {i : Int} (h1 : 2 ≤ bits) (h2 : bits ≤ 64) (h3 : FitsInt bits i) :
    readLeaf (dataOf utf8Bytes ((leafCodes (.int i)).map .chr)) (.int bits) = some (.int i) := by
  rw [leafCodes, dataOf_ascii (itoa_bytes i), readLeaf]
  have hne : itoa i ≠ [] := by
    intro e
    obtain ⟨c, r, h, -⟩ := numText_head (numText_int (itoa_digits i))
    rw [e] at h; cases h
  have : parseInt bits (itoa i) = (i, none) := (parseInt_ok h1 h2).2 ⟨itoa_signed i, by
    have e : ((2 ^ (bits - 1) : Nat) : Int) = 2 ^ (bits - 1) := by push_cast; rfl
    rw [e]; exact h3⟩
  rw [if_neg hne, signed_trim (itoa_signed i), this]

theorem uint_leaf {bits n : Nat} (h1 : bits ≤ 64) (h2 : n < 2 ^ bits) :
    readLeaf (dataOf utf8Bytes ((leafCodes (.uint n)).map .chr)) (.uint bits) = some (.uint n) := by
  have e : itoa (n : Int) = itoaNat n := by unfold itoa; simp
  have hb := itoa_bytes n
  rw [e] at hb
  have hs := itoa_signed n
  rw [e] at hs
  rw [leafCodes, dataOf_ascii hb, readLeaf]
  have : parseUint bits (itoaNat n) = (n, none) := (parseUint_ok h1).2 ⟨(itoaNat_spec n).1, (itoaNat_spec n).2, h2⟩
  rw [if_neg (itoaNat_spec n).1.1, signed_trim hs, this]

theorem bool_leaf (b : Bool) : readLeaf (dataOf utf8Bytes ((leafCodes (.bool b)).map .chr)) .bool = some (.bool b) := by
  cases b with
  | true =>
    rw [leafCodes, dataOf_ascii (by decide), readLeaf, if_neg (by decide)]
    rw [show parseBool (trimSpace (if true = true then b!"true" else b!"false")) = (true, none) from by decide +kernel]
  | false =>
    rw [leafCodes, dataOf_ascii (by decide), readLeaf, if_neg (by decide)]
    rw [show parseBool (trimSpace (if false = true then b!"true" else b!"false")) = (false, none) from by decide +kernel]

theorem string_leaf (s : Str) : readLeaf (dataOf utf8Bytes ((leafCodes (.string s)).map .chr)) .string = some (.string s) ↔ XmlString s := by
  rw [leafCodes, dataOf_codes, readLeaf]
  constructor
  · intro h
    simp only [Option.some.injEq, Val.string.injEq] at h
    exact ⟨_, xcodes_all _ _, h.symm⟩
  · rintro ⟨l, h1, rfl⟩
    rw [xcodes_valid l h1 _ (Nat.le_refl _)]
    rfl

theorem xfold_one (t : Ty) (x : XItem) (w : Val) : xfold E t [x] w = xmlThrough (readXItem E x) t w := by
  rw [xfold]
  cases xmlThrough (readXItem E x) t w <;> rfl

theorem length_one {α : Type} {l : List α} (h : l.length = 1) : ∃ x, l = [x] := by
  match l, h with
  | [x], _ => exact ⟨x, rfl⟩

theorem xelems_read {k : Str} {opt : Bool} {t : Ty} (vs : List Val) (h1 : ∀ (i : Nat) v, vs[i]? = some v → opt = true → ¬ EmptyV v)
    (h2 : ∀ (i : Nat) v, vs[i]? = some v → (xitems E k opt t v).length = 1 ∧ xfold E t (xitems E k opt t v) (blank t) = some v) :
    (xelems E k opt t vs).length = vs.length ∧ xmap E t (xelems E k opt t vs) = some vs := by
  induction vs with
  | nil => rw [xelems]; exact ⟨rfl, rfl⟩
  | cons v vs ih =>
    obtain ⟨h3, h4⟩ := ih (fun i w hw => h1 (i + 1) w hw) (fun i w hw => h2 (i + 1) w hw)
    obtain ⟨h5, h6⟩ := h2 0 v rfl
    obtain ⟨x, hx⟩ := length_one h5
    have hc : (opt && emptyVal v) = false := by
      rw [Bool.and_eq_false_iff]
      cases opt with
      | false => exact .inl rfl
      | true =>
        right
        cases he : emptyVal v with
        | false => rfl
        | true => exact absurd ((emptyVal_iff v).1 he) (h1 0 v rfl rfl)
    rw [hx, xfold_one] at h6
    rw [xelems, hc, hx]
    refine ⟨by simp [h3], ?_⟩
    simp only [Bool.false_eq_true, if_false, List.cons_append, List.nil_append]
    rw [xmap, h6, h4]; rfl

theorem back_reads {opt : Bool} {t : Ty} {m : Nat} {v : Val} (h : XmlBack E opt t m v) :
    ∀ k, (xitems E k opt t v).length = m ∧ xfold E t (xitems E k opt t v) (blank t) = some v := by
  induction h with
  | int h1 h2 h3 =>
    intro k
    rw [xitems] <;> first | (refine ⟨rfl, ?_⟩; rw [xfold_one, xmlThrough, read_leaf k _ (by simp)]; exact int_leaf h1 h2 h3; all_goals simp) | simp
  | uint h1 h2 =>
    intro k
    rw [xitems] <;> first | (refine ⟨rfl, ?_⟩; rw [xfold_one, xmlThrough, read_leaf k _ (by simp)]; exact uint_leaf h1 h2; all_goals simp) | simp
  | bool =>
    intro k
    rw [xitems] <;> first | (refine ⟨rfl, ?_⟩; rw [xfold_one, xmlThrough, read_leaf k _ (by simp)]; exact bool_leaf _; all_goals simp) | simp
  | string h =>
    intro k
    rw [xitems] <;> first | (refine ⟨rfl, ?_⟩; rw [xfold_one, xmlThrough, read_leaf k _ (by simp)]; exact (string_leaf _).2 h; all_goals simp) | simp
  | nilPtr => intro k; rw [xitems] <;> first | exact ⟨rfl, rfl⟩ | simp
  | @ptr opt t m v h1 h2 _ ih =>
    intro k
    obtain ⟨h3, h4⟩ := ih k
    rw [xitems]
    refine ⟨h3, ?_⟩
    rw [show blank (.ptr t) = .zero from rfl]
    cases hx : xitems E k opt t v with
    | nil => rw [hx] at h3; exact absurd h3.symm h2
    | cons x xs =>
      rw [hx] at h4
      rw [xfold_ptr_new h1, h4]; rfl
  | nilSlice => intro k; rw [xitems] <;> first | exact ⟨rfl, rfl⟩ | simp
  | @slice opt t vs h1 h2 h3 _ ih =>
    intro k
    obtain ⟨h4, h5⟩ := xelems_read (E := E) (k := k) (opt := opt) (t := t) vs h3 (fun i v hv => ih i v hv k)
    rw [xitems]
    refine ⟨h4, ?_⟩
    rw [show blank (.slice t) = .zero from rfl]
    cases hx : xelems E k opt t vs with
    | nil =>
      rw [hx] at h4
      cases vs with
      | nil => exact absurd rfl h2
      | cons _ _ => simp at h4
    | cons x xs =>
      rw [hx] at h5
      rw [xfold_slice_new, h5]; rfl
  | @struct opt n vs m hf hl hun _ ih =>
    intro k
    rw [xitems]
    refine ⟨rfl, ?_⟩
    rw [xfold_one, xmlThrough, readXItem]
    · have key := xfields_read (E := E) (fds := (E n).map retag) hf.1 (vs := vs) (by simpa using hl)
        (by
          intro i fd v hi hv h
          rw [List.getElem?_map] at hi
          cases hfd : (E n)[i]? with
          | none => rw [hfd] at hi; cases hi
          | some fd' => rw [hfd] at hi; cases hi; exact hun i fd' v hfd hv h)
        (by
          intro i fd v k' o hi hv hk ho
          rw [List.getElem?_map] at hi
          cases hfd : (E n)[i]? with
          | none => rw [hfd] at hi; cases hi
          | some fd' => rw [hfd] at hi; cases hi; exact (ih i fd' v k' o hfd hv hk ho k').2)
        (E n).length 0 (by simp) (oldFields (E n) .zero) (by simp [oldFields]) (by intro i hi; omega) (by
          intro i fd _ hi
          rw [List.getElem?_map] at hi
          cases hfd : (E n)[i]? with
          | none => rw [hfd] at hi; cases hi
          | some fd' => rw [hfd] at hi; cases hi; simp [oldFields, hfd, retag])
      rw [List.drop_zero, List.drop_zero] at key
      rw [show blank (.struct n) = .zero from rfl, key]; rfl
    · simp
    · simp
    · simp

/-! ### What is not read back -/

/-- what one element makes is written as one element at most -/
theorem one_item (k : Str) (opt : Bool) (f : Ty → Val → Option Val) : ∀ (t : Ty) (v : Val), xmlThrough f t (blank t) = some v →
    (xitems E k opt t v).length ≤ 1 := by
  intro t
  induction t with
  | ptr t ih =>
    intro v h
    by_cases ht : ∃ t', t = .ptr t'
    · obtain ⟨t', rfl⟩ := ht
      rw [xmlThrough] at h; cases h
    · rw [through_ptr f (fun t' e => ht ⟨t', e⟩)] at h
      rw [show behindPtr t (blank (.ptr t)) = blank t from rfl] at h
      cases hr : xmlThrough f t (blank t) with
      | none => rw [hr] at h; cases h
      | some w =>
        rw [hr] at h
        cases h
        rw [xitems]
        exact ih w hr
  | slice t ih =>
    intro v h
    rw [xmlThrough] at h
    cases hr : xmlThrough f t (blank t) with
    | none => rw [hr] at h; cases h
    | some w =>
      rw [hr] at h
      cases h
      rw [show oldElems (blank (.slice t)) = [] from rfl, xitems]
      rw [List.nil_append, xelems, xelems, List.append_nil]
      split
      · simp
      · exact ih w hr
  | struct n =>
    intro v _
    cases v with
    | struct vs => rw [xitems]; simp
    | _ => rw [xitems] <;> simp
  | _ =>
    intro v _
    rw [xitems] <;> simp

theorem xmap_length {t : Ty} : ∀ (xs : List XItem) (ws : List Val), xmap E t xs = some ws → ws.length = xs.length ∧
    ∀ (i : Nat) w, ws[i]? = some w → ∃ x, xs[i]? = some x ∧ xmlThrough (readXItem E x) t (blank t) = some w := by
  intro xs
  induction xs with
  | nil => intro ws h; cases h; exact ⟨rfl, by simp⟩
  | cons x xs ih =>
    intro ws h
    rw [xmap] at h
    cases hr : xmlThrough (readXItem E x) t (blank t) with
    | none => rw [hr] at h; cases h
    | some v =>
      rw [hr] at h
      cases hm : xmap E t xs with
      | none => rw [hm] at h; cases h
      | some ws' =>
        rw [hm] at h
        cases h
        obtain ⟨h1, h2⟩ := ih ws' hm
        refine ⟨by simp [h1], ?_⟩
        intro i w hw
        cases i with
        | zero => cases hw; exact ⟨x, rfl, hr⟩
        | succ i => exact h2 i w hw

/-- as many elements as values: each has one -/
theorem xelems_each {k : Str} {opt : Bool} {t : Ty} (vs : List Val)
    (h : ∀ v ∈ vs, (xitems E k opt t v).length ≤ 1) :
    (xelems E k opt t vs).length ≤ vs.length ∧ ((xelems E k opt t vs).length = vs.length →
      ∀ (i : Nat) v, vs[i]? = some v → (opt = true → ¬ EmptyV v) ∧ ∃ x, xitems E k opt t v = [x] ∧ (xelems E k opt t vs)[i]? = some x) := by
  induction vs with
  | nil => rw [xelems]; exact ⟨Nat.le_refl _, by simp⟩
  | cons v vs ih =>
    obtain ⟨h1, h2⟩ := ih (fun w hw => h w (List.mem_cons_of_mem _ hw))
    have h3 := h v List.mem_cons_self
    rw [xelems]
    by_cases hc : (opt && emptyVal v) = true
    · rw [if_pos hc]
      simp only [List.nil_append, List.length_cons]
      exact ⟨by omega, fun e => by omega⟩
    · rw [if_neg hc]
      simp only [List.length_append, List.length_cons]
      refine ⟨by omega, ?_⟩
      intro e i w hw
      obtain ⟨x, hx⟩ := length_one (l := xitems E k opt t v) (by omega)
      cases i with
      | zero =>
        cases hw
        refine ⟨?_, x, hx, by rw [hx]; rfl⟩
        rintro rfl he
        exact hc (by rw [(emptyVal_iff _).2 he]; rfl)
      | succ i =>
        obtain ⟨h4, y, h5, h6⟩ := h2 (by omega) i w hw
        exact ⟨h4, y, h5, by rw [hx]; simpa using h6⟩

theorem xfields_inv {fds : List Field} (hp : PlainFields fds) {vs : List Val} (hv : vs.length = fds.length) :
    ∀ (m p : Nat), p + m = fds.length → ∀ (now ws : List Val), now.length = fds.length →
      readXItems E fds (xfields E (fds.drop p) (vs.drop p)) now = some ws →
      (∀ i, i < p → ws[i]? = now[i]?) ∧
      ∀ (i : Nat) fd v w, p ≤ i → fds[i]? = some fd → vs[i]? = some v → now[i]? = some w →
        (sentAs fd v = none → ws[i]? = some w) ∧
        ∀ k, sentAs fd v = some k → ∃ v', xfold E fd.ty (xitems E k (omitsEmpty fd) fd.ty v) w = some v' ∧ ws[i]? = some v' := by
  intro m
  induction m with
  | zero =>
    intro p hpm now ws hn h
    rw [List.drop_eq_nil_of_le (by omega), xfields] at h
    · rw [readXItems] at h
      cases h
      refine ⟨fun _ _ => rfl, ?_⟩
      intro i fd v w hi hf
      have := (List.getElem?_eq_some_iff.1 hf).1
      omega
    · simp
  | succ m ih =>
    intro p hpm now ws hn h
    have hpf : p < fds.length := by omega
    have hpv : p < vs.length := by omega
    have hpn : p < now.length := by omega
    rw [List.drop_eq_getElem_cons hpf, List.drop_eq_getElem_cons hpv, xfields] at h
    have e1 := List.getElem?_eq_getElem hpf
    have e2 := List.getElem?_eq_getElem hpv
    have e3 := List.getElem?_eq_getElem hpn
    have hpl := (hp.1 _ (List.getElem_mem hpf)).2
    cases hsa : sentAs fds[p] vs[p] with
    | none =>
      rw [hsa] at h
      obtain ⟨hlo, hhi⟩ := ih (p + 1) (by omega) now ws hn h
      refine ⟨fun i hi => hlo i (by omega), ?_⟩
      intro i fd v w hi hf hv' hw
      by_cases hip : i = p
      · subst hip
        rw [e1] at hf; rw [e2] at hv'; cases hf; cases hv'
        refine ⟨fun _ => by rw [hlo i (by omega), hw], ?_⟩
        intro k hk
        rw [hsa] at hk; cases hk
      · exact hhi i fd v w (by omega) hf hv' hw
    | some k =>
      rw [hsa] at h
      simp only [] at h
      obtain ⟨opt, hk, ho⟩ := sentAs_some hpl hsa
      rw [items_field hp e1 hk _ _ _ _ (xitems_named E k _ _ _) e3] at h
      cases hr : xfold E fds[p].ty (xitems E k (omitsEmpty fds[p]) fds[p].ty vs[p]) now[p] with
      | none => rw [hr] at h; cases h
      | some v' =>
        rw [hr] at h
        obtain ⟨hlo, hhi⟩ := ih (p + 1) (by omega) (now.set p v') ws (by rw [List.length_set]; exact hn) h
        refine ⟨fun i hi => by rw [hlo i (by omega), List.getElem?_set, if_neg (by omega)], ?_⟩
        intro i fd v w hi hf hv' hw
        by_cases hip : i = p
        · subst hip
          rw [e1] at hf; rw [e2] at hv'; rw [e3] at hw; cases hf; cases hv'; cases hw
          refine ⟨fun hk => (by rw [hsa] at hk; cases hk), ?_⟩
          intro k' hk'
          rw [hsa] at hk'
          cases hk'
          refine ⟨v', hr, ?_⟩
          rw [hlo i (by omega), List.getElem?_set, if_pos rfl, if_pos hpn]
        · refine hhi i fd v w (by omega) hf hv' ?_
          rw [List.getElem?_set, if_neg (by omega)]
          exact hw

theorem reads_back {t : Ty} {v : Val} (h : XmlVal E t v) : ∀ {k : Str} {opt : Bool}, xfold E t (xitems E k opt t v) (blank t) = some v →
    XmlBack E opt t (xitems E k opt t v).length v := by
  induction h with
  | int h1 h2 h3 => intro k opt _; rw [xitems] <;> first | exact .int h1 h2 h3 | simp
  | uint h1 h2 => intro k opt _; rw [xitems] <;> first | exact .uint h1 h2 | simp
  | bool => intro k opt _; rw [xitems] <;> first | exact .bool | simp
  | @string s =>
    intro k opt h
    have e : xitems E k opt .string (.string s) = [.elem k ((leafCodes (.string s)).map .chr)] := by rw [xitems] <;> simp
    rw [e] at h ⊢
    rw [xfold_one, xmlThrough, read_leaf k _ (by simp)] at h
    · exact .string ((string_leaf s).1 h)
    all_goals simp
  | nilPtr => intro k opt _; rw [xitems] <;> first | exact .nilPtr | simp
  | @ptr t v _ ih =>
    intro k opt h
    rw [xitems] at h ⊢
    rw [show blank (.ptr t) = .zero from rfl] at h
    cases hx : xitems E k opt t v with
    | nil => rw [hx] at h; cases h
    | cons x xs =>
      have ht : ∀ t', t ≠ .ptr t' := by
        rintro t' rfl
        rw [hx, xfold, xmlThrough] at h
        cases h
      rw [hx, xfold_ptr_new ht] at h
      cases hr : xfold E t (x :: xs) (blank t) with
      | none => rw [hr] at h; cases h
      | some w =>
        rw [hr] at h
        cases h
        have := ih (k := k) (opt := opt) (by rw [hx]; exact hr)
        rw [hx] at this
        exact .ptr ht (by simp) this
  | nilSlice => intro k opt _; rw [xitems] <;> first | exact .nilSlice | simp
  | @slice t vs h1 _ ih =>
    intro k opt h
    rw [xitems] at h ⊢
    rw [show blank (.slice t) = .zero from rfl] at h
    have hm : xmap E t (xelems E k opt t vs) = some vs := by
      cases hx : xelems E k opt t vs with
      | nil => rw [hx] at h; cases h
      | cons x xs =>
        rw [hx, xfold_slice_new] at h
        cases hr : xmap E t (x :: xs) with
        | none => rw [hr] at h; cases h
        | some ws => rw [hr] at h; cases h; rfl
    have hne : vs ≠ [] := by
      rintro rfl
      rw [xelems, xfold] at h; cases h
    obtain ⟨h2, h3⟩ := xmap_length _ _ hm
    obtain ⟨-, h4⟩ := xelems_each (E := E) (k := k) (opt := opt) (t := t) vs (by
      intro v hv
      obtain ⟨i, hi⟩ := List.getElem?_of_mem hv
      obtain ⟨x, -, hx⟩ := h3 i v hi
      exact one_item k opt _ t v hx)
    have h4 := h4 h2.symm
    rw [← h2]
    refine .slice h1 hne (fun i v hv => (h4 i v hv).1) ?_
    intro i v hv
    obtain ⟨-, x, h5, h6⟩ := h4 i v hv
    obtain ⟨y, h7, h8⟩ := h3 i v hv
    rw [h6] at h7
    cases h7
    have := ih i v hv (k := k) (opt := opt) (by rw [h5, xfold_one]; exact h8)
    rw [h5] at this
    exact this
  | @struct n vs hf hl _ ih =>
    intro k opt h
    rw [xitems] at h ⊢
    rw [xfold_one, xmlThrough, readXItem] at h
    · rw [show blank (.struct n) = .zero from rfl] at h
      cases hr : readXItems E ((E n).map retag) (xfields E ((E n).map retag) vs) (oldFields (E n) .zero) with
      | none => rw [hr] at h; cases h
      | some ws =>
        rw [hr] at h
        cases h
        obtain ⟨-, hall⟩ := xfields_inv (E := E) (fds := (E n).map retag) hf.1 (vs := vs) (by simpa using hl) (E n).length 0 (by simp)
          (oldFields (E n) .zero) vs (by simp [oldFields]) (by rw [List.drop_zero, List.drop_zero]; exact hr)
        have hget : ∀ (i : Nat) fd, (E n)[i]? = some fd → ((E n).map retag)[i]? = some (forXml fd) ∧ (oldFields (E n) .zero)[i]? = some (blank fd.ty) := by
          intro i fd hi
          exact ⟨by rw [List.getElem?_map, hi]; rfl, by simp [oldFields, hi]⟩
        have hpl : ∀ (i : Nat) fd, (E n)[i]? = some fd → NeverSent (forXml fd) ∨ ∃ k opt, SentUnder (forXml fd) k opt := by
          intro i fd hi
          exact (hf.1.1 _ (List.mem_of_getElem? (hget i fd hi).1)).2
        refine .struct (m := fun i => match (E n)[i]?, vs[i]? with
          | some fd, some v => (match sentAs (forXml fd) v with
            | some k => (xitems E k (omitsEmpty (forXml fd)) fd.ty v).length
            | none => 0)
          | _, _ => 0) hf hl ?_ ?_
        · intro i fd v hi hv hu
          obtain ⟨h1, h2⟩ := hget i fd hi
          have := (hall i _ v _ (Nat.zero_le _) h1 hv h2).1 ((sentAs_none (hpl i fd hi)).2 hu)
          rw [hv] at this
          exact Option.some.inj this
        · intro i fd v k' o hi hv hk ho
          obtain ⟨h1, h2⟩ := hget i fd hi
          have hs : sentAs (forXml fd) v = some k' := by
            cases hc : sentAs (forXml fd) v with
            | none =>
              rcases (sentAs_none (hpl i fd hi)).1 hc with h | ⟨k2, h, he⟩
              · exact (neverSent_not h hk).elim
              · have := (sentUnder_head h).2.symm.trans (sentUnder_head hk).2
                exact absurd he (ho this.symm)
            | some k2 =>
              obtain ⟨o2, hk2, -⟩ := sentAs_some (hpl i fd hi) hc
              rw [← (sentUnder_head hk2).1, (sentUnder_head hk).1]
          obtain ⟨v', h3, h4⟩ := (hall i _ v _ (Nat.zero_le _) h1 hv h2).2 k' hs
          rw [hv] at h4
          cases h4
          have := ih i fd v hi hv (k := k') (opt := omitsEmpty (forXml fd)) h3
          rw [(sentUnder_head hk).2] at this
          simp only [hi, hv, hs, (sentUnder_head hk).2]
          exact this
    · simp
    · simp
    · simp

end Water
