import Verif.Model.Sniff
import Verif.Spec.Sniff
import Verif.Lemmas.Util
/- `http.DetectContentType` against the beginnings of Spec/Sniff. -/
namespace Water
open Spec

theorem sniffSpace_iff : ∀ c : UInt8, sniffSpace c = true ↔ TagSpace c := by
  unfold TagSpace
  refine all_bytes ?_; decide +kernel

theorem binaryByte_iff : ∀ c : UInt8, binaryByte c = true ↔ Control c := by
  unfold Control
  refine all_bytes ?_; decide +kernel

/-! ### white space before a tag -/

theorem dropWhile_blank {ws s : Str} (h : ∀ x ∈ ws, TagSpace x) (hs : ∀ c, s.head? = some c → ¬ TagSpace c) :
    (ws ++ s).dropWhile sniffSpace = s := by
  induction ws with
  | nil =>
    cases s with
    | nil => rfl
    | cons c s =>
      have : sniffSpace c = false := by
        have := hs c rfl
        rw [← sniffSpace_iff] at this
        simpa using this
      simp [this]
  | cons w ws ih =>
    have := (sniffSpace_iff w).2 (h w (by simp))
    simp only [List.cons_append, List.dropWhile_cons, this, if_true]
    exact ih (fun x hx => h x (by simp [hx]))

theorem blank_split (s : Str) : ∃ ws, s = ws ++ s.dropWhile sniffSpace ∧ ∀ x ∈ ws, TagSpace x := by
  refine ⟨s.takeWhile sniffSpace, (List.takeWhile_append_dropWhile).symm, ?_⟩
  intro x hx
  rw [← sniffSpace_iff]
  induction s with
  | nil => cases hx
  | cons c s ih =>
    rw [List.takeWhile_cons] at hx
    split at hx
    · rcases List.mem_cons.1 hx with rfl | hx
      · assumption
      · exact ih hx
    · cases hx

/-! ### tags -/

theorem tag_letter : ∀ b : UInt8, 65 ≤ b → b ≤ 90 → ∀ d : UInt8, (b = d &&& 223 ↔ (d = b ∨ d.toNat = b.toNat + 32)) := by
  refine all_bytes ?_
  intro n
  by_cases h : 65 ≤ n.1 ∧ n.1 ≤ 90
  · intro _ _
    refine all_bytes ?_
    revert h n
    decide +kernel
  · intro h1 h2
    exfalso
    apply h
    have := UInt8.le_iff_toNat_le.1 h1
    have := UInt8.le_iff_toNat_le.1 h2
    have := n.2
    simp at *
    omega

/-- no small letters -/
def NoSmall (tag : Str) : Prop := ∀ b ∈ tag, ¬ (97 ≤ b.toNat ∧ b.toNat ≤ 122)

theorem tag_byte {b d : UInt8} (hb : ¬ (97 ≤ b.toNat ∧ b.toNat ≤ 122)) :
    (b == (if 65 ≤ b ∧ b ≤ 90 then d &&& 223 else d)) = true ↔ sameLetter d b := by
  rw [beq_iff_eq]
  split
  · rename_i h
    rw [tag_letter b h.1 h.2 d]
    have h1 := UInt8.le_iff_toNat_le.1 h.1
    have h2 := UInt8.le_iff_toNat_le.1 h.2
    simp only [UInt8.reduceToNat] at h1 h2
    unfold sameLetter
    constructor
    · rintro (h | h)
      · exact .inl h
      · exact .inr (.inl ⟨by omega, by omega, h.symm⟩)
    · rintro (h | h | h)
      · exact .inl h
      · exact .inr h.2.2.symm
      · omega
  · rename_i h
    rw [UInt8.le_iff_toNat_le, UInt8.le_iff_toNat_le] at h
    simp only [UInt8.reduceToNat] at h
    unfold sameLetter
    constructor
    · intro h; exact .inl h.symm
    · rintro (h | h | h)
      · exact h.symm
      · omega
      · omega

theorem htmlMatch_iff : ∀ {tag data : Str}, NoSmall tag →
    (htmlMatch tag data = true ↔ ∃ t c rest, data = t ++ c :: rest ∧ AnyCase t tag ∧ (c = 32 ∨ c = 62)) := by
  intro tag
  induction tag with
  | nil =>
    intro data _
    cases data with
    | nil => simp [htmlMatch]
    | cons d data =>
      simp only [htmlMatch, Bool.or_eq_true, beq_iff_eq]
      constructor
      · intro h; exact ⟨[], d, data, rfl, .nil, h⟩
      · rintro ⟨t, c, rest, h1, h2, h3⟩
        cases h2
        simp only [List.nil_append, List.cons.injEq] at h1
        rw [h1.1]; exact h3
  | cons b tag ih =>
    intro data hn
    cases data with
    | nil =>
      simp only [htmlMatch, Bool.false_eq_true, false_iff]
      rintro ⟨t, c, rest, h1, -, -⟩
      simp at h1
    | cons d data =>
      simp only [htmlMatch, Bool.and_eq_true]
      rw [tag_byte (hn b (by simp)), ih (fun x hx => hn x (by simp [hx]))]
      constructor
      · rintro ⟨h, t, c, rest, h1, h2, h3⟩
        exact ⟨d :: t, c, rest, by rw [h1]; rfl, .cons h h2, h3⟩
      · rintro ⟨t, c, rest, h1, h2, h3⟩
        cases h2 with
        | cons ha hs =>
          simp only [List.cons_append, List.cons.injEq] at h1
          rw [h1.1]
          exact ⟨ha, _, c, rest, h1.2, hs, h3⟩

/-! ### masks -/

/-- the pattern that a mask and its bytes stand for -/
def patOf : Str → Str → List (Option UInt8)
  | m :: mask, p :: pat => (if m = 0 then none else some p) :: patOf mask pat
  | _, _ => []

/-- a mask whose bytes are 255, or 0 where the pattern is 0 -/
def plainMask : Str → Str → Bool
  | m :: mask, p :: pat => (m == 255 || (m == 0 && p == 0)) && plainMask mask pat
  | [], [] => true
  | _, _ => false

theorem and_full (c : UInt8) : c &&& 255 = c := by
  refine all_bytes (P := fun c => c &&& 255 = c) ?_ c
  decide +kernel

theorem maskMatch_iff : ∀ {mask pat data : Str}, plainMask mask pat = true → (maskMatch mask pat data = true ↔ Fits (patOf mask pat) data) := by
  intro mask
  induction mask with
  | nil =>
    intro pat data h
    cases pat with
    | nil => simp only [maskMatch, patOf, true_iff]; exact .nil
    | cons p pat => cases h
  | cons m mask ih =>
    intro pat data h
    cases pat with
    | nil => cases h
    | cons p pat =>
      simp only [plainMask, Bool.and_eq_true, Bool.or_eq_true, beq_iff_eq] at h
      cases data with
      | nil =>
        simp only [maskMatch, patOf, Bool.false_eq_true, false_iff]
        split <;> exact fun h => nomatch h
      | cons d data =>
        simp only [maskMatch, patOf, Bool.and_eq_true, beq_iff_eq, ih h.2]
        rcases h.1 with rfl | ⟨rfl, rfl⟩
        · rw [and_full]
          simp only [show ¬ (255 : UInt8) = 0 by decide, if_false]
          constructor
          · rintro ⟨rfl, h1⟩; exact .this h1
          · intro h
            cases h with
            | this h => exact ⟨rfl, h⟩
        · simp only [if_true]
          constructor
          · rintro ⟨-, h1⟩; exact .any h1
          · intro h
            cases h with
            | any h => exact ⟨by simp, h⟩

theorem Fits.get {p : List (Option UInt8)} {s : Str} (h : Fits p s) : ∀ {i : Nat} {c : UInt8}, p[i]? = some (some c) → s[i]? = some c := by
  induction h with
  | nil => intro i c h; simp at h
  | this h ih =>
    intro i c hi
    cases i with
    | zero => simpa using hi
    | succ i => simpa using ih (by simpa using hi)
  | any h ih =>
    intro i c hi
    cases i with
    | zero => simp at hi
    | succ i => simpa using ih (by simpa using hi)

/-! ### the signatures -/

/-- what a signature says -/
def Sig.ct : Sig → Str
  | .html _ => b!"text/html; charset=utf-8"
  | .masked _ _ _ ct => ct
  | .mp4 => b!"video/mp4"
  | .text => b!"text/plain; charset=utf-8"

theorem match_ct {sig : Sig} {d ct : Str} (h : sig.match d = some ct) : ct = sig.ct := by
  cases sig with
  | html tag => simp only [Sig.match, Option.ite_none_right_eq_some, Option.some.injEq] at h; exact h.2.symm
  | masked skip mask pat c => simp only [Sig.match, Option.ite_none_right_eq_some, Option.some.injEq] at h; exact h.2.symm
  | mp4 => simp only [Sig.match, Option.ite_none_right_eq_some, Option.some.injEq] at h; exact h.2.symm
  | text => simp only [Sig.match, Option.ite_none_left_eq_some, Option.some.injEq] at h; exact h.2.symm

/-- the signatures of pages -/
def sigPages : List Sig := sniffSignatures.take 17
/-- those between them and the mark of UTF-8 -/
def sigEarly : List Sig := (sniffSignatures.drop 17).take 5
/-- the mark of UTF-8 -/
def sigMark : Sig := .masked false [255, 255, 255, 0] [239, 187, 191, 0] b!"text/plain; charset=utf-8"
/-- those between it and the one of texts -/
def sigLate : List Sig := (sniffSignatures.drop 23).take 28

theorem sigs_split : sniffSignatures = sigPages ++ (sigEarly ++ (sigMark :: (sigLate ++ [Sig.text]))) := rfl

/-- the tag of a signature of pages -/
def Sig.tag : Sig → Option Str
  | .html t => some t
  | _ => none

theorem sigPages_eq : ∃ tags : List Str, sigPages = tags.map Sig.html ∧ (∀ t, t ∈ tags ↔ t ∈ pageTags) := by
  refine ⟨[b!"<!DOCTYPE HTML", b!"<HTML", b!"<HEAD", b!"<SCRIPT", b!"<IFRAME", b!"<H1", b!"<DIV", b!"<FONT", b!"<TABLE", b!"<A", b!"<STYLE",
    b!"<TITLE", b!"<B", b!"<BODY", b!"<BR", b!"<P", b!"<!--"], rfl, ?_⟩
  intro t
  constructor
  · intro h
    have : ∀ t ∈ [b!"<!DOCTYPE HTML", b!"<HTML", b!"<HEAD", b!"<SCRIPT", b!"<IFRAME", b!"<H1", b!"<DIV", b!"<FONT", b!"<TABLE", b!"<A", b!"<STYLE",
      b!"<TITLE", b!"<B", b!"<BODY", b!"<BR", b!"<P", b!"<!--"], t ∈ pageTags := by decide +kernel
    exact this t h
  · intro h
    have : ∀ t ∈ pageTags, t ∈ [b!"<!DOCTYPE HTML", b!"<HTML", b!"<HEAD", b!"<SCRIPT", b!"<IFRAME", b!"<H1", b!"<DIV", b!"<FONT", b!"<TABLE", b!"<A",
      b!"<STYLE", b!"<TITLE", b!"<B", b!"<BODY", b!"<BR", b!"<P", b!"<!--"] := by decide +kernel
    exact this t h

theorem pageTags_facts : ∀ tag ∈ pageTags, NoSmall tag ∧ tag.head? = some 60 ∧ (∀ x, tag[1]? = some x → x ≠ 63 ∧ x ≠ 95) ∧ 2 ≤ tag.length := by
  intro tag h
  have : ∀ tag ∈ pageTags, (∀ b ∈ tag, ¬ (97 ≤ b.toNat ∧ b.toNat ≤ 122)) ∧ tag.head? = some 60 ∧ (tag[1]? ≠ some 63 ∧ tag[1]? ≠ some 95) ∧ 2 ≤ tag.length := by
    decide +kernel
  obtain ⟨h1, h2, h3, h4⟩ := this tag h
  refine ⟨h1, h2, ?_, h4⟩
  intro x hx
  rw [hx] at h3
  simpa using h3

theorem same_sharp {a : UInt8} (h : sameLetter a 60) : a = 60 := by
  rcases h with h | h | h
  · exact h
  · have h3 := h.2.2; simp at h3; omega
  · have h3 := h.1; simp at h3

theorem page_iff (d : Str) : Page d ↔ ∃ tag ∈ pageTags, htmlMatch tag (d.dropWhile sniffSpace) = true := by
  constructor
  · intro h
    cases h with
    | @mk ws t tag rest c h1 h2 h3 h4 =>
      refine ⟨tag, h2, ?_⟩
      obtain ⟨f1, f2, -, -⟩ := pageTags_facts tag h2
      rw [List.append_assoc, dropWhile_blank h1, htmlMatch_iff f1]
      · exact ⟨t, c, rest, rfl, h3, h4⟩
      · intro x hx
        cases h3 with
        | nil => cases f2
        | cons ha hs =>
          simp only [List.cons_append, List.head?_cons, Option.some.injEq] at hx f2
          subst hx f2
          rw [same_sharp ha]
          unfold TagSpace; decide
  · rintro ⟨tag, h1, h2⟩
    obtain ⟨f1, -⟩ := pageTags_facts tag h1
    rw [htmlMatch_iff f1] at h2
    obtain ⟨t, c, rest, h3, h4, h5⟩ := h2
    obtain ⟨ws, h6, h7⟩ := blank_split d
    rw [h6, h3, ← List.append_assoc]
    exact .mk h7 h1 h4 h5

/-- a page is found by the first signatures -/
theorem pages_some {d : Str} (h : Page d) : sigPages.findSome? (fun sig => sig.match d) = some b!"text/html; charset=utf-8" := by
  obtain ⟨tags, h1, h2⟩ := sigPages_eq
  obtain ⟨tag, h3, h4⟩ := (page_iff d).1 h
  cases hf : sigPages.findSome? (fun sig => sig.match d) with
  | none =>
    rw [List.findSome?_eq_none_iff] at hf
    have := hf (.html tag) (by rw [h1]; exact List.mem_map.2 ⟨tag, (h2 tag).2 h3, rfl⟩)
    simp [Sig.match, h4] at this
  | some ct =>
    obtain ⟨sig, h5, h6⟩ := List.exists_of_findSome?_eq_some hf
    rw [h1] at h5
    obtain ⟨t, -, rfl⟩ := List.mem_map.1 h5
    rw [match_ct h6]; rfl

theorem pages_none {d : Str} (h : ¬ Page d) : sigPages.findSome? (fun sig => sig.match d) = none := by
  obtain ⟨tags, h1, h2⟩ := sigPages_eq
  rw [List.findSome?_eq_none_iff]
  intro sig hs
  rw [h1] at hs
  obtain ⟨t, h3, rfl⟩ := List.mem_map.1 hs
  simp only [Sig.match]
  rw [if_neg]
  intro h4
  exact h ((page_iff d).2 ⟨t, (h2 t).1 h3, h4⟩)

theorem late_ct : ∀ sig ∈ sigEarly ++ (sigMark :: (sigLate ++ [Sig.text])), sig.ct ≠ b!"text/html; charset=utf-8" := by
  have : ∀ ct ∈ (sigEarly ++ (sigMark :: (sigLate ++ [Sig.text]))).map Sig.ct, ct ≠ b!"text/html; charset=utf-8" := by decide +kernel
  intro sig h
  exact this _ (List.mem_map.2 ⟨sig, h, rfl⟩)

/-- exactly the texts that begin like a page are taken for one -/
theorem detect_page (s : Str) : detectStd s = b!"text/html; charset=utf-8" ↔ Page (s.take 512) := by
  unfold detectStd
  rw [sigs_split, List.findSome?_append]
  constructor
  · intro h
    refine Classical.byContradiction fun hp => ?_
    rw [pages_none hp, Option.none_or] at h
    cases hf : (sigEarly ++ (sigMark :: (sigLate ++ [Sig.text]))).findSome? (fun sig => sig.match (s.take 512)) with
    | none => rw [hf] at h; revert h; decide
    | some ct =>
      rw [hf] at h
      obtain ⟨sig, h5, h6⟩ := List.exists_of_findSome?_eq_some hf
      exact late_ct sig h5 ((match_ct h6).symm.trans h)
  · intro h
    rw [pages_some h]; rfl

theorem fits_these {p : Str} : ∀ {s : Str}, Fits (these p) s ↔ ∃ r, s = p ++ r := by
  induction p with
  | nil => intro s; exact ⟨fun _ => ⟨s, rfl⟩, fun _ => .nil⟩
  | cons c p ih =>
    intro s
    constructor
    · intro h
      cases h with
      | this h =>
        obtain ⟨r, rfl⟩ := ih.1 h
        exact ⟨r, rfl⟩
    · rintro ⟨r, rfl⟩
      exact .this (ih.2 ⟨r, rfl⟩)

/-! ### XML -/

/-- the signature of XML -/
def sigXml : Sig := .masked true (255 :: all4) b!"<?xml" b!"text/xml; charset=utf-8"

theorem xmlMatch_iff (d : Str) : sigXml.match d = some b!"text/xml; charset=utf-8" ↔ XmlBegin d := by
  have hm : plainMask (255 :: all4) b!"<?xml" = true := by decide
  have hfits : ∀ e : Str, Fits (patOf (255 :: all4) b!"<?xml") e ↔ ∃ rest, e = b!"<?xml" ++ rest := by
    intro e
    rw [show patOf (255 :: all4) b!"<?xml" = these b!"<?xml" by decide]
    exact fits_these
  simp only [sigXml, Sig.match, if_true]
  rw [Option.ite_none_right_eq_some]
  simp only [and_true]
  rw [maskMatch_iff hm, hfits]
  constructor
  · rintro ⟨rest, h⟩
    obtain ⟨ws, h1, h2⟩ := blank_split d
    rw [h1, h, ← List.append_assoc]
    exact .mk h2
  · intro h
    cases h with
    | @mk ws rest h =>
      refine ⟨rest, ?_⟩
      rw [List.append_assoc, dropWhile_blank h]
      intro c hc
      have : c = 60 := by simpa using hc.symm
      subst this
      unfold TagSpace; decide

theorem page_not_xml {d : Str} (h : Page d) : ¬ XmlBegin d := by
  intro hx
  obtain ⟨tag, h1, h2⟩ := (page_iff d).1 h
  obtain ⟨f1, -, f3, f4⟩ := pageTags_facts tag h1
  rw [htmlMatch_iff f1] at h2
  obtain ⟨t, c, rest, h3, h4, -⟩ := h2
  cases hx with
  | @mk ws rest' hb =>
    rw [List.append_assoc, dropWhile_blank hb (by intro x hx; have : x = 60 := by simpa using hx.symm
                                                  subst this; unfold TagSpace; decide)] at h3
    cases h4 with
    | nil => simp at f4
    | cons ha hs =>
      cases hs with
      | nil => simp at f4
      | @cons a b _ _ hb _ =>
        have hbad := f3 b rfl
        have : (63 : UInt8) = a := by
          have := congrArg (fun l => l[1]?) h3
          simpa using this
        subst this
        rcases hb with hb | hb | hb
        · exact hbad.1 hb.symm
        · have := hb.1; simp at this
        · have := hb.2.2
          have h5 := hb.1
          apply hbad.2
          apply UInt8.toNat_inj.1
          simp at this ⊢
          omega

theorem rest_xml : ∀ sig ∈ (sigEarly.drop 1) ++ (sigMark :: (sigLate ++ [Sig.text])), sig.ct ≠ b!"text/xml; charset=utf-8" := by
  have : ∀ ct ∈ ((sigEarly.drop 1) ++ (sigMark :: (sigLate ++ [Sig.text]))).map Sig.ct, ct ≠ b!"text/xml; charset=utf-8" := by decide +kernel
  intro sig h
  exact this _ (List.mem_map.2 ⟨sig, h, rfl⟩)

theorem early_split : sigEarly = sigXml :: sigEarly.drop 1 := rfl

/-- exactly the texts that begin like an XML document are taken for one -/
theorem detect_xml (s : Str) : detectStd s = b!"text/xml; charset=utf-8" ↔ XmlBegin (s.take 512) := by
  unfold detectStd
  rw [sigs_split, List.findSome?_append]
  by_cases hp : Page (s.take 512)
  · rw [pages_some hp]
    constructor
    · rw [Option.some_or, Option.getD_some]
      intro h
      exact absurd h (by decide)
    · intro h; exact absurd h (page_not_xml hp)
  rw [pages_none hp, Option.none_or, early_split, List.cons_append, List.findSome?_cons]
  cases hx : sigXml.match (s.take 512) with
  | some ct =>
    have := match_ct hx
    subst this
    exact ⟨fun _ => (xmlMatch_iff _).1 hx, fun _ => rfl⟩
  | none =>
    dsimp only
    constructor
    · intro h
      exfalso
      cases hf : ((sigEarly.drop 1) ++ (sigMark :: (sigLate ++ [Sig.text]))).findSome? (fun sig => sig.match (s.take 512)) with
      | none => rw [hf] at h; revert h; decide
      | some ct =>
        rw [hf] at h
        obtain ⟨sig, h5, h6⟩ := List.exists_of_findSome?_eq_some hf
        exact rest_xml sig h5 ((match_ct h6).symm.trans h)
    · intro h
      rw [← xmlMatch_iff, hx] at h; cases h

/-! ### texts -/

/-- the pattern of a signature -/
def Sig.pat : Sig → Option (List (Option UInt8))
  | .masked false mask pat _ => if plainMask mask pat then some (patOf mask pat) else none
  | _ => none

theorem pat_match {sig : Sig} {p : List (Option UInt8)} {d : Str} (h : sig.pat = some p) : sig.match d ≠ none ↔ Fits p d := by
  unfold Sig.pat at h
  split at h
  · rename_i mask pat ct
    rw [Option.ite_none_right_eq_some] at h
    obtain ⟨h1, h2⟩ := h
    cases h2
    rw [← maskMatch_iff h1]
    simp [Sig.match]
  · cases h

/-- the patterns other than the mark are of other kinds or have control characters -/
def patKnown (p : List (Option UInt8)) : Bool := otherKinds.contains p || p.any (fun c => c.any binaryByte)

theorem pats_known : ∀ p ∈ (sigEarly ++ sigLate).filterMap Sig.pat, patKnown p = true := by decide +kernel

theorem kinds_known : ∀ p ∈ otherKinds, p ∈ (sigEarly ++ sigLate).filterMap Sig.pat := by decide +kernel

/-- which signatures have no pattern -/
theorem no_pat : ∀ sig ∈ sigEarly ++ sigLate, sig.pat = none → sig = sigXml ∨ sig = .mp4 := by
  intro sig h hn
  have h1 : ∀ sig ∈ sigEarly ++ sigLate, sig.pat.isSome = true ∨ sig = sigXml ∨ sig = .mp4 := by
    unfold sigEarly sigLate sniffSignatures
    simp only [List.drop_succ_cons, List.drop_zero, List.take_succ_cons, List.take_zero, List.cons_append, List.nil_append, List.forall_mem_cons]
    refine ⟨.inr (.inl rfl), ?_⟩
    repeat' first | exact (fun _ h => nomatch h) | (apply And.intro) | exact Or.inl (show Option.isSome _ = true by decide) | exact Or.inr (Or.inr rfl) | exact Or.inr (Or.inr trivial)
  rcases h1 sig h with h1 | h1
  · rw [hn] at h1; cases h1
  · exact h1

theorem mp4_control {d : Str} (hd : d.length ≤ 512) (h : Sig.mp4.match d ≠ none) : ∃ c ∈ d, Control c := by
  simp only [Sig.match] at h
  have h1 : mp4Match d = true := by
    refine Decidable.byContradiction fun hn => ?_
    rw [if_neg hn] at h; exact h rfl
  unfold mp4Match at h1
  split at h1
  · rename_i a b c e rest
    dsimp only at h1
    split at h1
    · cases h1
    · split at h1
      · cases h1
      · rename_i h2 h3
        refine ⟨a, by simp, ?_⟩
        unfold Control
        omega
  · cases h1

theorem fits_control {p : List (Option UInt8)} {d : Str} (hp : p.any (fun c => c.any binaryByte) = true) (h : Fits p d) : ∃ c ∈ d, Control c := by
  induction h with
  | nil => cases hp
  | @this c p s _ ih =>
    simp only [List.any_cons, Bool.or_eq_true, Option.any_some] at hp
    rcases hp with hp | hp
    · exact ⟨c, by simp, (binaryByte_iff c).1 hp⟩
    · obtain ⟨x, h1, h2⟩ := ih hp
      exact ⟨x, by simp [h1], h2⟩
  | @any c p s _ ih =>
    simp only [List.any_cons, Bool.or_eq_true, Option.any_none, Bool.false_eq_true, false_or] at hp
    obtain ⟨x, h1, h2⟩ := ih hp
    exact ⟨x, by simp [h1], h2⟩

theorem mark_pat : sigMark.pat = some [some 0xEF, some 0xBB, some 0xBF, none] := by decide

theorem early_ct : ∀ sig ∈ sigEarly ++ sigLate, sig.ct ≠ b!"text/plain; charset=utf-8" := by
  have : ∀ ct ∈ (sigEarly ++ sigLate).map Sig.ct, ct ≠ b!"text/plain; charset=utf-8" := by decide +kernel
  intro sig h
  exact this _ (List.mem_map.2 ⟨sig, h, rfl⟩)

theorem text_match (d : Str) : Sig.text.match d ≠ none ↔ ∀ c ∈ d, ¬ Control c := by
  have h1 : Sig.text.match d ≠ none ↔ ∀ c ∈ d.dropWhile sniffSpace, ¬ Control c := by
    simp only [Sig.match]
    split
    · rename_i h
      simp only [ne_eq, not_true_eq_false, false_iff]
      obtain ⟨x, h1, h2⟩ := List.any_eq_true.1 h
      exact fun h => h x h1 ((binaryByte_iff x).1 h2)
    · rename_i h
      simp only [ne_eq, reduceCtorEq, not_false_eq_true, true_iff]
      intro c hc h2
      exact h (List.any_eq_true.2 ⟨c, hc, (binaryByte_iff c).2 h2⟩)
  rw [h1]
  obtain ⟨ws, h2, h3⟩ := blank_split d
  constructor
  · intro h c hc
    rw [h2] at hc
    rcases List.mem_append.1 hc with hc | hc
    · have := h3 c hc
      intro h4
      unfold TagSpace at this
      unfold Control at h4
      simp only [List.mem_cons, List.not_mem_nil, or_false] at this
      rcases this with rfl | rfl | rfl | rfl | rfl <;> simp at h4
    · exact h c hc
  · intro h c hc
    exact h c (by rw [h2]; exact List.mem_append_right _ hc)

theorem mark_early {d : Str} (h : Fits [some 0xEF, some 0xBB, some 0xBF, none] d) :
    ¬ Page d ∧ sigEarly.findSome? (fun sig => sig.match d) = none := by
  cases h with
  | @this _ _ s h =>
    have hdrop : ((0xEF : UInt8) :: s).dropWhile sniffSpace = 0xEF :: s := rfl
    refine ⟨?_, ?_⟩
    · intro hp
      obtain ⟨tag, h1, h2⟩ := (page_iff _).1 hp
      obtain ⟨f1, f2, -⟩ := pageTags_facts tag h1
      rw [hdrop] at h2
      cases tag with
      | nil => cases f2
      | cons b tag =>
        simp only [List.head?_cons, Option.some.injEq] at f2
        subst f2
        simp [htmlMatch] at h2
    · rfl

/-- What is taken for text: what has the mark of UTF-8, or has no control characters and does not begin like anything else. -/
theorem detect_plain (s : Str) : detectStd s = b!"text/plain; charset=utf-8" ↔
    Fits [some 0xEF, some 0xBB, some 0xBF, none] (s.take 512) ∨
    ((∀ c ∈ s.take 512, ¬ Control c) ∧ ¬ Page (s.take 512) ∧ ¬ XmlBegin (s.take 512) ∧ ¬ OtherKind (s.take 512)) := by
  have hlen : (s.take 512).length ≤ 512 := by simp; omega
  unfold detectStd
  rw [sigs_split, List.findSome?_append, List.findSome?_append, List.findSome?_cons, List.findSome?_append]
  generalize s.take 512 = d at hlen ⊢
  constructor
  · intro h
    by_cases hp : Page d
    · rw [pages_some hp, Option.some_or, Option.getD_some] at h
      exact absurd h (by decide)
    rw [pages_none hp, Option.none_or] at h
    have hno : ∀ l : List Sig, (∀ x ∈ l, x ∈ sigEarly ++ sigLate) → l.findSome? (fun sig => sig.match d) ≠ some b!"text/plain; charset=utf-8" := by
      intro l hl hf
      obtain ⟨sig, h5, h6⟩ := List.exists_of_findSome?_eq_some hf
      exact early_ct sig (hl sig h5) (match_ct h6).symm
    cases he : sigEarly.findSome? (fun sig => sig.match d) with
    | some ct =>
      rw [he] at h
      simp only [Option.some_or, Option.getD_some] at h
      subst h
      exact absurd he (hno _ (fun x hx => List.mem_append_left _ hx))
    | none =>
      rw [he, Option.none_or] at h
      by_cases hm : sigMark.match d = none
      · rw [hm] at h
        dsimp only at h
        cases hl : sigLate.findSome? (fun sig => sig.match d) with
        | some ct =>
          rw [hl] at h
          simp only [Option.some_or, Option.getD_some] at h
          subst h
          exact absurd hl (hno _ (fun x hx => List.mem_append_right _ hx))
        | none =>
          rw [hl, Option.none_or] at h
          refine .inr ⟨?_, hp, ?_, ?_⟩
          · rw [← text_match]
            intro ht
            simp only [List.findSome?_cons, ht, List.findSome?_nil] at h
            revert h; decide
          · intro hx
            rw [← xmlMatch_iff] at hx
            rw [List.findSome?_eq_none_iff] at he
            have := he sigXml (by rw [early_split]; simp)
            rw [hx] at this; cases this
          · rintro ⟨p, h1, h2⟩
            obtain ⟨sig, h3, h4⟩ := List.mem_filterMap.1 (kinds_known p h1)
            rw [List.findSome?_eq_none_iff] at he hl
            apply (pat_match h4).2 h2
            rcases List.mem_append.1 h3 with h3 | h3
            · exact he sig h3
            · exact hl sig h3
      · exact .inl ((pat_match mark_pat).1 hm)
  · rintro (h | ⟨h1, h2, h3, h4⟩)
    · obtain ⟨hp, he⟩ := mark_early h
      rw [pages_none hp, he, Option.none_or, Option.none_or]
      have := (pat_match mark_pat).2 h
      cases hm : sigMark.match d with
      | none => exact absurd hm this
      | some ct => rw [match_ct hm]; rfl
    · have hnone : ∀ sig ∈ sigEarly ++ sigLate, sig.match d = none := by
        intro sig hs
        refine Classical.byContradiction fun hm => ?_
        cases hpat : sig.pat with
        | none =>
          rcases no_pat sig hs hpat with rfl | rfl
          · cases hx : sigXml.match d with
            | none => exact hm hx
            | some ct =>
              have := match_ct hx
              subst this
              exact h3 ((xmlMatch_iff d).1 hx)
          · obtain ⟨c, h5, h6⟩ := mp4_control hlen hm
            exact h1 c h5 h6
        | some p =>
          have hf := (pat_match hpat).1 hm
          have hk := pats_known p (List.mem_filterMap.2 ⟨sig, hs, hpat⟩)
          unfold patKnown at hk
          rcases Bool.or_eq_true_iff.1 hk with hk | hk
          · exact h4 ⟨p, List.contains_iff_mem.1 hk, hf⟩
          · obtain ⟨c, h5, h6⟩ := fits_control hk hf
            exact h1 c h5 h6
      have he : sigEarly.findSome? (fun sig => sig.match d) = none :=
        List.findSome?_eq_none_iff.2 (fun sig h => hnone sig (List.mem_append_left _ h))
      have hl : sigLate.findSome? (fun sig => sig.match d) = none :=
        List.findSome?_eq_none_iff.2 (fun sig h => hnone sig (List.mem_append_right _ h))
      rw [pages_none h2, he, hl, Option.none_or, Option.none_or, Option.none_or]
      cases hm : sigMark.match d with
      | some ct => rw [match_ct hm]; rfl
      | none =>
        dsimp only
        cases ht : Sig.text.match d with
        | none => exact absurd ht ((text_match d).2 h1)
        | some ct => simp only [List.findSome?_cons, ht]; rw [match_ct ht]; rfl

/-! ### JSON -/

/-- the one beginning that is not looked at first -/
def fontMark : List (Option UInt8) := List.replicate 34 none ++ these b!"LP"

theorem fits_nones {n : Nat} {q : List (Option UInt8)} : ∀ {s : Str}, Fits (List.replicate n none ++ q) s ↔ n ≤ s.length ∧ Fits q (s.drop n) := by
  induction n with
  | zero => intro s; simp
  | succ n ih =>
    intro s
    rw [List.replicate_succ, List.cons_append]
    cases s with
    | nil => exact ⟨fun h => (nomatch h), fun h => by have := h.1; simp at this⟩
    | cons c s =>
      simp only [List.length_cons, Nat.add_le_add_iff_right, List.drop_succ_cons]
      rw [← ih]
      exact ⟨fun h => by cases h with | any h => exact h, fun h => .any h⟩

theorem fontMark_iff (s : Str) : Fits fontMark s ↔ s[34]? = some 76 ∧ s[35]? = some 80 := by
  unfold fontMark
  rw [fits_nones, fits_these]
  constructor
  · rintro ⟨-, r, hr⟩
    have h1 : (s.drop 34)[0]? = some 76 := by rw [hr]; rfl
    have h2 : (s.drop 34)[1]? = some 80 := by rw [hr]; rfl
    simpa using And.intro h1 h2
  · rintro ⟨h1, h2⟩
    obtain ⟨l1, h1⟩ := List.getElem?_eq_some_iff.1 h1
    obtain ⟨l2, h2⟩ := List.getElem?_eq_some_iff.1 h2
    refine ⟨by omega, s.drop 36, ?_⟩
    rw [List.drop_eq_getElem_cons (by omega), List.drop_eq_getElem_cons (by omega), h1, h2]
    rfl

theorem digitRun_bytes {s : Str} (h : DigitRun s) : s ≠ [] ∧ (∀ c ∈ s, 48 ≤ c.toNat ∧ c.toNat ≤ 57) := by
  induction h with
  | one h1 h2 => simp [h1, h2]
  | more h1 h2 _ ih =>
    refine ⟨by simp, ?_⟩
    intro c hc
    rcases List.mem_cons.1 hc with rfl | hc
    · exact ⟨h1, h2⟩
    · exact ih.2 c hc

theorem jsonInner_bytes {s : Str} (h : JsonInner s) : ∀ c ∈ s, 32 ≤ c.toNat := by
  induction h with
  | nil => simp
  | char h1 _ _ _ ih =>
    intro c hc
    rcases List.mem_cons.1 hc with rfl | hc
    · exact h1
    · exact ih c hc
  | short h1 _ ih =>
    have : ∀ c ∈ b!"\"\\/bfnrt", 32 ≤ c.toNat := by decide
    intro c hc
    rcases List.mem_cons.1 hc with rfl | hc
    · decide
    · rcases List.mem_cons.1 hc with rfl | hc
      · exact this _ h1
      · exact ih c hc
  | @long x y z w s h1 _ ih =>
    have : ∀ c ∈ b!"0123456789abcdefABCDEF", 32 ≤ c.toNat := by decide
    intro c hc
    rw [show (92 :: 117 :: x :: y :: z :: w :: s : Str) = [92, 117] ++ ([x, y, z, w] ++ s) from rfl] at hc
    rcases List.mem_append.1 hc with hc | hc
    · have hl : ∀ c ∈ ([92, 117] : Str), 32 ≤ c.toNat := by decide
      exact hl c hc
    · rcases List.mem_append.1 hc with hc | hc
      · exact this c (h1 c hc)
      · exact ih c hc

theorem jsonText_bytes {s : Str} (h : JsonText s) : ∀ c ∈ s, 32 ≤ c.toNat := by
  cases h with
  | mk h =>
    intro c hc
    simp only [List.mem_append, List.mem_singleton] at hc
    rcases hc with (rfl | hc) | rfl
    · decide
    · exact jsonInner_bytes h c hc
    · decide

theorem jsonNumber_bytes {s : Str} (h : JsonNumber s) : (∀ c ∈ s, 32 ≤ c.toNat) ∧ ∃ c r, s = c :: r ∧ c ∈ b!"-0123456789" := by
  cases h with
  | @mk sign whole frac exp h1 h2 _ h4 h5 =>
    obtain ⟨hw1, hw2⟩ := digitRun_bytes h2
    refine ⟨?_, ?_⟩
    · intro c hc
      simp only [List.mem_append] at hc
      rcases hc with ((hc | hc) | hc) | hc
      · rcases h1 with rfl | rfl
        · cases hc
        · revert c; decide
      · have := hw2 c hc; omega
      · rcases h4 with rfl | ⟨ds, hd, rfl⟩
        · cases hc
        · rcases List.mem_append.1 hc with hc | hc
          · rw [List.mem_singleton.1 hc]; decide
          · have := (digitRun_bytes hd).2 c hc; omega
      · rcases h5 with rfl | ⟨e, he, sg, hs, ds, hd, rfl⟩
        · cases hc
        · simp only [List.mem_append] at hc
          rcases hc with (hc | hc) | hc
          · have : ∀ e ∈ [b!"e", b!"E"], ∀ c ∈ e, 32 ≤ c.toNat := by decide
            exact this e he c hc
          · have : ∀ e ∈ [b!"", b!"+", b!"-"], ∀ c ∈ e, 32 ≤ c.toNat := by decide
            exact this sg hs c hc
          · have := (digitRun_bytes hd).2 c hc; omega
    · rcases h1 with rfl | rfl
      · cases whole with
        | nil => exact absurd rfl hw1
        | cons c w =>
          refine ⟨c, _, rfl, ?_⟩
          have h6 := hw2 c (by simp)
          revert h6
          refine all_bytes (P := fun c => (48 ≤ c.toNat ∧ c.toNat ≤ 57) → c ∈ b!"-0123456789") ?_ c
          decide +kernel
      · exact ⟨45, _, rfl, by decide⟩

theorem commas_mem {xs : List Str} {c : UInt8} (h : c ∈ commas xs) : c = 44 ∨ ∃ x ∈ xs, c ∈ x := by
  induction xs with
  | nil => cases h
  | cons x xs ih =>
    cases xs with
    | nil => exact .inr ⟨x, by simp, h⟩
    | cons y ys =>
      simp only [commas, List.mem_append, List.mem_singleton] at h
      rcases h with (h | h) | h
      · exact .inr ⟨x, by simp, h⟩
      · exact .inl h
      · rcases ih h with h | ⟨z, h1, h2⟩
        · exact .inl h
        · exact .inr ⟨z, List.mem_cons_of_mem _ h1, h2⟩

theorem json_bytes {s : Str} (h : Json s) : ∀ c ∈ s, 32 ≤ c.toNat := by
  induction h with
  | null => decide
  | yes => decide
  | no => decide
  | number h => exact (jsonNumber_bytes h).1
  | text h => exact jsonText_bytes h
  | array _ ih =>
    intro c hc
    simp only [List.mem_append, List.mem_singleton] at hc
    rcases hc with (rfl | hc) | rfl
    · decide
    · rcases commas_mem hc with rfl | ⟨x, h1, h2⟩
      · decide
      · exact ih x h1 c h2
    · decide
  | object hk _ ih =>
    intro c hc
    simp only [List.mem_append, List.mem_singleton] at hc
    rcases hc with (rfl | hc) | rfl
    · decide
    · rcases commas_mem hc with rfl | ⟨x, h1, h2⟩
      · decide
      · obtain ⟨p, h3, rfl⟩ := List.mem_map.1 h1
        simp only [List.mem_append, List.mem_singleton] at h2
        rcases h2 with (h2 | rfl) | h2
        · exact jsonText_bytes (hk p h3) c h2
        · decide
        · exact ih p h3 c h2
    · decide

theorem json_head {s : Str} (h : Json s) : s = b!"true" ∨ ∃ c r, s = c :: r ∧ c ∈ b!"{[\"-0123456789nf" := by
  cases h with
  | null => exact .inr ⟨_, _, rfl, by decide⟩
  | yes => exact .inl rfl
  | no => exact .inr ⟨_, _, rfl, by decide⟩
  | number h =>
    obtain ⟨-, c, r, h1, h2⟩ := jsonNumber_bytes h
    have : ∀ c ∈ b!"-0123456789", c ∈ b!"{[\"-0123456789nf" := by decide
    exact .inr ⟨c, r, h1, this c h2⟩
  | text h => cases h with | mk h => exact .inr ⟨_, _, rfl, by decide⟩
  | array _ => exact .inr ⟨_, _, rfl, by decide⟩
  | object _ _ => exact .inr ⟨_, _, rfl, by decide⟩

/-- what a text that begins with one of these bytes can be taken for: text, or a font -/
theorem head_kinds {c : UInt8} {d : Str} (hc : c ∈ b!"{[\"-0123456789nf") :
    ¬ Page (c :: d) ∧ ¬ XmlBegin (c :: d) ∧ ¬ Fits [some 0xEF, some 0xBB, some 0xBF, none] (c :: d) ∧
    ∀ p ∈ otherKinds, Fits p (c :: d) → p = fontMark := by
  have hb : ∀ c ∈ b!"{[\"-0123456789nf", sniffSpace c = false ∧ c ≠ 60 ∧ c ≠ 0xEF := by decide
  obtain ⟨hb1, hb2, hb3⟩ := hb c hc
  have hdrop : (c :: d).dropWhile sniffSpace = c :: d := by simp [hb1]
  refine ⟨?_, ?_, ?_, ?_⟩
  · intro hp
    obtain ⟨tag, h1, h2⟩ := (page_iff _).1 hp
    obtain ⟨f1, f2, -⟩ := pageTags_facts tag h1
    rw [hdrop, htmlMatch_iff f1] at h2
    obtain ⟨t, e, rest, h3, h4, -⟩ := h2
    cases h4 with
    | nil => cases f2
    | cons ha hs =>
      simp only [List.head?_cons, Option.some.injEq] at f2
      subst f2
      simp only [List.cons_append, List.cons.injEq] at h3
      exact hb2 (h3.1.trans (same_sharp ha))
  · intro hx
    generalize hs : c :: d = s at hx
    cases hx with
    | @mk ws rest h =>
      rw [List.append_assoc] at hs
      have h1 : (ws ++ (b!"<?xml" ++ rest)).dropWhile sniffSpace = b!"<?xml" ++ rest := by
        apply dropWhile_blank h
        intro x hx
        have : x = 60 := by simpa using hx.symm
        subst this; unfold TagSpace; decide
      rw [← hs, hdrop] at h1
      simp only [List.cons_append, List.cons.injEq] at h1
      exact hb2 h1.1
  · intro h
    cases h with
    | this h => exact hb3 rfl
  · intro p hp hf
    have key : ∀ p ∈ otherKinds, p = fontMark ∨ ∀ c ∈ b!"{[\"-0123456789nf", p.head? ≠ some (some c) ∧ p.head? ≠ some none ∧ p ≠ [] := by decide +kernel
    rcases key p hp with h | h
    · exact h
    · exfalso
      obtain ⟨h1, h2, h3⟩ := h c hc
      cases hf with
      | nil => exact h3 rfl
      | this h => exact h1 rfl
      | any h => exact h2 rfl

theorem font_ct : ∀ sig ∈ sigEarly ++ sigLate, sig.pat = some fontMark → sig.ct = b!"application/vnd.ms-fontobject" := by
  have : ∀ x ∈ (sigEarly ++ sigLate).map (fun sig => (sig.pat, sig.ct)), x.1 = some fontMark → x.2 = b!"application/vnd.ms-fontobject" := by
    decide +kernel
  intro sig h
  exact this _ (List.mem_map.2 ⟨sig, h, rfl⟩)

/-- a text without control characters that is like nothing but a font is taken for a font -/
theorem detect_font {s : Str} (hc : ∀ c ∈ s.take 512, ¬ Control c) (hp : ¬ Page (s.take 512)) (hx : ¬ XmlBegin (s.take 512))
    (hm : ¬ Fits [some 0xEF, some 0xBB, some 0xBF, none] (s.take 512)) (ho : ∀ p ∈ otherKinds, Fits p (s.take 512) → p = fontMark)
    (hf : Fits fontMark (s.take 512)) : detectStd s = b!"application/vnd.ms-fontobject" := by
  have hlen : (s.take 512).length ≤ 512 := by simp; omega
  unfold detectStd
  rw [sigs_split, List.findSome?_append, List.findSome?_append, List.findSome?_cons, List.findSome?_append]
  generalize s.take 512 = d at *
  have hmark : sigMark.match d = none := by
    refine Classical.byContradiction fun h => hm ((pat_match mark_pat).1 h)
  have hall : ∀ sig ∈ sigEarly ++ sigLate, ∀ ct, sig.match d = some ct → ct = b!"application/vnd.ms-fontobject" := by
    intro sig hs ct h
    have hne : sig.match d ≠ none := by rw [h]; simp
    cases hpat : sig.pat with
    | none =>
      rcases no_pat sig hs hpat with rfl | rfl
      · have := match_ct h
        subst this
        exact absurd ((xmlMatch_iff d).1 h) hx
      · obtain ⟨c, h5, h6⟩ := mp4_control hlen hne
        exact absurd h6 (hc c h5)
    | some p =>
      have hft := (pat_match hpat).1 hne
      have hk := pats_known p (List.mem_filterMap.2 ⟨sig, hs, hpat⟩)
      unfold patKnown at hk
      rcases Bool.or_eq_true_iff.1 hk with hk | hk
      · have := ho p (List.contains_iff_mem.1 hk) hft
        subst this
        rw [match_ct h]
        exact font_ct sig hs hpat
      · obtain ⟨c, h5, h6⟩ := fits_control hk hft
        exact absurd h6 (hc c h5)
  rw [pages_none hp, Option.none_or, hmark]
  dsimp only
  cases he : sigEarly.findSome? (fun sig => sig.match d) with
  | some ct =>
    obtain ⟨sig, h5, h6⟩ := List.exists_of_findSome?_eq_some he
    exact hall sig (List.mem_append_left _ h5) ct h6
  | none =>
    cases hl : sigLate.findSome? (fun sig => sig.match d) with
    | some ct =>
      obtain ⟨sig, h5, h6⟩ := List.exists_of_findSome?_eq_some hl
      exact hall sig (List.mem_append_right _ h5) ct h6
    | none =>
      exfalso
      obtain ⟨sig, h3, h4⟩ := List.mem_filterMap.1 (kinds_known fontMark (by decide +kernel))
      rw [List.findSome?_eq_none_iff] at he hl
      apply (pat_match h4).2 hf
      rcases List.mem_append.1 h3 with h3 | h3
      · exact he sig h3
      · exact hl sig h3

/-- A value in JSON, as the encoder ends it, is taken for text, or for a font if its bytes 34 and 35 are `LP`. -/
theorem detect_json {s : Str} (h : Json s) : detectStd (s ++ b!"\n") =
    if s[34]? = some 76 ∧ s[35]? = some 80 then b!"application/vnd.ms-fontobject" else b!"text/plain; charset=utf-8" := by
  rcases json_head h with rfl | ⟨c, r, rfl, hc⟩
  · decide +kernel
  have hctl : ∀ x ∈ (c :: r ++ b!"\n").take 512, ¬ Control x := by
    intro x hx
    rcases List.mem_append.1 (List.mem_of_mem_take hx) with hx | hx
    · have := json_bytes h x hx
      unfold Control; omega
    · rw [List.mem_singleton.1 hx]; unfold Control; decide
  have htake : (c :: r ++ b!"\n").take 512 = c :: (r ++ b!"\n").take 511 := rfl
  have hmark : Fits fontMark ((c :: r ++ b!"\n").take 512) ↔ (c :: r)[34]? = some 76 ∧ (c :: r)[35]? = some 80 := by
    rw [fontMark_iff, List.getElem?_take_of_lt (by omega), List.getElem?_take_of_lt (by omega)]
    have : ∀ (i : Nat) (x : UInt8), x ≠ 10 → ((c :: r ++ b!"\n")[i]? = some x ↔ (c :: r)[i]? = some x) := by
      intro i x hx
      by_cases hi : i < (c :: r).length
      · rw [List.getElem?_append_left hi]
      · rw [List.getElem?_append_right (by omega)]
        simp only [List.getElem?_eq_none (show (c :: r).length ≤ i by omega)]
        cases i - (c :: r).length with
        | zero => simp [hx.symm]
        | succ n => simp
    rw [this 34 76 (by decide), this 35 80 (by decide)]
  obtain ⟨k1, k2, k3, k4⟩ := head_kinds (d := (r ++ b!"\n").take 511) hc
  rw [← htake] at k1 k2 k3 k4
  split
  · rename_i hf
    exact detect_font hctl k1 k2 k3 k4 (hmark.2 hf)
  · rename_i hf
    rw [detect_plain]
    refine .inr ⟨hctl, k1, k2, ?_⟩
    rintro ⟨p, h1, h2⟩
    have := k4 p h1 h2
    subst this
    exact hf (hmark.1 h2)

end Water
