import Verif.Lemmas.Sniff
import Verif.Lemmas.Xml
import Verif.Model.FormBind
import Verif.Model.Multipart
/- Lemmas for C141: what a text of XML is taken for, and forms whose body is not read. -/
namespace Water
open Spec

/-! ### texts of XML have no control characters -/

theorem charBytes_plain {n : Nat} (h : XmlChar n) : ∀ c ∈ charBytes n, ¬ Control c := by
  obtain ⟨h1, h2, -⟩ := h
  have hn : n ≤ 0x10FFFF := by unfold CodePoint at h1; omega
  intro c hc
  have hlo : 128 ≤ n → 128 ≤ c.toNat := by
    intro hge
    unfold charBytes at hc
    rw [if_neg (by omega)] at hc
    split at hc
    · simp only [List.mem_cons, List.not_mem_nil, or_false] at hc
      rcases hc with rfl | rfl <;> simp only [UInt8.toNat_ofNat'] <;> omega
    · split at hc
      · simp only [List.mem_cons, List.not_mem_nil, or_false] at hc
        rcases hc with rfl | rfl | rfl <;> simp only [UInt8.toNat_ofNat'] <;> omega
      · simp only [List.mem_cons, List.not_mem_nil, or_false] at hc
        rcases hc with rfl | rfl | rfl | rfl <;> simp only [UInt8.toNat_ofNat'] <;> omega
  by_cases hge : 128 ≤ n
  · have := hlo hge
    unfold Control; omega
  · unfold charBytes at hc
    rw [if_pos (by omega)] at hc
    have e := List.mem_singleton.1 hc
    have : c.toNat = n := by rw [e]; simp only [UInt8.toNat_ofNat']; omega
    unfold Control; omega

theorem digitOf_plain : ∀ c : UInt8, (digitOf c).isSome = true → ¬ Control c := by
  unfold Control
  apply all_bytes; decide +kernel

theorem inBase_plain {b : Nat} {s : Str} {n : Nat} (h : InBase b s n) : ∀ c ∈ s, ¬ Control c := by
  induction h with
  | one h1 _ => intro c hc; rw [List.mem_singleton.1 hc]; exact digitOf_plain _ (by rw [h1]; rfl)
  | more _ h1 _ ih =>
    intro c hc
    rcases List.mem_append.1 hc with hc | hc
    · exact ih c hc
    · rw [List.mem_singleton.1 hc]; exact digitOf_plain _ (by rw [h1]; rfl)

theorem refTo_plain {x : Str} {n : Nat} (h : RefTo x n) : ∀ c ∈ x, ¬ Control c := by
  rcases h with h | ⟨s, rfl, h⟩ | ⟨s, rfl, h⟩
  · have : ∀ e ∈ entities, ∀ c ∈ e.1, ¬ Control c := by unfold Control; decide
    exact this _ h
  · intro c hc
    rcases List.mem_cons.1 hc with rfl | hc
    · unfold Control; decide
    · exact inBase_plain h c hc
  · intro c hc
    rcases List.mem_cons.1 hc with rfl | hc
    · unfold Control; decide
    · rcases List.mem_cons.1 hc with rfl | hc
      · unfold Control; decide
      · exact inBase_plain h c hc

theorem xname_plain {k : Str} (h : XName k) : ∀ c ∈ k, ¬ Control c ∧ c ≠ 32 ∧ c ≠ 33 ∧ c ≠ 62 ∧ c ≠ 63 := by
  obtain ⟨c, r, rfl, h1, h2⟩ := h
  have key : ∀ c ∈ nameStarts ++ b!"-.0123456789", ¬ Control c ∧ c ≠ 32 ∧ c ≠ 33 ∧ c ≠ 62 ∧ c ≠ 63 := by unfold Control; decide
  intro d hd
  rcases List.mem_cons.1 hd with rfl | hd
  · exact key _ (List.mem_append_left _ h1)
  · exact key _ (h2 d hd)

theorem xsays_plain {t : Str} {l : List XItem} (h : XSays t l) : ∀ c ∈ t, ¬ Control c := by
  have h38 : ¬ Control 38 := by unfold Control; decide
  have h59 : ¬ Control 59 := by unfold Control; decide
  have h60 : ¬ Control 60 := by unfold Control; decide
  have h62 : ¬ Control 62 := by unfold Control; decide
  have h47 : ¬ Control 47 := by unfold Control; decide
  induction h with
  | nil => intro c hc; cases hc
  | chr h1 _ _ ih =>
    intro c hc
    rcases List.mem_append.1 hc with hc | hc
    · exact charBytes_plain h1 c hc
    · exact ih c hc
  | ref h1 _ _ ih =>
    intro c hc
    simp only [List.mem_cons, List.mem_append] at hc
    rcases hc with rfl | hc | rfl | hc
    · exact h38
    · exact refTo_plain h1 c hc
    · exact h59
    · exact ih c hc
  | elem h1 _ _ ih1 ih2 =>
    intro c hc
    simp only [List.mem_cons, List.mem_append] at hc
    rcases hc with rfl | hc | rfl | hc | rfl | rfl | hc | rfl | hc
    · exact h60
    · exact (xname_plain h1 c hc).1
    · exact h62
    · exact ih1 c hc
    · exact h60
    · exact h47
    · exact (xname_plain h1 c hc).1
    · exact h62
    · exact ih2 c hc

/-! ### what they are taken for -/

theorem anyCase_close {s t : Str} (h : AnyCase s t) (ht : ∀ c ∈ t, c ≠ 62) : ∀ c ∈ s, c ≠ 62 := by
  induction h with
  | nil => intro c hc; cases hc
  | @cons a b s t ha _ ih =>
    intro c hc
    rcases List.mem_cons.1 hc with rfl | hc
    · have := ht b List.mem_cons_self
      rintro rfl
      unfold sameLetter at ha
      simp only [UInt8.reduceToNat] at ha
      rcases ha with h | h | h
      · exact this h.symm
      · omega
      · omega
    · exact ih (fun c hc => ht c (List.mem_cons_of_mem _ hc)) c hc

/-- a text that begins with an element is taken for a page exactly if the name is one of the tags -/
theorem page_elem {k rest : Str} (hk : XName k) :
    Page ((60 :: (k ++ 62 :: rest)).take 512) ↔ ∃ tag ∈ pageTags, AnyCase (60 :: k) tag := by
  have hdrop : ∀ d : Str, (60 :: d).dropWhile sniffSpace = 60 :: d := by
    intro d
    rw [List.dropWhile_cons_of_neg (by decide)]
  have htake : (60 :: (k ++ 62 :: rest)).take 512 = 60 :: (k ++ 62 :: rest).take 511 := rfl
  constructor
  · intro hp
    obtain ⟨tag, h1, h2⟩ := (page_iff _).1 hp
    obtain ⟨f1, f2, -, -⟩ := pageTags_facts tag h1
    rw [htake, hdrop, htmlMatch_iff f1] at h2
    obtain ⟨t, e, r, h3, h4, h5⟩ := h2
    refine ⟨tag, h1, ?_⟩
    cases h4 with
    | nil => cases f2
    | @cons a b s t' ha hs =>
      simp only [List.cons_append, List.cons.injEq] at h3
      obtain ⟨rfl, h3⟩ := h3
      have h6 : s ++ e :: (r ++ (k ++ 62 :: rest).drop 511) = k ++ 62 :: rest := by
        have := List.take_append_drop 511 (k ++ 62 :: rest)
        rw [h3] at this
        simpa using this
      have all : ∀ tag ∈ pageTags, ∀ c ∈ tag, c ≠ 62 := by decide
      have hs62 := anyCase_close hs (fun c hc => all _ h1 c (List.mem_cons_of_mem _ hc))
      have : s = k := by
        rcases List.append_eq_append_iff.1 h6 with ⟨a, h7, h8⟩ | ⟨a, h7, h8⟩
        · cases a with
          | nil => rw [h7]; simp
          | cons x a =>
            simp only [List.cons_append, List.cons.injEq] at h8
            have hx := xname_plain hk x (by rw [h7]; simp)
            rcases h5 with h5 | h5
            · exact absurd (h8.1.symm.trans h5) hx.2.1
            · exact absurd (h8.1.symm.trans h5) hx.2.2.2.1
        · cases a with
          | nil => rw [h7]; simp
          | cons x a =>
            simp only [List.cons_append, List.cons.injEq] at h8
            exact absurd h8.1.symm (hs62 x (by rw [h7]; simp))
      subst this
      exact .cons ha hs
  · rintro ⟨tag, h1, h2⟩
    have hlen := anyCase_length h2
    have hall : ∀ tag ∈ pageTags, tag.length ≤ 14 := by decide
    have := hall tag h1
    have e : (60 :: (k ++ 62 :: rest)).take 512 = [] ++ (60 :: k) ++ 62 :: rest.take (510 - k.length) := by
      simp only [List.length_cons] at hlen
      rw [show (60 :: (k ++ 62 :: rest)) = (60 :: k) ++ 62 :: rest from by simp, List.take_append,
        List.take_of_length_le (by simp only [List.length_cons]; omega), List.nil_append,
        show 512 - (60 :: k).length = (510 - k.length) + 1 from by simp only [List.length_cons]; omega, List.take_succ_cons]
    rw [e]
    exact .mk (by simp) h1 h2 (.inr rfl)

/-- A document of XML is taken for a page if its element has the name of a tag, otherwise for a font if its bytes 34 and 35 are `LP`, and
otherwise for text. -/
theorem detect_doc {t k : Str} {kids : List XItem} (h : XmlDoc t (.elem k kids)) :
    ((∃ tag ∈ pageTags, AnyCase (60 :: k) tag) → detectStd t = b!"text/html; charset=utf-8") ∧
    ((¬ ∃ tag ∈ pageTags, AnyCase (60 :: k) tag) → detectStd t =
      if t[34]? = some 76 ∧ t[35]? = some 80 then b!"application/vnd.ms-fontobject" else b!"text/plain; charset=utf-8") := by
  obtain ⟨k', c, kids', e, hk, hc, rfl⟩ := h
  cases e
  have hpage := page_elem (rest := c ++ 60 :: 47 :: (k ++ [62])) hk
  have hctl : ∀ x ∈ (60 :: (k ++ 62 :: (c ++ 60 :: 47 :: (k ++ [62])))).take 512, ¬ Control x := by
    intro x hx
    have hx := List.mem_of_mem_take hx
    have h1 : XSays (60 :: (k ++ 62 :: (c ++ 60 :: 47 :: (k ++ [62])))) [.elem k kids] := .elem hk hc .nil
    exact xsays_plain h1 x hx
  generalize hd : c ++ 60 :: 47 :: (k ++ [62]) = d at *
  refine ⟨fun h => (detect_page _).2 (hpage.2 h), ?_⟩
  intro hno
  have k1 : ¬ Page ((60 :: (k ++ 62 :: d)).take 512) := fun h => hno (hpage.1 h)
  have htake : (60 :: (k ++ 62 :: d)).take 512 = 60 :: (k ++ 62 :: d).take 511 := rfl
  have k2 : ¬ XmlBegin ((60 :: (k ++ 62 :: d)).take 512) := by
    intro hx
    rw [htake] at hx
    obtain ⟨c0, r0, rfl, -⟩ := id hk
    have h63 := (xname_plain hk c0 List.mem_cons_self).2.2.2.2
    rw [List.cons_append, List.take_succ_cons] at hx
    generalize hs : 60 :: c0 :: (r0 ++ 62 :: d).take 510 = s at hx
    cases hx with
    | @mk ws rest h =>
      cases ws with
      | nil =>
        simp only [List.nil_append, List.cons_append, List.cons.injEq] at hs
        exact h63 hs.2.1
      | cons w ws =>
        simp only [List.cons_append, List.cons.injEq] at hs
        have := h w List.mem_cons_self
        rw [← hs.1] at this
        exact absurd this (by unfold TagSpace; decide)
  have k3 : ¬ Fits [some 0xEF, some 0xBB, some 0xBF, none] ((60 :: (k ++ 62 :: d)).take 512) := by
    rw [htake]
    intro h
    cases h
  have k4 : ∀ p ∈ otherKinds, Fits p ((60 :: (k ++ 62 :: d)).take 512) → p = fontMark := by
    rw [htake]
    intro p hp hf
    have key : ∀ p ∈ otherKinds, p = fontMark ∨ (p.head? ≠ some (some 60) ∧ p.head? ≠ some none ∧ p ≠ []) := by decide +kernel
    rcases key p hp with h | ⟨h1, h2, h3⟩
    · exact h
    · exfalso
      cases hf with
      | nil => exact h3 rfl
      | this h => exact h1 rfl
      | any h => exact h2 rfl
  have hmark : Fits fontMark ((60 :: (k ++ 62 :: d)).take 512) ↔
      (60 :: (k ++ 62 :: d))[34]? = some 76 ∧ (60 :: (k ++ 62 :: d))[35]? = some 80 := by
    rw [fontMark_iff, List.getElem?_take_of_lt (by omega), List.getElem?_take_of_lt (by omega)]
  split
  · rename_i hf
    exact detect_font hctl k1 k2 k3 k4 (hmark.2 hf)
  · rename_i hf
    rw [detect_plain]
    refine .inr ⟨hctl, k1, k2, ?_⟩
    rintro ⟨p, h1, h2⟩
    have := k4 p h1 h2
    subst this
    exact hf (hmark.1 h2)

/-! ### forms whose body is not read -/

/-- the type is neither of those that forms are sent with -/
structure NoForm (m : FMime) (req : Req) : Prop where
  fine : (m.mediaType (req.header.get kContentType)).2 = false
  url : (m.mediaType (req.header.get kContentType)).1 ≠ b!"application/x-www-form-urlencoded"
  multi : (m.mediaType (req.header.get kContentType)).1 ≠ b!"multipart/form-data"
  said : req.header.get kContentType ≠ []

/-- the body replaced -/
def Forms.over (s : Forms) (d : Option Str) : Forms := { s with body := d }

variable {m : FMime} {req : Req}

theorem noForm_plain (h : NoForm m req) (d : Option Str) : parsePlain m.toMime req d = parsePlain m.toMime req none ∧ (parsePlain m.toMime req d).read = 0 := by
  have : parsePostForm m.toMime req d = ⟨[], false, 0⟩ := by
    unfold parsePostForm
    cases d with
    | none => rfl
    | some d =>
      refine (if_neg ?_).trans ?_
      · rw [if_neg h.said]; exact h.url
      · rw [if_neg h.said]; exact congrArg (fun x => (⟨[], x, 0⟩ : Parsed)) h.fine
  have h0 : parsePostForm m.toMime req none = ⟨[], false, 0⟩ := rfl
  unfold parsePlain
  rw [this, h0]
  refine ⟨rfl, ?_⟩
  simp only []
  split <;> rfl

theorem over_parseForm (h : NoForm m req) (s : Forms) (d : Option Str) :
    (s.over d).parseForm m req = ((s.parseForm m req).1, (s.parseForm m req).2.over d) := by
  obtain ⟨F, M, d0, p⟩ := s
  cases F with
  | some F => rfl
  | none =>
    simp only [Forms.parseForm, Forms.over, (noForm_plain h d).1, (noForm_plain h d0).1, (noForm_plain h none).2]
    cases d <;> simp

theorem over_readParts (h : NoForm m req) (s : Forms) (d : Option Str) :
    (s.over d).readParts m req = ((s.readParts m req).1, (s.readParts m req).2.over d) := by
  obtain ⟨F, M, d0, p⟩ := s
  cases M with
  | some M => rfl
  | none =>
    have key : ∀ d, Forms.readParts m req ⟨F, none, d, p⟩ = (true, ⟨F, none, d, p⟩) := fun d => if_pos (.inr (.inr h.multi))
    rw [key d0]
    exact key d

theorem over_parseMulti (h : NoForm m req) (s : Forms) (d : Option Str) :
    (s.over d).parseMulti m req = ((s.parseMulti m req).1, (s.parseMulti m req).2.over d) := by
  unfold Forms.parseMulti
  rw [over_parseForm h]
  rcases s.parseForm m req with ⟨_ | _, s'⟩
  · exact over_readParts h s' d
  · rfl

theorem over_prepare (h : NoForm m req) (s : Forms) (d : Option Str) :
    (s.over d).prepare m req = ((s.prepare m req).1, (s.prepare m req).2.over d) := by
  unfold Forms.prepare
  rw [show (s.over d).parsed = s.parsed from rfl]
  split
  · rfl
  · dsimp only
    split
    · exact over_parseMulti h { s with parsed := true } d
    · exact over_parseForm h { s with parsed := true } d

theorem over_formFile (h : NoForm m req) (name : Str) (s : Forms) (d : Option Str) :
    (s.over d).formFile m req name = ((s.formFile m req name).1, (s.formFile m req name).2.over d) := by
  unfold Forms.formFile
  rw [show (s.over d).multi = s.multi from rfl]
  have key : ∀ r : Bool × Forms, (match (r.1, r.2.over d) with
      | (true, s) => ((.error .form : Except FileErr Nat), s)
      | (false, s) => match s.multi with
        | none => (.error .missing, s)
        | some (_, fs) => match fs.at name with
          | some (x :: _) => (.ok x, s)
          | _ => (.error .missing, s)) =
      let q := (match r with
      | (true, s) => ((.error .form : Except FileErr Nat), s)
      | (false, s) => match s.multi with
        | none => (.error .missing, s)
        | some (_, fs) => match fs.at name with
          | some (x :: _) => (.ok x, s)
          | _ => (.error .missing, s))
      (q.1, q.2.over d) := by
    rintro ⟨_ | _, s'⟩
    · dsimp only
      obtain ⟨F, _ | ⟨vs, fs⟩, d0, p⟩ := s'
      · rfl
      · simp only [Forms.over]
        rcases fs.at name with _ | _ | ⟨x, l⟩ <;> rfl
    · rfl
  cases s.multi with
  | some p => exact key (false, s)
  | none =>
    dsimp only
    rw [over_parseMulti h]
    exact key _

theorem over_query (h : NoForm m req) (name : Str) (s : Forms) (d : Option Str) :
    (s.over d).query m req name = ((s.query m req name).1, (s.query m req name).2.over d) := by
  unfold Forms.query
  rw [over_prepare h]
  rcases s.prepare m req with ⟨_ | _, s'⟩ <;> rfl

variable {b : BOracle} {E : TyEnv} {check : Target → Option Nat}

theorem over_bind (h : NoForm m req) (fuel : Nat) (obj : Target) (s : Forms) (d : Option Str) :
    (s.over d).bind m b E fuel check req obj = ((s.bind m b E fuel check req obj).1, (s.bind m b E fuel check req obj).2.over d) := by
  unfold Forms.bind
  rw [over_prepare h]
  cases newBindinger req.method (contentTypeOf req.header) with
  | json => rfl
  | xml => rfl
  | form =>
    dsimp only
    rcases s.prepare m req with ⟨_ | _, s'⟩
    · dsimp only
      rw [over_prepare h]
      generalize (s'.prepare m req).2 = s'
      dsimp only
      have : (s'.over d).forForm m req = ((s'.forForm m req).1, (s'.forForm m req).2.over d) := by
        obtain ⟨_ | F, M, d0, p⟩ := s'
        · exact over_parseForm h ⟨none, M, d0, p⟩ d
        · rfl
      rw [this]
      rcases s'.forForm m req with ⟨_ | _, s2⟩ <;> rfl
    · rfl
  | multipart =>
    dsimp only
    rcases s.prepare m req with ⟨_ | _, s'⟩
    · dsimp only
      rw [over_prepare h]
      generalize (s'.prepare m req).2 = s'
      dsimp only
      have : (s'.over d).forMultipart m req = ((s'.forMultipart m req).1, (s'.forMultipart m req).2.over d) := by
        obtain ⟨F, _ | M, d0, p⟩ := s'
        · exact over_parseMulti h ⟨F, none, d0, p⟩ d
        · rfl
      rw [this]
      rcases s'.forMultipart m req with ⟨_ | _, s2⟩
      · dsimp only
        obtain ⟨F, _ | ⟨vs, fs⟩, d0, p⟩ := s2 <;> rfl
      · rfl
    · rfl

theorem over_after (h : NoForm m req) (ops : List BOp) : ∀ (s : Forms) (d : Option Str),
    (s.over d).afterB m b E check req ops = (s.afterB m b E check req ops).over d := by
  induction ops with
  | nil => intro s d; rfl
  | cons op ops ih =>
    intro s d
    have : (s.over d).stepB m b E check req op = (s.stepB m b E check req op).over d := by
      cases op with
      | bind fuel obj => exact congrArg Prod.snd (over_bind h fuel obj s d)
      | call op =>
        cases op with
        | prepare => exact congrArg Prod.snd (over_prepare h s d)
        | query name => exact congrArg Prod.snd (over_query h name s d)
        | file name => exact congrArg Prod.snd (over_formFile h name s d)
    show ((s.over d).stepB m b E check req op).afterB m b E check req ops = _
    rw [this, ih]
    rfl

end Water
