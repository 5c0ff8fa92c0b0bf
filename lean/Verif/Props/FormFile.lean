import Verif.Model.FormFile
import Verif.Props.Url
/- C97: `FormFile` and the accessors do not depend on each other. -/
namespace Water
open Spec

/-- A request with a multipart form, whatever its method: the pairs of its query string, the values and the files of its body. -/
structure MultiReq (m : FMime) (req : Req) (d : Str) (qs : List (Str × Str)) (G : Form) (files : FormFiles) : Prop where
  type : m.mediaType (req.header.get b!"Content-Type") = (b!"multipart/form-data", false)
  given : req.header.get b!"Content-Type" ≠ []
  query : Query req.rawQuery qs
  parts : ∃ n, m.parts (req.header.get b!"Content-Type") d = (some (G, files), n)
  names : (files.map Prod.fst).Nodup

variable {m : FMime} {req : Req} {d : Str} {qs : List (Str × Str)} {G : Form} {files : FormFiles}

/-- the first of some values, trimmed; nothing if there are none -/
def FirstOf (vs : List Str) (v : Str) : Prop :=
  match vs with
  | [] => v = []
  | x :: _ => Trimmed x v

/-- the first file under a name, if there is one -/
def FirstFile (files : FormFiles) (name : Str) (r : Except FileErr Nat) : Prop :=
  (∀ x xs, (name, x :: xs) ∈ files → r = .ok x) ∧ ((∀ x xs, (name, x :: xs) ∉ files) → r = .error .missing)

theorem MultiReq.plain (h : MultiReq m req d qs G files) :
    (parsePlain m.toMime req (some d)).fails = false ∧ (parsePlain m.toMime req (some d)).read = 0 ∧
    ∀ k, values (parsePlain m.toMime req (some d)).form k = valuesIn qs k := by
  have hn : ∀ d', ¬ FormText m.toMime req (some d) d' := by
    rintro d' ⟨_, _, hu⟩
    unfold Urlencoded at hu
    rw [if_neg h.given] at hu
    simp only [FMime.toMime] at hu
    rw [h.type] at hu
    revert hu; decide
  obtain ⟨p1, p2, p3⟩ := parsePlain_none hn
  refine ⟨?_, p3, ?_⟩
  · rw [Bool.eq_false_iff, Ne, p2, parseQuery_ok h.query]
    unfold TypeFails
    rw [if_neg h.given]
    simp only [FMime.toMime]
    rw [h.type]
    simp
  · intro k
    rw [p1, values_copyValues (by simp), parseQuery_values (query_lenient h.query)]
    rfl

/-- the form without the parts, and with them -/
def urlForm (m : FMime) (req : Req) (d : Str) : Form := (parsePlain m.toMime req (some d)).form
/-- see `urlForm` -/
def fullForm (m : FMime) (req : Req) (d : Str) (G : Form) : Form := copyValues (urlForm m req d) G

theorem MultiReq.full (h : MultiReq m req d qs G files) (k : Str) :
    values (fullForm m req d G) k = valuesIn qs k ++ values G k := by
  unfold fullForm urlForm
  rw [values_copyValues (parsePlain_nodup _ _ _), h.plain.2.2]

theorem firstOf_query {f : Form} (hd : (f.map Prod.fst).Nodup) (k : Str) : FirstOf (values f k) (f.query k) := by
  obtain ⟨h1, h2⟩ := C41_query hd k []
  cases hv : values f k with
  | nil => exact (h1 hv).1
  | cons x xs => exact (h2 x xs hv).1

/-! ### the states a request goes through -/

/-- nothing done yet -/
def Untouched (d : Str) (s : Forms) : Prop := s.form = none ∧ s.multi = none ∧ s.body = some d ∧ s.parsed = false
/-- parsed without the parts -/
def PlainOnly (m : FMime) (req : Req) (d : Str) (s : Forms) : Prop :=
  s.form = some (urlForm m req d) ∧ s.multi = none ∧ s.body = some d ∧ s.parsed = true
/-- parsed with the parts -/
def Complete (m : FMime) (req : Req) (d : Str) (G : Form) (files : FormFiles) (s : Forms) : Prop :=
  s.form = some (fullForm m req d G) ∧ s.multi = some (G, files)

theorem readParts_plain (h : MultiReq m req d qs G files) {s : Forms} (h1 : s.form = some (urlForm m req d)) (h2 : s.multi = none)
    (h3 : s.body = some d) : (s.readParts m req).1 = false ∧ Complete m req d G files (s.readParts m req).2 := by
  obtain ⟨n, hp⟩ := h.parts
  have hc : ¬ (req.header.get b!"Content-Type" = [] ∨ (m.mediaType (req.header.get b!"Content-Type")).2 = true ∨
      (m.mediaType (req.header.get b!"Content-Type")).1 ≠ b!"multipart/form-data") := by
    rw [h.type]
    simp [h.given]
  have e : s.readParts m req = (false, { s with form := some (copyValues (s.form.getD []) G), multi := some (G, files), body := s.body.map (·.drop n) }) := by
    unfold Forms.readParts
    rw [h2]
    refine (if_neg hc).trans ?_
    rw [h3]
    show (match m.parts (req.header.get b!"Content-Type") d with | (none, n) => _ | (some (vs, fs), n) => _) = _
    rw [hp]
  rw [e, h1]
  exact ⟨rfl, rfl, rfl⟩

theorem parseMulti_untouched (h : MultiReq m req d qs G files) {s : Forms} (h1 : s.form = none) (h2 : s.multi = none)
    (h3 : s.body = some d) : (s.parseMulti m req).1 = false ∧ Complete m req d G files (s.parseMulti m req).2 := by
  unfold Forms.parseMulti Forms.parseForm
  rw [h1, h3]
  simp only []
  rw [h.plain.1]
  exact readParts_plain h rfl h2 (by simp [h.plain.2.1])

theorem parseMulti_again (h : MultiReq m req d qs G files) {s : Forms} (h1 : s.form = some (urlForm m req d)) (h2 : s.multi = none)
    (h3 : s.body = some d) : (s.parseMulti m req).1 = false ∧ Complete m req d G files (s.parseMulti m req).2 := by
  unfold Forms.parseMulti Forms.parseForm
  rw [h1]
  exact readParts_plain h h1 h2 h3

theorem complete_stable {s : Forms} (h : Complete m req d G files s) :
    s.parseForm m req = (false, s) ∧ s.parseMulti m req = (false, s) := by
  have h1 : s.parseForm m req = (false, s) := by unfold Forms.parseForm; rw [h.1]
  refine ⟨h1, ?_⟩
  unfold Forms.parseMulti
  rw [h1]
  show s.readParts m req = (false, s)
  unfold Forms.readParts
  rw [h.2]

/-- where a request is after some calls -/
def Where (m : FMime) (req : Req) (d : Str) (G : Form) (files : FormFiles) (asked : Bool) (s : Forms) : Prop :=
  Untouched d s ∧ asked = false ∨ PlainOnly m req d s ∧ wantsMultipart req = false ∧ asked = false ∨
    Complete m req d G files s ∧ (wantsMultipart req = true ∨ asked = true)

theorem prepare_where (h : MultiReq m req d qs G files) {asked : Bool} {s : Forms} (hs : Where m req d G files asked s) :
    (s.prepare m req).1 = false ∧
    (PlainOnly m req d (s.prepare m req).2 ∧ wantsMultipart req = false ∧ asked = false ∨
      Complete m req d G files (s.prepare m req).2 ∧ (wantsMultipart req = true ∨ asked = true)) := by
  rcases hs with ⟨⟨h1, h2, h3, h4⟩, ha⟩ | ⟨hp, hw, ha⟩ | ⟨hc, hw⟩
  · unfold Forms.prepare
    simp only [h4, Bool.false_eq_true, if_false]
    cases hw : wantsMultipart req with
    | true =>
      simp only [if_true]
      obtain ⟨k1, k2⟩ := parseMulti_untouched h (s := { s with parsed := true }) h1 h2 h3
      exact ⟨k1, .inr ⟨k2, .inl trivial⟩⟩
    | false =>
      simp only [Bool.false_eq_true, if_false]
      unfold Forms.parseForm
      simp only [h1, h3]
      refine ⟨h.plain.1, .inl ⟨⟨rfl, h2, ?_, rfl⟩, trivial, ha⟩⟩
      simp [h.plain.2.1]
  · unfold Forms.prepare
    rw [hp.2.2.2]
    exact ⟨rfl, .inl ⟨hp, hw, ha⟩⟩
  · unfold Forms.prepare
    cases hq : s.parsed with
    | true => exact ⟨rfl, .inr ⟨hc, hw⟩⟩
    | false =>
      simp only [Bool.false_eq_true, if_false]
      have hc' : Complete m req d G files { s with parsed := true } := hc
      obtain ⟨e1, e2⟩ := complete_stable hc'
      split
      · rw [e2]; exact ⟨rfl, .inr ⟨hc', hw⟩⟩
      · rw [e1]; exact ⟨rfl, .inr ⟨hc', hw⟩⟩

theorem formFile_where (h : MultiReq m req d qs G files) {asked : Bool} {s : Forms} (hs : Where m req d G files asked s) (name : Str) :
    Complete m req d G files (s.formFile m req name).2 ∧ FirstFile files name (s.formFile m req name).1 := by
  have key : ∀ s' : Forms, Complete m req d G files s' →
      Complete m req d G files (match s'.multi with
        | none => ((.error .missing : Except FileErr Nat), s')
        | some (_, fs) =>
          match fs.at name with
          | some (x :: _) => (.ok x, s')
          | _ => (.error .missing, s')).2 ∧
      FirstFile files name (match s'.multi with
        | none => ((.error .missing : Except FileErr Nat), s')
        | some (_, fs) =>
          match fs.at name with
          | some (x :: _) => (.ok x, s')
          | _ => (.error .missing, s')).1 := by
    intro s' hc
    rw [hc.2]
    simp only []
    have hat : ∀ l, (name, l) ∈ files → files.at name = some l := by
      intro l hl
      unfold FormFiles.at
      have hnd := h.names
      clear h hs hc
      induction files with
      | nil => cases hl
      | cons e es ih =>
        rcases List.mem_cons.1 hl with rfl | hl
        · simp
        · have hne : e.1 ≠ name := by
            intro he
            rw [List.map_cons, List.nodup_cons] at hnd
            exact hnd.1 (he ▸ List.mem_map_of_mem (f := Prod.fst) hl)
          rw [List.find?_cons_of_neg (by simpa using hne)]
          exact ih hl (by rw [List.map_cons, List.nodup_cons] at hnd; exact hnd.2)
    have hin : ∀ l, files.at name = some l → (name, l) ∈ files := by
      intro l hl
      unfold FormFiles.at at hl
      cases hf : files.find? (fun e => e.1 == name) with
      | none => rw [hf] at hl; cases hl
      | some e =>
        rw [hf] at hl
        have h1 := List.mem_of_find?_eq_some hf
        have h2 := List.find?_some hf
        simp only [beq_iff_eq] at h2
        simp only [Option.map_some, Option.some.injEq] at hl
        rw [← hl, ← h2]
        exact h1
    cases hl : files.at name with
    | none =>
      exact ⟨hc, fun x xs hx => absurd (hat _ hx) (by rw [hl]; simp), fun _ => rfl⟩
    | some l =>
      cases l with
      | nil => exact ⟨hc, fun x xs hx => absurd (hat _ hx) (by rw [hl]; simp), fun _ => rfl⟩
      | cons x xs =>
        refine ⟨hc, fun y ys hy => ?_, fun hno => absurd (hin _ hl) (hno x xs)⟩
        have := hat _ hy
        rw [hl] at this
        cases this
        rfl
  unfold Forms.formFile
  rcases hs with ⟨⟨h1, h2, h3, h4⟩, ha⟩ | ⟨hp, hw, ha⟩ | ⟨hc, hw⟩
  · simp only [h2]
    obtain ⟨k1, k2⟩ := parseMulti_untouched h h1 h2 h3
    rcases hr : s.parseMulti m req with ⟨b, s'⟩
    rw [hr] at k1 k2
    simp only at k1 k2
    rw [k1]
    exact key s' k2
  · simp only [hp.2.1]
    obtain ⟨k1, k2⟩ := parseMulti_again h hp.1 hp.2.1 hp.2.2.1
    rcases hr : s.parseMulti m req with ⟨b, s'⟩
    rw [hr] at k1 k2
    simp only at k1 k2
    rw [k1]
    exact key s' k2
  · have := key s hc
    simp only [hc.2] at this ⊢
    exact this

/-- a call to `FormFile` -/
def FOp.isFile : FOp → Bool
  | .file _ => true
  | _ => false

theorem after_where (h : MultiReq m req d qs G files) (ops : List FOp) :
    Where m req d G files (ops.any FOp.isFile) ((Forms.fresh (some d)).after m req ops) := by
  have main : ∀ (asked : Bool) (s : Forms), Where m req d G files asked s →
      Where m req d G files (asked || ops.any FOp.isFile) (s.after m req ops) := by
    induction ops with
    | nil => intro asked s hs; simpa [Forms.after] using hs
    | cons op ops ih =>
      intro asked s hs
      have step : Where m req d G files (asked || op.isFile) (s.step m req op) := by
        cases op with
        | prepare =>
          simp only [FOp.isFile, Bool.or_false, Forms.step]
          exact .inr (prepare_where h hs).2
        | query name =>
          simp only [FOp.isFile, Bool.or_false, Forms.step, Forms.query]
          have := (prepare_where h hs)
          rcases hr : s.prepare m req with ⟨b, s'⟩
          rw [hr] at this
          simp only at this
          rw [this.1]
          exact .inr this.2
        | file name =>
          simp only [FOp.isFile, Bool.or_true, Forms.step]
          exact .inr (.inr ⟨(formFile_where h hs name).1, .inr rfl⟩)
      have := ih _ _ step
      rw [List.any_cons, ← Bool.or_assoc]
      exact this
  have := main false (Forms.fresh (some d)) (.inl ⟨⟨rfl, rfl, rfl, rfl⟩, rfl⟩)
  rwa [Bool.false_or] at this

/-! ### C97 -/

/-- C97: whatever was called before, and whatever the method, `FormFile` returns the first file sent under the name. -/
theorem C97_file (h : MultiReq m req d qs G files) (ops : List FOp) (name : Str) :
    FirstFile files name (((Forms.fresh (some d)).after m req ops).formFile m req name).1 :=
  (formFile_where h (after_where h ops) name).2

theorem query_where (h : MultiReq m req d qs G files) {asked : Bool} {s : Forms} (hs : Where m req d G files asked s) (name : Str) :
    ∃ v, (s.query m req name).1 = some v ∧
      FirstOf (valuesIn qs name ++ if wantsMultipart req || asked then values G name else []) v := by
  have := prepare_where h hs
  unfold Forms.query
  rcases hr : s.prepare m req with ⟨b, s'⟩
  rw [hr] at this
  simp only at this
  rw [this.1]
  refine ⟨_, rfl, ?_⟩
  rcases this.2 with ⟨hp, hw, ha⟩ | ⟨hc, hw⟩
  · rw [hp.1, hw, ha]
    simp only [Option.getD_some, Bool.or_self, Bool.false_eq_true, if_false, List.append_nil]
    rw [← h.plain.2.2]
    exact firstOf_query (parsePlain_nodup _ _ _) name
  · rw [hc.1]
    have hb : (wantsMultipart req || asked) = true := by
      rcases hw with hw | hw <;> simp [hw]
    rw [hb]
    simp only [Option.getD_some, if_true]
    rw [← h.full]
    exact firstOf_query (copyValues_nodup (parsePlain_nodup _ _ _) _) name

/-- C97, partial: in POST, PUT and PATCH requests whose Content-Type contains "multipart/form-data", `Query` returns the value
sent, whatever was called before, without a panic. Missing: other methods and spellings (`C97_refuted`, `C97_other`). -/
theorem C97_value_partial (h : MultiReq m req d qs G files) (hm : Multipart req) (ops : List FOp) (name : Str) :
    ∃ v, (((Forms.fresh (some d)).after m req ops).query m req name).1 = some v ∧ FirstOf (valuesIn qs name ++ values G name) v := by
  obtain ⟨v, h1, h2⟩ := query_where h (after_where h ops) name
  rw [(wantsMultipart_iff req).2 hm] at h2
  exact ⟨v, h1, h2⟩

/-- C97, all other multipart requests: `Query` sees the values in the body exactly if `FormFile` was called before. -/
theorem C97_other (h : MultiReq m req d qs G files) (hm : ¬ Multipart req) (ops : List FOp) (name : Str) :
    ∃ v, (((Forms.fresh (some d)).after m req ops).query m req name).1 = some v ∧
      ((∃ f, FOp.file f ∈ ops) → FirstOf (valuesIn qs name ++ values G name) v) ∧
      ((¬ ∃ f, FOp.file f ∈ ops) → FirstOf (valuesIn qs name) v) := by
  obtain ⟨v, h1, h2⟩ := query_where h (after_where h ops) name
  have hw : wantsMultipart req = false := by
    rw [Bool.eq_false_iff, Ne, wantsMultipart_iff]; exact hm
  have ha : ops.any FOp.isFile = true ↔ ∃ f, FOp.file f ∈ ops := by
    rw [List.any_eq_true]
    constructor
    · rintro ⟨x, hx, hf⟩
      cases x with
      | file f => exact ⟨f, hx⟩
      | prepare => cases hf
      | query n => cases hf
    · rintro ⟨f, hf⟩
      exact ⟨_, hf, rfl⟩
  rw [hw, Bool.false_or] at h2
  refine ⟨v, h1, fun hf => ?_, fun hf => ?_⟩
  · rw [ha.2 hf] at h2
    exact h2
  · have : ops.any FOp.isFile = false := by rw [Bool.eq_false_iff, Ne, ha]; exact hf
    rw [this] at h2
    simpa using h2

/-- C97: with the first call on a request the form is what `St.parseForm` of `Model/Context.lean` makes of it. -/
theorem C97_refines (m : FMime) (req : Req) (body : Option Str) :
    ((Forms.fresh body).prepare m req).1 = (parseRequest m.toMime req (wantsMultipart req) body).fails ∧
    ((Forms.fresh body).prepare m req).2.form = some (parseRequest m.toMime req (wantsMultipart req) body).form ∧
    ((Forms.fresh body).prepare m req).2.body = body.map (·.drop (parseRequest m.toMime req (wantsMultipart req) body).read) := by
  unfold Forms.prepare parseRequest
  simp only [Forms.fresh, Bool.false_eq_true, if_false]
  cases wantsMultipart req with
  | false =>
    exact ⟨rfl, rfl, rfl⟩
  | true =>
    simp only [if_true, Forms.parseMulti, Forms.parseForm, parseMulti]
    cases hf : (parsePlain m.toMime req body).fails with
    | true => simp [hf]
    | false =>
      simp only [Forms.readParts, Bool.false_eq_true, if_false]
      have e : ∀ ct b, m.toMime.parts ct b = ((m.parts ct b).1.map Prod.fst, (m.parts ct b).2) := fun _ _ => rfl
      have e2 : ((body.map (·.drop (parsePlain m.toMime req body).read)).getD []) = (body.getD []).drop (parsePlain m.toMime req body).read := by
        cases body <;> simp
      rw [show m.toMime.mediaType = m.mediaType from rfl]
      split
      · exact ⟨rfl, rfl, rfl⟩
      · rw [e2, e]
        rcases hp : m.parts (req.header.get kContentType) ((body.getD []).drop (parsePlain m.toMime req body).read) with ⟨_ | ⟨vs, fs⟩, n⟩
        · refine ⟨rfl, rfl, ?_⟩
          cases body <;> simp
        · refine ⟨rfl, rfl, ?_⟩
          cases body <;> simp

/-! ### cases -/

namespace Demo

/-- `formMime` of the demonstrations of C80, with a file in the body -/
def fileMime : FMime :=
  ⟨formMime.mediaType, fun _ _ => (some ([(b!"a", [b!"body"])], [(b!"pic", [7, 8])]), 3)⟩

/-- a DELETE request with a multipart form -/
def deleteReq : Req := { postReq b!"multipart/form-data; boundary=x" b!"b=url" with method := b!"DELETE" }

/-- such a request meets the hypotheses -/
theorem fileReq_multi (req : Req) (h : req.header = (postReq b!"multipart/form-data; boundary=x" b!"b=url").header)
    (hq : req.rawQuery = b!"b=url") :
    MultiReq fileMime req b!"--x..." [(b!"b", b!"url")] [(b!"a", [b!"body"])] [(b!"pic", [7, 8])] := by
  refine ⟨?_, ?_, ?_, ⟨3, rfl⟩, by decide⟩
  · rw [h]; decide +kernel
  · rw [h]; decide +kernel
  · rw [hq]
    exact .one (Piece.pair (k := b!"b") (v := b!"url") (s := b!"b") (t := b!"url") (.plain (by decide) (by decide) .nil)
      (.plain (by decide) (by decide) (.plain (by decide) (by decide) (.plain (by decide) (by decide) .nil)))
      ⟨by decide, by decide⟩ ⟨by decide, by decide⟩ (by decide))

/-- a POST request: the value and the file are found in any order -/
example : let req := postReq b!"multipart/form-data; boundary=x" b!"b=url"
    let s := Forms.fresh (some b!"--x...")
    (s.query fileMime req b!"a").1 = some b!"body" ∧
    ((s.after fileMime req [.query b!"a", .query b!"b"]).formFile fileMime req b!"pic").1.toOption = some 7 ∧
    ((s.after fileMime req [.file b!"pic", .file b!"none"]).query fileMime req b!"a").1 = some b!"body" := by decide +kernel

/-- the whole claim of C97: what was called before does not matter -/
def C97_claim : Prop :=
  ∀ (m : FMime) (req : Req) (d : Str) (qs : List (Str × Str)) (G : Form) (files : FormFiles), MultiReq m req d qs G files →
    ∀ (ops ops' : List FOp) (name : Str),
      (((Forms.fresh (some d)).after m req ops).query m req name).1 = (((Forms.fresh (some d)).after m req ops').query m req name).1

end Demo

open Demo in
/-- C97, as stated, is false: in a DELETE request with a multipart form, `Query` returns nothing, and after a call to `FormFile` it
returns the value. -/
theorem C97_refuted : ¬ C97_claim := by
  intro h
  have := h fileMime deleteReq b!"--x..." _ _ _ (fileReq_multi deleteReq rfl rfl) [.query b!"a"] [.query b!"a", .file b!"pic"] b!"a"
  revert this
  decide +kernel

open Demo in
/-- The same for a POST request with another spelling of the type, which `mime.ParseMediaType` accepts and content.go:335 does not. -/
theorem C97_refuted_spelling : ¬ ∀ (m : FMime) (req : Req) (d : Str) (qs : List (Str × Str)) (G : Form) (files : FormFiles),
    req.method = b!"POST" → MultiReq m req d qs G files → ∀ (ops ops' : List FOp) (name : Str),
      (((Forms.fresh (some d)).after m req ops).query m req name).1 = (((Forms.fresh (some d)).after m req ops').query m req name).1 := by
  intro h
  have := h ⟨fun _ => (b!"multipart/form-data", false), fileMime.parts⟩ (postReq b!"Multipart/Form-Data; boundary=x" b!"b=url") b!"--x..."
    [(b!"b", b!"url")] [(b!"a", [b!"body"])] [(b!"pic", [7, 8])] rfl
    ⟨rfl, by decide +kernel, (fileReq_multi (postReq b!"multipart/form-data; boundary=x" b!"b=url") rfl rfl).query, ⟨3, rfl⟩, by decide⟩
    [] [.file b!"pic"] b!"a"
  revert this
  decide +kernel

end Water
