import Verif.Model.FormBind
import Verif.Props.FormFile
import Verif.Props.RoundTrip
/- C103: a struct with files that a client sends as a multipart form comes back from `Bind`, whatever was called before. -/
namespace Water
open Spec

variable {m : FMime} {req : Req} {d : Str} {qs : List (Str × Str)} {G : Form} {files : FormFiles}
variable {b : BOracle} {E : TyEnv} {check : Target → Option Nat}

/-! ### where a request is after some calls -/

theorem multipart_of_type (hm : req.method ∈ [b!"POST", b!"PUT", b!"PATCH"]) (hct : contentTypeOf req.header = b!"multipart/form-data") :
    Multipart req := by
  refine ⟨hm, [], (req.header.get b!"Content-Type").dropWhile flagByte, ?_⟩
  have : (req.header.get b!"Content-Type").takeWhile flagByte = b!"multipart/form-data" := by
    rw [← filterFlags_eq]; exact hct
  conv => lhs; rw [← List.takeWhile_append_dropWhile (p := flagByte) (l := req.header.get b!"Content-Type"), this]
  rfl

theorem decoder_multipart (hm : req.method ∈ [b!"POST", b!"PUT", b!"PATCH"]) (hct : contentTypeOf req.header = b!"multipart/form-data") :
    newBindinger req.method (contentTypeOf req.header) = .multipart := by
  rw [hct]
  simp only [List.mem_cons, List.not_mem_nil, or_false] at hm
  rcases hm with h | h | h <;> (rw [h]; decide +kernel)

/-- a state after `ParseFormOrMultipartForm` -/
def Prepared (m : FMime) (req : Req) (d : Str) (G : Form) (files : FormFiles) (asked : Bool) (s : Forms) : Prop :=
  PlainOnly m req d s ∧ wantsMultipart req = false ∧ asked = false ∨ Complete m req d G files s ∧ (wantsMultipart req = true ∨ asked = true)

/-- What `Bind` finds, and what it leaves. -/
theorem bind_where (h : MultiReq m req d qs G files) {asked : Bool} {s : Forms} (hs : Where m req d G files asked s) (fuel : Nat)
    (obj : Target) (hd : newBindinger req.method (contentTypeOf req.header) = .form ∨
      newBindinger req.method (contentTypeOf req.header) = .multipart ∧ wantsMultipart req = true) :
    Prepared m req d G files asked (s.bind m b E fuel check req obj).2 ∧
    (s.bind m b E fuel check req obj).1 =
      .mapped (if newBindinger req.method (contentTypeOf req.header) = .multipart then bindForm b E fuel check obj G files b!"form"
        else bindForm b E fuel check obj (if wantsMultipart req || asked then fullForm m req d G else urlForm m req d) [] b!"form") := by
  have h1 := prepare_where h hs
  have h2 := prepare_where h (.inr h1.2)
  unfold Forms.bind
  rcases hr : s.prepare m req with ⟨p, s1⟩
  rw [hr] at h1 h2
  simp only at h1 h2
  obtain ⟨rfl, h1⟩ := h1
  rcases hr2 : s1.prepare m req with ⟨q, s2⟩
  rw [hr2] at h2
  simp only at h2
  obtain ⟨rfl, h2⟩ := h2
  rcases hd with hd | ⟨hd, hw⟩
  · rw [hd]
    simp only [hr2, reduceCtorEq, if_false]
    rcases h2 with ⟨hp, hw, ha⟩ | ⟨hc, hw⟩
    · have : s2.forForm m req = (false, s2) := by unfold Forms.forForm; rw [hp.1]
      simp only [this, hp.1, hw, ha]
      exact ⟨.inl ⟨hp, hw, rfl⟩, rfl⟩
    · have : s2.forForm m req = (false, s2) := by unfold Forms.forForm; rw [hc.1]
      simp only [this, hc.1]
      refine ⟨.inr ⟨hc, hw⟩, ?_⟩
      have hb : (wantsMultipart req || asked) = true := by rcases hw with hw | hw <;> simp [hw]
      rw [hb]
      rfl
  · rw [hd]
    simp only [hr2, if_true]
    rcases h2 with ⟨hp, hw', ha⟩ | ⟨hc, hw'⟩
    · rw [hw] at hw'; cases hw'
    · have : s2.forMultipart m req = (false, s2) := by unfold Forms.forMultipart; rw [hc.2]
      simp only [this, hc.2]
      exact ⟨.inr ⟨hc, .inl hw⟩, trivial⟩

/-- a call to `FormFile` -/
def BOp.isFile : BOp → Bool
  | .call op => op.isFile
  | .bind _ _ => false

theorem step_where (h : MultiReq m req d qs G files) {asked : Bool} {s : Forms} (hs : Where m req d G files asked s) (op : FOp) :
    Where m req d G files (asked || op.isFile) (s.step m req op) := by
  cases op with
  | prepare =>
    simp only [FOp.isFile, Bool.or_false, Forms.step]
    exact .inr (prepare_where h hs).2
  | query name =>
    simp only [FOp.isFile, Bool.or_false, Forms.step, Forms.query]
    have := (prepare_where h hs)
    rcases hr : s.prepare m req with ⟨b, s'⟩
    rw [hr] at this
    simp only at this
    rw [this.1]
    exact .inr this.2
  | file name =>
    simp only [FOp.isFile, Bool.or_true, Forms.step]
    exact .inr (.inr ⟨(formFile_where h hs name).1, .inr rfl⟩)

theorem afterB_where (h : MultiReq m req d qs G files) (hd : newBindinger req.method (contentTypeOf req.header) = .form ∨
      newBindinger req.method (contentTypeOf req.header) = .multipart ∧ wantsMultipart req = true) (ops : List BOp) :
    Where m req d G files (ops.any BOp.isFile) ((Forms.fresh (some d)).afterB m b E check req ops) := by
  have main : ∀ (asked : Bool) (s : Forms), Where m req d G files asked s →
      Where m req d G files (asked || ops.any BOp.isFile) (s.afterB m b E check req ops) := by
    induction ops with
    | nil => intro asked s hs; simpa [Forms.afterB] using hs
    | cons op ops ih =>
      intro asked s hs
      have step : Where m req d G files (asked || op.isFile) (s.stepB m b E check req op) := by
        cases op with
        | call op => exact step_where h hs op
        | bind fuel obj =>
          simp only [BOp.isFile, Bool.or_false, Forms.stepB]
          exact .inr (bind_where h hs fuel obj hd).1
      have := ih _ _ step
      rw [List.any_cons, ← Bool.or_assoc]
      exact this
  have := main false (Forms.fresh (some d)) (.inl ⟨⟨rfl, rfl, rfl, rfl⟩, rfl⟩)
  rwa [Bool.false_or] at this

/-! ### C103 -/

/-- C103, partial: in POST, PUT and PATCH requests whose type is written `multipart/form-data`, `Bind` maps the values and files of the
body and nothing else, whatever was called before. Missing: other methods and spellings (`C103_refuted`, `C103_other`). -/
theorem C103_bind_partial (h : MultiReq m req d qs G files) (hm : req.method ∈ [b!"POST", b!"PUT", b!"PATCH"])
    (hct : contentTypeOf req.header = b!"multipart/form-data") (ops : List BOp) (fuel : Nat) (obj : Target) :
    (((Forms.fresh (some d)).afterB m b E check req ops).bind m b E fuel check req obj).1 =
      .mapped (bindForm b E fuel check obj G files b!"form") := by
  have hd := decoder_multipart hm hct
  have hw := (wantsMultipart_iff req).2 (multipart_of_type hm hct)
  have := (bind_where (b := b) (E := E) (check := check) h (afterB_where (b := b) (E := E) (check := check) h (.inr ⟨hd, hw⟩) ops) fuel obj
    (.inr ⟨hd, hw⟩)).2
  rw [hd] at this
  exact this

/-- the files under each name are those that were sent, in order -/
def SentFiles (files : FormFiles) (fs : List (Str × Nat)) (names : List Str) : Prop :=
  (∀ e ∈ files, e.2 ≠ []) ∧ ∀ k ∈ names, (files.filter (fun e => e.1 == k)).flatMap Prod.snd = valuesIn fs k

theorem filter_nodup_at {α : Type} {l : List (Str × α)} (hd : (l.map Prod.fst).Nodup) (k : Str) :
    l.filter (fun e => e.1 == k) = (l.find? (fun e => e.1 == k)).toList := by
  induction l with
  | nil => rfl
  | cons e l ih =>
    rw [List.map_cons, List.nodup_cons] at hd
    by_cases he : e.1 = k
    · rw [List.filter_cons_of_pos (by simpa using he), List.find?_cons_of_pos (by simpa using he)]
      have : l.filter (fun e => e.1 == k) = [] := by
        rw [List.filter_eq_nil_iff]
        intro a ha hk
        simp only [beq_iff_eq] at hk
        exact hd.1 (List.mem_map.2 ⟨a, ha, hk.trans he.symm⟩)
      rw [this]
      rfl
    · rw [List.filter_cons_of_neg (by simpa using he), List.find?_cons_of_neg (by simpa using he)]
      exact ih hd.2

theorem files_orNone (h1 : (files.map Prod.fst).Nodup) {fs : List (Str × Nat)} {names : List Str} (h : SentFiles files fs names) {k : Str} (hk : k ∈ names) :
    files.at k = orNone (valuesIn fs k) := by
  obtain ⟨h2, h3⟩ := h
  rw [← h3 k hk, filter_nodup_at h1]
  unfold FormFiles.at
  cases hf : files.find? (fun e => e.1 == k) with
  | none => rfl
  | some e =>
    have := h2 e (List.mem_of_find?_eq_some hf)
    simp [orNone_ne this]

/-- C103, partial (the round trip): a struct with files, sent as the texts `texts` and the files `uploads` of a multipart form, is bound to
the same struct, whatever is in the query string and whatever was called before. -/
theorem C103_round_partial (h : MultiReq m req d qs G files) (hm : req.method ∈ [b!"POST", b!"PUT", b!"PATCH"])
    (hct : contentTypeOf req.header = b!"multipart/form-data") {f g n : Nat} (hg : f ≤ g) {v : Val} (hs : Uploadable E b!"form" f n v)
    (hnd : (namesOf E b!"form" f n).Nodup) (hG : (G.map Prod.fst).Nodup) (hfill : ∀ e ∈ G, e.2 ≠ [])
    (hv : ∀ k ∈ namesOf E b!"form" f n, values G k = valuesIn (texts E b!"form" f n v) k)
    (hfs : SentFiles files (uploads E b!"form" f n v) (namesOf E b!"form" f n)) (hc : ∀ t, check t = none) (ops : List BOp) :
    ∃ w, (((Forms.fresh (some d)).afterB m b E check req ops).bind m b E g check req (.struct n .zero)).1 = .mapped (.ok, .struct n w) ∧
      SameVal E (.struct n) v w := by
  rw [C103_bind_partial h hm hct]
  obtain ⟨w, hw, hsame⟩ := upload_back (o := b) (E := E) (form := G) (files := files) (tag := b!"form") f g hg n v hs hnd
    (fun k hk => ⟨at_orNone hG hfill (hv k hk), files_orNone h.names hfs hk⟩)
  refine ⟨w, ?_, hsame⟩
  unfold bindForm MapForm
  simp only [hw, hc]

/-- C103, the other multipart requests that are not read as JSON or XML: `Bind` maps the values of the query string, after a call to
`FormFile` with those of the body, and never a file. -/
theorem C103_other (h : MultiReq m req d qs G files) (hd : newBindinger req.method (contentTypeOf req.header) = .form) (hw : ¬ Multipart req)
    (ops : List BOp) (fuel : Nat) (obj : Target) :
    ∃ F, (((Forms.fresh (some d)).afterB m b E check req ops).bind m b E fuel check req obj).1 =
        .mapped (bindForm b E fuel check obj F [] b!"form") ∧ (F.map Prod.fst).Nodup ∧
      ((∃ name, .call (.file name) ∈ ops) → ∀ k, values F k = valuesIn qs k ++ values G k) ∧
      ((¬ ∃ name, .call (.file name) ∈ ops) → ∀ k, values F k = valuesIn qs k) := by
  have hb := (bind_where (b := b) (E := E) (check := check) h (afterB_where (b := b) (E := E) (check := check) h (.inl hd) ops) fuel obj
    (.inl hd)).2
  have hw' : wantsMultipart req = false := by
    rw [Bool.eq_false_iff, Ne, wantsMultipart_iff]; exact hw
  have ha : ops.any BOp.isFile = true ↔ ∃ name, .call (.file name) ∈ ops := by
    rw [List.any_eq_true]
    constructor
    · rintro ⟨x, hx, hf⟩
      cases x with
      | call op =>
        cases op with
        | file f => exact ⟨f, hx⟩
        | prepare => cases hf
        | query n => cases hf
      | bind _ _ => cases hf
    · rintro ⟨f, hf⟩
      exact ⟨_, hf, rfl⟩
  rw [hd, hw', Bool.false_or] at hb
  simp only [reduceCtorEq, if_false] at hb
  refine ⟨_, hb, ?_, fun hf => ?_, fun hf => ?_⟩
  · split
    · exact copyValues_nodup (parsePlain_nodup _ _ _) _
    · exact parsePlain_nodup _ _ _
  · rw [if_pos (ha.2 hf)]
    exact h.full
  · rw [if_neg (fun hx => hf (ha.1 hx))]
    exact h.plain.2.2

/-! ### cases -/

namespace Demo

/-- `type T struct { Name string; Pic *multipart.FileHeader; Docs []*multipart.FileHeader; None *multipart.FileHeader; In U }`,
`type U struct { N int; Extra *multipart.FileHeader }` -/
def upEnv : TyEnv := fun n =>
  if n = 0 then
    [fld b!"Name" b!"name" .string, fld b!"Pic" b!"pic" (.ptr .file), fld b!"Docs" b!"docs" (.slice (.ptr .file)),
     fld b!"None" b!"none" (.ptr .file), fld b!"In" b!"-" (.struct 1)]
  else [fld b!"N" b!"n" (.int 64), fld b!"Extra" b!"extra" (.ptr .file)]

/-- a struct with four files -/
def upVal : Val :=
  .struct [.string b!"a b", .ptr (.file 7), .slice [.ptr (.file 8), .ptr (.file 9)], .zero, .struct [.int (-5), .ptr (.file 10)]]

/-- what is sent -/
example : texts upEnv b!"form" 2 0 upVal = [(b!"name", b!"a b"), (b!"n", b!"-5")] ∧
    uploads upEnv b!"form" 2 0 upVal = [(b!"pic", 7), (b!"docs", 8), (b!"docs", 9), (b!"extra", 10)] := by decide +kernel

/-- the values of the body; `z` is not in the struct -/
def upG : Form := [(b!"n", [b!"-5"]), (b!"z", [b!"1"]), (b!"name", [b!"a b"])]
/-- the files of the body -/
def upFiles : FormFiles := [(b!"docs", [8, 9]), (b!"extra", [10]), (b!"pic", [7])]
/-- reading the body -/
def upMime : FMime := ⟨fun _ => (b!"multipart/form-data", false), fun _ _ => (some (upG, upFiles), 3)⟩

theorem up_multi (req : Req) (h : req.header.get b!"Content-Type" ≠ []) (hq : req.rawQuery = b!"b=url") :
    MultiReq upMime req b!"--x..." [(b!"b", b!"url")] upG upFiles :=
  ⟨rfl, h, (by rw [hq]; exact (fileReq_multi (postReq b!"multipart/form-data; boundary=x" b!"b=url") rfl rfl).query), ⟨3, rfl⟩, by decide⟩

/-- the struct can be sent -/
theorem up_sendable : Uploadable upEnv b!"form" 2 0 upVal ∧ (namesOf upEnv b!"form" 2 0).Nodup := by
  refine ⟨⟨trivial, rfl, ?_⟩, by decide +kernel⟩
  intro i fd x h1 h2
  have hi : i = 0 ∨ i = 1 ∨ i = 2 ∨ i = 3 ∨ i = 4 := by
    have : i < 5 := (List.getElem?_eq_some_iff.1 h1).1
    omega
  have hsub : Uploadable upEnv b!"form" 1 1 (.struct [.int (-5), .ptr (.file 10)]) := by
    refine ⟨trivial, rfl, ?_⟩
    intro i fd x h1 h2
    have hi : i = 0 ∨ i = 1 := by
      have : i < 2 := (List.getElem?_eq_some_iff.1 h1).1
      omega
    rcases hi with rfl | rfl <;> cases h1 <;> cases h2
    · exact .inr ⟨rfl, rfl, by decide +kernel, ⟨by decide, by decide⟩, trivial, ⟨by decide, by decide⟩⟩
    · exact .inr ⟨rfl, rfl, by decide +kernel, by decide +kernel, .inr ⟨10, rfl⟩⟩
  rcases hi with rfl | rfl | rfl | rfl | rfl <;> cases h1 <;> cases h2
  · exact .inr ⟨rfl, rfl, by decide +kernel, trivial, trivial, trivial⟩
  · exact .inr ⟨rfl, rfl, by decide +kernel, by decide +kernel, .inr ⟨7, rfl⟩⟩
  · refine .inr ⟨rfl, rfl, by decide +kernel, by decide +kernel, trivial, ?_⟩
    intro a ha
    simp only [elemsIn, List.mem_cons, List.not_mem_nil, or_false] at ha
    rcases ha with rfl | rfl
    · exact ⟨8, rfl⟩
    · exact ⟨9, rfl⟩
  · exact .inr ⟨rfl, rfl, by decide +kernel, by decide +kernel, .inl rfl⟩
  · exact .inr ⟨rfl, rfl, hsub⟩

/-- The hypotheses of `C103_round_partial` are met. -/
example : ∃ w, (((Forms.fresh (some b!"--x...")).afterB upMime bindO upEnv (fun _ => none)
      (postReq b!"multipart/form-data; boundary=x" b!"b=url") [.call (.query b!"name"), .bind 2 (.struct 0 .zero), .call (.file b!"pic")]).bind
        upMime bindO upEnv 2 (fun _ => none) (postReq b!"multipart/form-data; boundary=x" b!"b=url") (.struct 0 .zero)).1 =
      .mapped (.ok, .struct 0 w) ∧ SameVal upEnv (.struct 0) upVal w := by
  have hn : namesOf upEnv b!"form" 2 0 = [b!"name", b!"pic", b!"docs", b!"none", b!"n", b!"extra"] := by decide +kernel
  refine C103_round_partial (up_multi _ (by decide +kernel) rfl) (by decide +kernel) (by decide +kernel) (Nat.le_refl 2) up_sendable.1
    up_sendable.2 (by decide) (by decide) ?_ ⟨by decide, ?_⟩ (fun _ => rfl) _
  · rw [hn]; decide +kernel
  · rw [hn]; decide +kernel

/-- whether `Bind` gave this struct -/
def gave (r : Bound) (v : Val) : Bool :=
  match r with
  | .mapped (.ok, .struct _ w) => same w v
  | _ => false

/-- and the struct comes back -/
example : gave ((Forms.fresh (some b!"--x...")).bind upMime bindO upEnv 2 (fun _ => none)
    (postReq b!"multipart/form-data; boundary=x" b!"b=url") (.struct 0 .zero)).1 upVal = true := by decide +kernel

/-- the whole claim of C103 -/
def C103_claim : Prop :=
  ∀ (m : FMime) (b : BOracle) (E : TyEnv) (check : Target → Option Nat) (req : Req) (d : Str) (qs : List (Str × Str)) (G : Form)
    (files : FormFiles), MultiReq m req d qs G files → ∀ (f n : Nat) (v : Val), Uploadable E b!"form" f n v → (namesOf E b!"form" f n).Nodup →
    (G.map Prod.fst).Nodup → (∀ e ∈ G, e.2 ≠ []) → (∀ k ∈ namesOf E b!"form" f n, values G k = valuesIn (texts E b!"form" f n v) k) →
    SentFiles files (uploads E b!"form" f n v) (namesOf E b!"form" f n) → (∀ t, check t = none) → ∀ ops : List BOp,
      ∃ w, (((Forms.fresh (some d)).afterB m b E check req ops).bind m b E f check req (.struct n .zero)).1 = .mapped (.ok, .struct n w) ∧
        SameVal E (.struct n) v w

theorem no_pic {w : Val} (h : SameVal upEnv (.struct 0) upVal w) : ∃ x, (fieldVals 5 w)[1]? = some x ∧ SameVal upEnv (.ptr .file) (.ptr (.file 7)) x := by
  cases h with
  | refl => exact ⟨_, rfl, .refl⟩
  | struct _ _ _ h4 h5 =>
    have : (fieldVals 5 w).length = 5 := h4
    exact ⟨(fieldVals 5 w)[1], List.getElem?_eq_getElem _, h5 1 (fld b!"Pic" b!"pic" (.ptr .file)) _ _ rfl rfl (List.getElem?_eq_getElem _)⟩

/-- the field `Pic` after `Bind` -/
def picOf : Bound → Bool
  | .mapped (_, .struct _ w) =>
    match (fieldVals 5 w)[1]? with
    | some Val.zero => true
    | _ => false
  | _ => false

theorem pic_kept {r : Bound} (h : picOf r = true) : ¬ ∃ w, r = .mapped (.ok, .struct 0 w) ∧ SameVal upEnv (.struct 0) upVal w := by
  rintro ⟨w, rfl, hw⟩
  obtain ⟨x, hx, hs⟩ := no_pic hw
  unfold picOf at h
  simp only [hx] at h
  cases x with
  | zero => cases hs
  | _ => cases h

/-- a request whose form `C103_claim` is about -/
theorem C103_fails {req : Req} (h : req.header.get b!"Content-Type" ≠ []) (hq : req.rawQuery = b!"b=url")
    (hp : picOf ((Forms.fresh (some b!"--x...")).bind upMime bindO upEnv 2 (fun _ => none) req (.struct 0 .zero)).1 = true) : ¬ C103_claim := by
  intro hc
  have hn : namesOf upEnv b!"form" 2 0 = [b!"name", b!"pic", b!"docs", b!"none", b!"n", b!"extra"] := by decide +kernel
  refine pic_kept hp (hc upMime bindO upEnv (fun _ => none) req b!"--x..." _ upG upFiles (up_multi req h hq) 2 0 upVal up_sendable.1
    up_sendable.2 (by decide) (by decide) ?_ ⟨by decide, ?_⟩ (fun _ => rfl) [])
  · rw [hn]; decide +kernel
  · rw [hn]; decide +kernel

end Demo

/-! ### when `Bind` panics (C81) -/

/-- what the first `ParseFormOrMultipartForm` leaves when it does not panic -/
theorem prepare_ok {s : Forms} (hp : s.parsed = false) (hq : s.form = none) (h : (s.prepare m req).1 = false) :
    (s.prepare m req).2.parsed = true ∧ (∃ F, (s.prepare m req).2.form = some F) ∧
    (wantsMultipart req = true → ∃ x, (s.prepare m req).2.multi = some x) := by
  revert h
  unfold Forms.prepare
  simp only [hp, Bool.false_eq_true, if_false]
  cases wantsMultipart req with
  | false =>
    simp only [Forms.parseForm, hq, Bool.false_eq_true, if_false]
    intro _
    exact ⟨trivial, ⟨_, rfl⟩, fun h => (by cases h)⟩
  | true =>
    simp only [if_true, Forms.parseMulti, Forms.parseForm, hq]
    cases hf : (parsePlain m.toMime req s.body).fails with
    | true => intro h; cases h
    | false =>
      simp only [Forms.readParts]
      cases hm : s.multi with
      | some x => intro _; exact ⟨rfl, ⟨_, rfl⟩, fun _ => ⟨x, rfl⟩⟩
      | none =>
        simp only []
        split
        · intro h; cases h
        · split
          · intro h; cases h
          · intro _; exact ⟨rfl, ⟨_, rfl⟩, fun _ => ⟨_, rfl⟩⟩

/-- C81 for `Bind`: as the first call on a request whose form it binds, it panics exactly when the data of the request are not as they
should be, and it never returns the error of the parser. -/
theorem C81_bind {body : Option Str} (fuel : Nat) (obj : Target)
    (hd : newBindinger req.method (contentTypeOf req.header) = .form ∨ newBindinger req.method (contentTypeOf req.header) = .multipart) :
    (((Forms.fresh body).bind m b E fuel check req obj).1 = .panic ↔
      ¬ Escaped req.rawQuery ∨
      (FormMethod req ∧ ∃ d, body = some d ∧
        (TypeFails m.toMime req ∨ (Urlencoded m.toMime req ∧ (10 * 2 ^ 20 < d.length ∨ ¬ Escaped d)))) ∨
      (Multipart req ∧ (m.mediaType (req.header.get b!"Content-Type") ≠ (b!"multipart/form-data", false) ∨
        (m.parts (req.header.get b!"Content-Type") (body.getD [])).1 = none))) ∧
    ((Forms.fresh body).bind m b E fuel check req obj).1 ≠ .form := by
  have hok := prepare_ok (m := m) (req := req) (s := Forms.fresh body) rfl rfl
  have hfail : ((Forms.fresh body).prepare m req).1 = true ↔
      ¬ Escaped req.rawQuery ∨
      (FormMethod req ∧ ∃ d, body = some d ∧
        (TypeFails m.toMime req ∨ (Urlencoded m.toMime req ∧ (10 * 2 ^ 20 < d.length ∨ ¬ Escaped d)))) ∨
      (Multipart req ∧ (m.mediaType (req.header.get b!"Content-Type") ≠ (b!"multipart/form-data", false) ∨
        (m.parts (req.header.get b!"Content-Type") (body.getD [])).1 = none)) := by
    rw [(C97_refines m req body).1]
    unfold parseRequest
    by_cases hmp : Multipart req
    · rw [(wantsMultipart_iff req).2 hmp, if_pos rfl, multi_fails hmp]
      have hfm : FormMethod req := hmp.1
      have e : (m.toMime.parts (req.header.get b!"Content-Type") (body.getD [])).1 = none ↔
          (m.parts (req.header.get b!"Content-Type") (body.getD [])).1 = none := by
        show ((m.parts _ _).1.map Prod.fst) = none ↔ _
        simp
      rw [e]
      simp only [hfm, hmp, true_and]
      exact Iff.rfl
    · rw [show wantsMultipart req = false by rw [Bool.eq_false_iff, Ne, wantsMultipart_iff]; exact hmp]
      simp only [Bool.false_eq_true, if_false, plain_fails, hmp, false_and, or_false]
  rw [← hfail]
  rcases hr : (Forms.fresh body).prepare m req with ⟨f, s⟩
  rw [hr] at hok
  unfold Forms.bind
  rw [hr]
  cases f with
  | true => rcases hd with hd | hd <;> (rw [hd]; simp)
  | false =>
    obtain ⟨h1, ⟨F, h2⟩, h3⟩ := hok rfl
    simp only [] at h1 h2 h3
    have hn : s.prepare m req = (false, s) := by unfold Forms.prepare; simp [h1]
    rcases hd with hd | hd
    · rw [hd]; simp [hn, Forms.forForm, h2]
    · rw [hd]
      have hmp : Multipart req := by
        have hm : req.method ∈ [b!"POST", b!"PUT", b!"PATCH"] ∧ contentTypeOf req.header = b!"multipart/form-data" := by
          revert hd
          unfold newBindinger
          split
          · intro h; cases h
          · split
            · rename_i h; intro _; exact ⟨by simpa [mPOST, mPUT, mPATCH] using h.1, h.2⟩
            · repeat' split
              all_goals (intro h; cases h)
        exact multipart_of_type hm.1 hm.2
      obtain ⟨⟨vs, fs⟩, hx⟩ := h3 ((wantsMultipart_iff req).2 hmp)
      simp [hn, Forms.forMultipart, hx]

/-- whether it is a panic -/
def Bound.panics : Bound → Bool
  | .panic => true
  | _ => false

open Demo in
/-- requests of both kinds: two that `Bind` panics on and two that it binds -/
example :
    newBindinger (postReq b!"application/x-www-form-urlencoded" b!"").method
      (contentTypeOf (postReq b!"application/x-www-form-urlencoded" b!"").header) = .form ∧
    newBindinger (postReq b!"multipart/form-data; boundary=x" b!"a=%").method
      (contentTypeOf (postReq b!"multipart/form-data; boundary=x" b!"a=%").header) = .multipart ∧
    [(b!"application/x-www-form-urlencoded", b!"", b!"a=%4"), (b!"application/x-www-form-urlencoded", b!"", b!"a=%41"),
      (b!"multipart/form-data; boundary=x", b!"a=%", b!"--x..."), (b!"multipart/form-data; boundary=x", b!"a=1", b!"--x...")].map
      (fun r => ((Forms.fresh (some r.2.2)).bind fileMime bindO upEnv 2 (fun _ => none) (postReq r.1 r.2.1) (.struct 0 .zero)).1.panics) =
    [true, false, true, false] := by
  decide +kernel

open Demo in
/-- C103, as stated, is false: in a DELETE request with a multipart form the files are not bound. -/
theorem C103_refuted : ¬ C103_claim :=
  C103_fails (req := deleteReq) (by decide +kernel) rfl (by decide +kernel)

open Demo in
/-- The same for a POST request with another spelling of the type, which `mime.ParseMediaType` accepts and binding.go:39-42 does not. -/
theorem C103_refuted_spelling : ∃ req, req.method = b!"POST" ∧ MultiReq upMime req b!"--x..." [(b!"b", b!"url")] upG upFiles ∧
    ¬ ∃ w, ((Forms.fresh (some b!"--x...")).bind upMime bindO upEnv 2 (fun _ => none) req (.struct 0 .zero)).1 = .mapped (.ok, .struct 0 w) ∧
      SameVal upEnv (.struct 0) upVal w :=
  ⟨postReq b!"Multipart/Form-Data; boundary=x" b!"b=url", rfl, up_multi _ (by decide +kernel) rfl, pic_kept (by decide +kernel)⟩

end Water
