import Verif.Lemmas.MultipartGather
import Verif.Props.FormBind
import Verif.Props.Upload
/- C131: a form with files arrives as the browser sent it. -/
namespace Water
open Spec

/-! ### reading a body -/

theorem readForm_eq (E : MimeEnv) {B T : Str} (hB : BoundaryText B) (hT : Tail B T) (cs : List FormPart) (hs : ∀ c ∈ cs, c.Sendable B) :
    readBody E (multipartType B) (cs.flatMap (FormPart.wire B) ++ T) =
      (cs.map rawOf).foldlM (gather E) ⟨[], [], [], E.memory, E.memory + 10 * 2 ^ 20⟩ := by
  unfold readBody
  dsimp only
  rw [multipart_type E hB]
  have hc : (List.map Prod.fst ([(b!"boundary", B)] : MParams)).contains b!"boundary" = true := by simp
  refine (if_pos hc).trans ?_
  have hat : MParams.at [(b!"boundary", B)] b!"boundary" = B := rfl
  show readForm E (MParams.at [(b!"boundary", B)] b!"boundary") _ = _
  rw [hat]
  unfold readForm
  rw [if_neg hB.1, rawParts_all hB hT cs hs]
  have := wires_length B cs
  rw [List.length_append]
  omega

theorem body_eq (B : Str) (cs : List FormPart) :
    multipartBody B cs = cs.flatMap (FormPart.wire B) ++ (b!"--" ++ B ++ b!"--\r\n") := by
  simp [multipartBody]

/-- What the server has of a form: for each name the texts sent under it, in order, and the files, in order, each with its name,
its type and its bytes. -/
structure Arrived (cs : List FormPart) (values' : Form) (names : FormFiles) (files : List SentFile) : Prop where
  texts : ∀ k, values values' k = valuesIn (textsOf cs) k
  files : ∀ k, (numbersIn names k).map (files[·]?) = (valuesIn (filesOf cs) k).map some
  once : (values'.map Prod.fst).Nodup ∧ (names.map Prod.fst).Nodup
  full : (∀ e ∈ values', e.2 ≠ []) ∧ ∀ e ∈ names, e.2 ≠ []

theorem numbered_at (fs : List (Str × SentFile)) (k : Str) (pre : List SentFile) :
    (valuesIn (numbered pre.length fs) k).map ((pre ++ fs.map Prod.snd)[·]?) = (valuesIn fs k).map some := by
  induction fs generalizing pre with
  | nil => rfl
  | cons f fs ih =>
    have := ih (pre ++ [f.2])
    rw [List.length_append, List.append_assoc] at this
    simp only [List.length_singleton, List.singleton_append] at this
    rw [numbered_cons]
    unfold valuesIn at this ⊢
    by_cases hk : f.1 = k
    · simp only [List.filter_cons, hk, beq_self_eq_true, if_true, List.map_cons]
      rw [this]
      simp
    · simp only [List.filter_cons, beq_iff_eq, hk, if_false, List.map_cons]
      exact this

/-- the hypotheses on a form and its server: the boundary does not occur in the data, the names are kept, the texts have at most
10 MiB, and files beyond the memory given can be stored -/
structure FormSent (E : MimeEnv) (B : Str) (cs : List FormPart) : Prop where
  boundary : BoundaryText B
  parts : ∀ c ∈ cs, c.Sendable B
  names : ∀ c ∈ cs, c.Kept
  texts : textBytes cs ≤ 10 * 2 ^ 20
  files : (∀ f ∈ filesOf cs, E.spill f.2.data = true) ∨ fileBytes cs ≤ E.memory

theorem read_tail {E : MimeEnv} {B T : Str} {cs : List FormPart} (h : FormSent E B cs) (hT : Tail B T) :
    ∃ g, readBody E (multipartType B) (cs.flatMap (FormPart.wire B) ++ T) = some g ∧ Arrived cs g.values g.names (g.files.map sentOf) ∧
      g.names = addNums [] (numbered 0 (filesOf cs)) ∧ (fileBytes cs ≤ E.memory → ∀ x ∈ g.files, x.spilled = false) := by
  obtain ⟨g, new, h1, h2, h3, h4, h5, h6⟩ := gather_all E cs h.parts h.names ⟨[], [], [], E.memory, E.memory + 10 * 2 ^ 20⟩
    (by have := h.texts; show ((E.memory + textBytes cs : Nat) : Int) ≤ (E.memory : Int) + 10 * 2 ^ 20; omega) h.files
  refine ⟨g, (readForm_eq E h.boundary hT cs h.parts).trans h1, ?_, h3, ?_⟩
  · obtain ⟨a, b, c⟩ := addNums_spec (f := []) (by simp) (by simp) (numbered 0 (filesOf cs))
    refine ⟨fun k => ?_, fun k => ?_, ⟨?_, ?_⟩, ?_, ?_⟩
    · rw [h2, values_addAll (by simp)]
      rfl
    · rw [h3, h4]
      rw [show (numbered (([] : List FileGot)).length (filesOf cs)) = numbered 0 (filesOf cs) from rfl, c]
      simp only [List.nil_append]
      rw [h5]
      exact numbered_at (filesOf cs) k []
    · rw [h2]
      exact addAll_nodup (by simp) _
    · rw [h3]; exact a
    · rw [h2]; exact addAll_ne (by simp) _
    · rw [h3]; exact b
  · intro hle x hx
    rw [h4] at hx
    exact h6 hle x (by simpa using hx)

/-- C131, partial: the form that net/http makes of the body a browser sends has the texts and files of the form, all of them, in
order, under their names. Missing: names of controls and files that are not `NameKept`; exactly those do not arrive as they are
(`C131_name`, `C131_filename`, `C131_refuted_dropped` and those behind it). -/
theorem C131_read_partial {E : MimeEnv} {B : Str} {cs : List FormPart} (h : FormSent E B cs) :
    ∃ g, readBody E (multipartType B) (multipartBody B cs) = some g ∧ Arrived cs g.values g.names (g.files.map sentOf) := by
  rw [body_eq]
  have hT := final_tail h.boundary []
  rw [List.append_nil] at hT
  obtain ⟨g, h1, h2, _, _⟩ := read_tail h hT
  exact ⟨g, h1, h2⟩

/-- a request with such a form -/
structure FormSentReq (E : MimeEnv) (B : Str) (cs : List FormPart) (req : Req) (qs : List (Str × Str)) : Prop where
  form : FormSent E B cs
  type : req.header.get b!"Content-Type" = multipartType B
  query : Query req.rawQuery qs

/-- It is a request of C97 and C103. -/
theorem FormSentReq.multi {E : MimeEnv} {B : Str} {cs : List FormPart} {req : Req} {qs : List (Str × Str)} (h : FormSentReq E B cs req qs) :
    ∃ G files, MultiReq (stdMime E) req (multipartBody B cs) qs G files ∧
      Arrived cs G files ((receivedFiles E (multipartType B) (multipartBody B cs)).map sentOf) ∧
      files = addNums [] (numbered 0 (filesOf cs)) := by
  rw [body_eq]
  have hT := final_tail h.form.boundary []
  rw [List.append_nil] at hT
  obtain ⟨g, h1, h2, h3, _⟩ := read_tail h.form hT
  refine ⟨g.values, g.names, ⟨?_, ?_, h.query, ⟨E.taken (cs.flatMap (FormPart.wire B) ++ (b!"--" ++ B ++ b!"--\r\n")), ?_⟩, h2.once.2⟩, ?_, h3⟩
  · rw [h.type]
    simp only [stdMime]
    rw [multipart_type E h.form.boundary]
  · rw [h.type]
    simp [multipartType]
  · rw [h.type]
    simp only [stdMime]
    rw [h1]
    rfl
  · unfold receivedFiles
    rw [h1]
    exact h2

/-! ### what handlers see -/

theorem entry_unique {α : Type} {l : List (Str × α)} (hd : (l.map Prod.fst).Nodup) {e e' : Str × α} (h : e ∈ l) (h' : e' ∈ l)
    (hk : e.1 = e'.1) : e = e' := by
  induction l with
  | nil => cases h
  | cons a l ih =>
    simp only [List.map_cons, List.nodup_cons, List.mem_map, not_exists, not_and] at hd
    rcases List.mem_cons.1 h with h1 | h1
    · rcases List.mem_cons.1 h' with h2 | h2
      · rw [h1, h2]
      · exact absurd (by rw [← hk, h1]) (hd.1 e' h2)
    · rcases List.mem_cons.1 h' with h2 | h2
      · exact absurd (by rw [hk, h2]) (hd.1 e h1)
      · exact ih hd.2 h1 h2

/-- C131, partial: `FormFile` returns the first file sent under the name, with its name, type and bytes, whatever was called before
and whatever the method; `http.ErrMissingFile` if there is none. -/
theorem C131_file_partial {E : MimeEnv} {B : Str} {cs : List FormPart} {req : Req} {qs : List (Str × Str)} (h : FormSentReq E B cs req qs)
    (ops : List FOp) (name : Str) :
    match valuesIn (filesOf cs) name with
    | f :: _ => ∃ k x, (((Forms.fresh (some (multipartBody B cs))).after (stdMime E) req ops).formFile (stdMime E) req name).1 = .ok k ∧
        (receivedFiles E (multipartType B) (multipartBody B cs))[k]? = some x ∧ x.filename = f.filename ∧
        x.header.get b!"Content-Type" = f.type ∧ x.content = f.data
    | [] => (((Forms.fresh (some (multipartBody B cs))).after (stdMime E) req ops).formFile (stdMime E) req name).1 = .error .missing := by
  obtain ⟨G, files, hm, ha, _⟩ := h.multi
  obtain ⟨f1, f2⟩ := C97_file hm ops name
  have hfs := ha.files name
  have hat : ∀ e ∈ files, e.1 = name → numbersIn files name = e.2 := by
    intro e he hn
    have := filter_nodup_at ha.once.2 name
    unfold numbersIn
    rw [this]
    cases hf : files.find? (fun e => e.1 == name) with
    | none =>
      have := List.find?_eq_none.1 hf e he
      simp [hn] at this
    | some e' =>
      have h1 := List.mem_of_find?_eq_some hf
      have h2 := List.find?_some hf
      simp only [beq_iff_eq] at h2
      have : e' = e := entry_unique ha.once.2 h1 he (h2.trans hn.symm)
      simp [this]
  cases hv : valuesIn (filesOf cs) name with
  | nil =>
    dsimp only
    refine f2 (fun x xs hx => ?_)
    have := hat _ hx rfl
    rw [this, hv] at hfs
    cases hfs
  | cons f rest =>
    dsimp only
    rw [hv] at hfs
    have hex : ∃ x xs, (name, x :: xs) ∈ files := by
      refine Classical.byContradiction (fun hno => ?_)
      have : numbersIn files name = [] := by
        unfold numbersIn
        rw [List.flatMap_eq_nil_iff]
        intro e he
        rw [List.mem_filter, beq_iff_eq] at he
        obtain ⟨k, ns⟩ := e
        cases ns with
        | nil => rfl
        | cons x xs => exact absurd ⟨x, xs, by rw [← he.2]; exact he.1⟩ hno
      rw [this] at hfs
      cases hfs
    obtain ⟨k, xs, hk⟩ := hex
    have := hat _ hk rfl
    rw [this] at hfs
    simp only [List.map_cons, List.cons.injEq, List.getElem?_map] at hfs
    cases hx : (receivedFiles E (multipartType B) (multipartBody B cs))[k]? with
    | none => rw [hx] at hfs; cases hfs.1
    | some x =>
      rw [hx] at hfs
      have := hfs.1
      simp only [Option.map_some, Option.some.injEq] at this
      subst this
      exact ⟨k, x, f1 k xs hk, hx, rfl, rfl, rfl⟩

/-- C131, partial: `Query` returns the text sent under the name, in POST, PUT and PATCH requests; those in the URL come first. -/
theorem C131_query_partial {E : MimeEnv} {B : Str} {cs : List FormPart} {req : Req} {qs : List (Str × Str)} (h : FormSentReq E B cs req qs)
    (hm : req.method ∈ [b!"POST", b!"PUT", b!"PATCH"]) (ops : List FOp) (name : Str) :
    ∃ v, (((Forms.fresh (some (multipartBody B cs))).after (stdMime E) req ops).query (stdMime E) req name).1 = some v ∧
      FirstOf (valuesIn qs name ++ valuesIn (textsOf cs) name) v := by
  obtain ⟨G, files, hr, ha, _⟩ := h.multi
  have hmp : Multipart req := ⟨hm, [], b!"; boundary=" ++ B, by rw [h.type]; rfl⟩
  obtain ⟨v, h1, h2⟩ := C97_value_partial hr hmp ops name
  rw [ha.texts] at h2
  exact ⟨v, h1, h2⟩

/-- C131, partial: `SaveUploadedFile` of the file that `FormFile` returns stores the bytes that were sent, if it reports no error.
(`path` is where net/http keeps the bytes of a file beyond the memory given.) -/
theorem C131_saved_partial {E : MimeEnv} {B : Str} {cs : List FormPart} {req : Req} {qs : List (Str × Str)} (h : FormSentReq E B cs req qs)
    (ops : List FOp) (name : Str) {f : SentFile} {rest : List SentFile} (hf : valuesIn (filesOf cs) name = f :: rest) :
    ∃ k x, (((Forms.fresh (some (multipartBody B cs))).after (stdMime E) req ops).formFile (stdMime E) req name).1 = .ok k ∧
      (receivedFiles E (multipartType B) (multipartBody B cs))[k]? = some x ∧
      ∀ (l : Luck) (path dst : Str) (d d' : Disk), Reliable l → Apart d (x.upload path) dst →
        (x.spilled = true → Uploaded d (.temp path) x.content) → saveUploadedFile l (x.upload path) dst d = (d', none) →
        Holds d' dst f.data ∧ OnlyAt dst d d' := by
  have := C131_file_partial h ops name
  rw [hf] at this
  obtain ⟨k, x, h1, h2, _, _, h5⟩ := this
  refine ⟨k, x, h1, h2, fun l path dst d d' hl ha hst hsv => ?_⟩
  refine C91_saved_partial hl ha ?_ hsv
  rw [← h5]
  unfold FileGot.upload
  cases hx : x.spilled with
  | false => exact rfl
  | true => exact hst hx

/-- C131: if the files fit into the memory given, none is stored outside. -/
theorem C131_memory {E : MimeEnv} {B : Str} {cs : List FormPart} (h : FormSent E B cs) (hm : fileBytes cs ≤ E.memory) :
    ∀ x ∈ receivedFiles E (multipartType B) (multipartBody B cs), x.spilled = false := by
  rw [body_eq]
  have hT := final_tail h.boundary []
  rw [List.append_nil] at hT
  obtain ⟨g, h1, _, _, h4⟩ := read_tail h hT
  unfold receivedFiles
  rw [h1]
  exact h4 hm

/-- C131, partial: a struct whose values and files are sent in a form is bound as it was. -/
theorem C131_bind_partial {E : MimeEnv} {B : Str} {cs : List FormPart} {req : Req} {qs : List (Str × Str)} (h : FormSentReq E B cs req qs)
    (hm : req.method ∈ [b!"POST", b!"PUT", b!"PATCH"]) {b : BOracle} {T : TyEnv} {check : Target → Option Nat} {f g n : Nat} (hg : f ≤ g)
    {v : Val} (hs : Uploadable T b!"form" f n v) (hnd : (namesOf T b!"form" f n).Nodup)
    (hv : ∀ k ∈ namesOf T b!"form" f n, valuesIn (textsOf cs) k = valuesIn (texts T b!"form" f n v) k)
    (hfs : ∀ k ∈ namesOf T b!"form" f n, valuesIn (numbered 0 (filesOf cs)) k = valuesIn (uploads T b!"form" f n v) k)
    (hc : ∀ t, check t = none) (ops : List BOp) :
    ∃ w, (((Forms.fresh (some (multipartBody B cs))).afterB (stdMime E) b T check req ops).bind (stdMime E) b T g check req
        (.struct n .zero)).1 = .mapped (.ok, .struct n w) ∧ SameVal T (.struct n) v w := by
  obtain ⟨G, files, hr, ha, hn⟩ := h.multi
  have hct : contentTypeOf req.header = b!"multipart/form-data" := by
    unfold contentTypeOf
    rw [h.type, filterFlags_eq]
    rfl
  refine C103_round_partial hr hm hct hg hs hnd ha.once.1 ha.full.1 (fun k hk => ?_) ⟨ha.full.2, fun k hk => ?_⟩ hc ops
  · rw [ha.texts, hv k hk]
  · obtain ⟨_, _, c⟩ := addNums_spec (f := []) (by simp) (by simp) (numbered 0 (filesOf cs))
    have := c k
    rw [← hn] at this
    rw [← hfs k hk]
    exact this

/-- C131: a body that is cut off behind the line that begins a further part is read as if the form ended there. -/
theorem C131_cut {E : MimeEnv} {B : Str} {cs : List FormPart} (h : FormSent E B cs) :
    ∃ g, readBody E (multipartType B) (cs.flatMap (FormPart.wire B) ++ (b!"--" ++ B ++ b!"\r\n")) = some g ∧
      Arrived cs g.values g.names (g.files.map sentOf) := by
  obtain ⟨g, h1, h2, _, _⟩ := read_tail h (cut_tail h.boundary)
  exact ⟨g, h1, h2⟩

/-! ### exactly which names arrive -/

/-- what is read of a name without quotes and line breaks -/
theorem quoted_back {x v r : Str} (hx : ∀ c ∈ x, c ≠ 34 ∧ c ≠ 13 ∧ c ≠ 10) (h : quotedTail (x ++ [34]) = some (v, r)) :
    r = [] ∧ (∀ c ∈ v, c ≠ 34 ∧ c ≠ 13 ∧ c ≠ 10) ∧ v.length ≤ x.length ∧
      (v = x → ∀ a b, x = a ++ 92 :: b → ∃ c t, b = c :: t ∧ ¬ Special c) := by
  induction hn : x.length using Nat.strongRecOn generalizing x v r with
  | _ n ih =>
    cases x with
    | nil =>
      rw [List.nil_append] at h
      unfold quotedTail at h
      rw [if_pos rfl] at h
      cases h
      refine ⟨rfl, by simp, by simp, fun _ a b hab => ?_⟩
      simp at hab
    | cons c x =>
      have hc := hx c (List.mem_cons_self ..)
      have hx' := fun y hy => hx y (List.mem_cons_of_mem _ hy)
      simp only [List.length_cons] at hn
      rw [List.cons_append] at h
      unfold quotedTail at h
      rw [if_neg hc.1] at h
      by_cases h92 : c = 92
      · rw [if_pos h92] at h
        cases x with
        | nil =>
          rw [List.nil_append] at h
          dsimp only at h
          rw [if_pos (by decide)] at h
          simp [quotedTail] at h
        | cons y ys =>
          rw [List.cons_append] at h
          dsimp only at h
          by_cases hy : isTSpecial y = true
          · rw [if_pos hy] at h
            simp only [Option.map_eq_some_iff] at h
            obtain ⟨⟨v', r'⟩, h1, h2⟩ := h
            cases h2
            simp only [List.length_cons] at hn
            obtain ⟨a1, a2, a3, _⟩ := ih ys.length (by omega) (fun z hz => hx' z (List.mem_cons_of_mem _ hz)) h1 rfl
            refine ⟨a1, ?_, ?_, ?_⟩
            · intro z hz
              rcases List.mem_cons.1 hz with rfl | hz
              · exact hx' _ (List.mem_cons_self ..)
              · exact a2 z hz
            · simp only [List.length_cons]; omega
            · intro he
              have := congrArg List.length he
              simp only [List.length_cons] at this
              omega
          · rw [if_neg hy] at h
            simp only [Option.map_eq_some_iff] at h
            obtain ⟨⟨v', r'⟩, h1, h2⟩ := h
            cases h2
            rw [← List.cons_append] at h1
            obtain ⟨a1, a2, a3, a4⟩ := ih (y :: ys).length (by omega) hx' h1 rfl
            refine ⟨a1, ?_, ?_, ?_⟩
            · intro z hz
              rcases List.mem_cons.1 hz with rfl | hz
              · exact hc
              · exact a2 z hz
            · simp only [List.length_cons] at a3 hn ⊢; omega
            · intro he a b hab
              simp only [List.cons.injEq] at he
              cases a with
              | nil =>
                simp only [List.nil_append, List.cons.injEq] at hab
                exact ⟨y, ys, hab.2.symm, by rw [← isTSpecial_iff]; exact hy⟩
              | cons z a =>
                simp only [List.cons_append, List.cons.injEq] at hab
                exact a4 he.2 a b hab.2
      · rw [if_neg h92, if_neg (by simp [hc.2.1, hc.2.2])] at h
        simp only [Option.map_eq_some_iff] at h
        obtain ⟨⟨v', r'⟩, h1, h2⟩ := h
        cases h2
        obtain ⟨a1, a2, a3, a4⟩ := ih x.length (by omega) hx' h1 rfl
        refine ⟨a1, ?_, ?_, ?_⟩
        · intro z hz
          rcases List.mem_cons.1 hz with rfl | hz
          · exact hc
          · exact a2 z hz
        · simp only [List.length_cons]; omega
        · intro he a b hab
          simp only [List.cons.injEq] at he
          cases a with
          | nil =>
            simp only [List.nil_append, List.cons.injEq] at hab
            exact absurd hab.1 h92
          | cons z a =>
            simp only [List.cons_append, List.cons.injEq] at hab
            exact a4 he.2 a b hab.2

/-- a name that is read as it was is one that is kept -/
theorem kept_of_read {name r : Str} (hne : name ≠ []) (h : quotedTail (formName name ++ [34]) = some (name, r)) : NameKept name := by
  obtain ⟨_, a2, _, a4⟩ := quoted_back (formName_clean name) h
  have e := formName_plain a2
  rw [e] at a4
  exact ⟨hne, a2, a4 rfl⟩

theorem media_broken (E : MimeEnv) (fuel : Nat) (ps : MParams) {v : Str} {c d : UInt8} (hv : v.head? = some c) (hc : NonSpace c) (hd : NonSpace d)
    (hm : d ∈ v) (hne : d ≠ 59) (hp : consumeMediaParam v = none) : mediaParams E b!"form-data" (fuel + 1) v ps [] = ⟨b!"form-data", [], true⟩ := by
  have e := trimLeft_head hc hv
  refine mediaParams_bad E _ _ _ _ (by rw [e]; rintro rfl; cases hv) (by rw [e]; exact hp) (fun ht => ?_)
  rw [e] at ht
  have := mem_trimSpace hd hm
  rw [ht, List.mem_singleton] at this
  exact hne this

/-- C131: a text arrives under its name exactly if the name is kept. -/
theorem C131_name {E : MimeEnv} {B name v : Str} (hB : BoundaryText B) (hs : (FormPart.text name v).Sendable B)
    (hv : v.length ≤ 10 * 2 ^ 20) :
    ∃ g, readBody E (multipartType B) (multipartBody B [.text name v]) = some g ∧ (values g.values name = [v] ↔ NameKept name) := by
  have hT := final_tail hB []
  rw [List.append_nil] at hT
  rw [body_eq, readForm_eq E hB hT _ (by intro c hc; rw [List.mem_singleton.1 hc]; exact hs)]
  have hd : (rawOf (.text name v)).disposition E =
      mediaParams E b!"form-data" ((formName name ++ b!"\"").length + 18) (b!"; name=\"" ++ (formName name ++ b!"\"")) [] [] := by
    unfold RawPart.disposition rawOf
    rw [raw_disposition]
    exact disposition_name E _
  by_cases hk : NameKept name
  · obtain ⟨g, hg, ha⟩ := C131_read_partial (E := E) (B := B) (cs := [.text name v]) ⟨hB, by intro c hc; rw [List.mem_singleton.1 hc]; exact hs,
      by intro c hc; rw [List.mem_singleton.1 hc]; exact hk, hv, .inl (by intro f hf; cases hf)⟩
    rw [body_eq, readForm_eq E hB hT _ (by intro c hc; rw [List.mem_singleton.1 hc]; exact hs)] at hg
    refine ⟨g, hg, fun _ => hk, fun _ => ?_⟩
    rw [ha.texts]
    simp [valuesIn, textsOf]
  · -- the name that is read is another one, or none
    have hname : ∀ x, (rawOf (.text name v)).formName E = x → x = [] ∨ x ≠ name ∧ (rawOf (.text name v)).fileName E = [] := by
      intro x hx
      unfold RawPart.formName at hx
      dsimp only at hx
      cases hq : quotedTail (formName name ++ [34]) with
      | none =>
        rw [hd, media_broken E _ _ (c := 59) (d := 110) rfl (by decide) (by decide) (by simp) (by decide) (by rw [consume_name, hq]; rfl)] at hx
        exact .inl hx.symm
      | some p =>
        obtain ⟨w, r⟩ := p
        have hr := (quoted_back (formName_clean name) hq).1
        subst hr
        have hdd : (rawOf (.text name v)).disposition E = ⟨b!"form-data", [(b!"name", w)], false⟩ := by
          rw [hd, mediaParams_one E _ _ _ b!"name" w [] [] 59 rfl (by decide) (by rw [consume_name, hq]; rfl) (by decide) (by simp)]
          exact mediaParams_end ..
        rw [hdd] at hx
        have hx : w = x := hx
        subst hx
        by_cases hw : w = []
        · exact .inl hw
        · refine .inr ⟨?_, ?_⟩
          · rintro rfl
            exact hk (kept_of_read hw hq)
          · unfold RawPart.fileName
            rw [hdd]
            rfl
    have key : ∃ g, gather E ⟨[], [], [], E.memory, E.memory + 10 * 2 ^ 20⟩ (rawOf (.text name v)) = some g ∧ values g.values name = [] := by
      unfold gather
      dsimp only
      rcases hname _ rfl with h0 | ⟨h1, h2⟩
      · rw [if_pos h0]
        exact ⟨_, rfl, rfl⟩
      · by_cases h0 : (rawOf (.text name v)).formName E = []
        · rw [if_pos h0]
          exact ⟨_, rfl, rfl⟩
        · rw [if_neg h0, raw_plain]
          dsimp only
          rw [h2, if_pos rfl, if_pos (show ((FormPart.text name v).bytes.length : Int) ≤ (E.memory : Int) + 10 * 2 ^ 20 by show (v.length : Int) ≤ _; omega)]
          refine ⟨_, rfl, ?_⟩
          show values (Form.append [] ((rawOf (.text name v)).formName E) [v]) name = []
          rw [Form.append, values_cons, if_neg h1]
          rfl
    obtain ⟨g, h1, h2⟩ := key
    refine ⟨g, ?_, fun h => ?_, fun h => absurd h hk⟩
    · rw [List.map_cons, List.map_nil, List.foldlM_cons, h1]
      rfl
    · rw [h2] at h; cases h

/-- C131: a file arrives with its name, type and bytes exactly if its name is kept. -/
theorem C131_filename {E : MimeEnv} {B name filename t d : Str} (hB : BoundaryText B) (hs : (FormPart.file name filename t d).Sendable B)
    (hn : NameKept name) (hd : E.spill d = true ∨ d.length ≤ E.memory) :
    (∃ g, readBody E (multipartType B) (multipartBody B [.file name filename t d]) = some g ∧
      g.files.map sentOf = [⟨filename, t, d⟩]) ↔ NameKept filename := by
  have hT := final_tail hB []
  rw [List.append_nil] at hT
  rw [body_eq, readForm_eq E hB hT _ (by intro c hc; rw [List.mem_singleton.1 hc]; exact hs)]
  rw [List.map_cons, List.map_nil, List.foldlM_cons]
  constructor
  · rintro ⟨g, hg, hf⟩
    refine Classical.byContradiction (fun hk => ?_)
    have hfile : (rawOf (.file name filename t d)).formName E = [] ∨ (rawOf (.file name filename t d)).fileName E ≠ filename ∨
        (rawOf (.file name filename t d)).fileName E = [] := by
      have hdisp : (rawOf (.file name filename t d)).disposition E =
          mediaParams E b!"form-data" ((name ++ b!"\"; filename=\"" ++ formName filename ++ b!"\"").length + 17)
            (b!"; filename=\"" ++ (formName filename ++ b!"\"")) [(b!"name", name)] [] := by
        unfold RawPart.disposition rawOf
        rw [raw_disposition]
        unfold FormPart.disp
        rw [disposition_name, formName_plain hn.2.1]
        have e : name ++ b!"\"; filename=\"" ++ formName filename ++ b!"\"" = name ++ 34 :: (b!"; filename=\"" ++ (formName filename ++ b!"\"")) := by simp
        have hq : quotedTail (name ++ b!"\"; filename=\"" ++ formName filename ++ b!"\"") =
            some (name, b!"; filename=\"" ++ (formName filename ++ b!"\"")) := by
          rw [e]; exact quotedTail_kept hn.2.1 hn.2.2 _
        rw [mediaParams_one E _ _ _ b!"name" name _ [] 59 rfl (by decide) (by rw [consume_name, hq]; rfl) (by decide) (by simp)]
        rfl
      cases hq : quotedTail (formName filename ++ [34]) with
      | none =>
        refine .inl ?_
        unfold RawPart.formName
        rw [hdisp, media_broken E _ _ (c := 59) (d := 110) rfl (by decide) (by decide) (by simp) (by decide) (by rw [consume_filename, hq]; rfl)]
        rfl
      | some p =>
        obtain ⟨w, r⟩ := p
        have hr := (quoted_back (formName_clean filename) hq).1
        subst hr
        refine .inr ?_
        have hw : (rawOf (.file name filename t d)).fileName E = w := by
          unfold RawPart.fileName
          rw [hdisp, mediaParams_one E _ _ _ b!"filename" w [] _ 59 rfl (by decide) (by rw [consume_filename, hq]; rfl) (by decide) (by simp),
            mediaParams_end]
          rfl
        rw [hw]
        by_cases h0 : w = []
        · exact .inr h0
        · refine .inl ?_
          rintro rfl
          exact hk (kept_of_read h0 hq)
    cases hgg : gather E ⟨[], [], [], E.memory, E.memory + 10 * 2 ^ 20⟩ (rawOf (.file name filename t d)) with
    | none => rw [hgg] at hg; cases hg
    | some g1 =>
      rw [hgg] at hg
      have hg : g1 = g := by simpa using hg
      subst hg
      unfold gather at hgg
      dsimp only at hgg
      rw [raw_plain] at hgg
      dsimp only at hgg
      by_cases h0 : (rawOf (.file name filename t d)).formName E = []
      · rw [if_pos h0] at hgg
        cases hgg
        cases hf
      · rw [if_neg h0] at hgg
        by_cases h1 : (rawOf (.file name filename t d)).fileName E = []
        · rw [if_pos h1] at hgg
          split at hgg
          · cases hgg; cases hf
          · cases hgg
        · rw [if_neg h1] at hgg
          have h2 := (hfile.resolve_left h0).resolve_right h1
          split at hgg
          · cases hgg
            simp only [List.nil_append, List.map_cons, List.map_nil, List.cons.injEq, sentOf, SentFile.mk.injEq] at hf
            exact h2 hf.1.1
          · split at hgg
            · cases hgg
              simp only [List.nil_append, List.map_cons, List.map_nil, List.cons.injEq, sentOf, SentFile.mk.injEq] at hf
              exact h2 hf.1.1
            · cases hgg
  · intro hk
    obtain ⟨g', new, h1, _, _, h4, h5, _⟩ := gather_file E ⟨[], [], [], E.memory, E.memory + 10 * 2 ^ 20⟩ hn hk hs hd
    refine ⟨g', ?_, ?_⟩
    · rw [h1]; rfl
    · rw [h4]
      simp [h5]

/-! ### cases -/

namespace Demo

/-- a server with 32 MiB for files -/
def mimeEnv : MimeEnv where
  stitch := fun _ ps => ps
  quoted := some
  spill := fun _ => true
  taken := List.length
  memory := 32 * 2 ^ 20

/-- what a browser takes as a boundary -/
def webBoundary : Str := b!"----WebKitFormBoundaryAb3"

/-- a form with two texts under one name and two files -/
def webForm : List FormPart :=
  [.text b!"tag" b!"a b", .file b!"pic" b!"C:\\x.png" b!"image/png" b!"\r\n--x\r\n", .text b!"tag" b!"", .file b!"pic" b!"b.txt" b!"text/plain" b!"--"]

theorem webForm_sent : FormSent mimeEnv webBoundary webForm := by
  refine ⟨⟨by decide, by decide, by decide +kernel⟩, ?_, ?_, by decide +kernel, .inl (fun _ _ => rfl)⟩
  · intro c hc
    simp only [webForm, List.mem_cons, List.not_mem_nil, or_false] at hc
    rcases hc with rfl | rfl | rfl | rfl
    · exact ⟨by decide +kernel, trivial⟩
    · exact ⟨by decide +kernel, by decide +kernel⟩
    · exact ⟨by decide +kernel, trivial⟩
    · exact ⟨by decide +kernel, by decide +kernel⟩
  · intro c hc
    simp only [webForm, List.mem_cons, List.not_mem_nil, or_false] at hc
    rcases hc with rfl | rfl | rfl | rfl
    · exact kept_of_read (r := []) (by decide) (by decide +kernel)
    · exact ⟨kept_of_read (r := []) (by decide) (by decide +kernel), kept_of_read (r := []) (by decide) (by decide +kernel)⟩
    · exact kept_of_read (r := []) (by decide) (by decide +kernel)
    · exact ⟨kept_of_read (r := []) (by decide) (by decide +kernel), kept_of_read (r := []) (by decide) (by decide +kernel)⟩

/-- what arrives of a form -/
def heardForm (cs : List FormPart) : Option (List (Str × List Str) × List SentFile) :=
  (readBody mimeEnv (multipartType webBoundary) (multipartBody webBoundary cs)).map (fun g => (g.values, g.files.map sentOf))

example : heardForm webForm = some ([(b!"tag", [b!"a b", b!""])],
    [⟨b!"C:\\x.png", b!"image/png", b!"\r\n--x\r\n"⟩, ⟨b!"b.txt", b!"text/plain", b!"--"⟩]) := by decide +kernel

example : (readBody mimeEnv (multipartType webBoundary) (multipartBody webBoundary webForm)).map (·.names) = some [(b!"pic", [0, 1])] := by
  decide +kernel

/-- a request with it -/
def webReq : Req where
  protoMajor := 1
  protoMinor := 1
  requestURI := b!"/up?" ++ encodeForm [(b!"tag", b!"q"), (b!"id", b!"7")]
  method := b!"POST"
  path := b!"/up"
  rawQuery := encodeForm [(b!"tag", b!"q"), (b!"id", b!"7")]
  header := fun k => if k = b!"Content-Type" then some [multipartType webBoundary] else none

theorem webReq_sent : FormSentReq mimeEnv webBoundary webForm webReq [(b!"tag", b!"q"), (b!"id", b!"7")] :=
  ⟨webForm_sent, by decide +kernel, C79_encode _⟩

end Demo

open Demo

/-- C131, refuted: a control whose name ends in a backslash is dropped without an error, the text with it. -/
theorem C131_refuted_dropped : heardForm [.text b!"a\\" b!"v"] = some ([], []) := by decide +kernel

/-- C131, refuted: a backslash before a special is taken for an escape. -/
theorem C131_refuted_escape : heardForm [.file b!"f" b!"a\\(1).txt" b!"text/plain" b!"x"] = some ([], [⟨b!"a(1).txt", b!"text/plain", b!"x"⟩]) := by
  decide +kernel

/-- C131, refuted: quotes arrive as the browser writes them. -/
theorem C131_refuted_quote : heardForm [.file b!"f" b!"\"a\".txt" b!"text/plain" b!"x"] =
    some ([], [⟨b!"%22a%22.txt", b!"text/plain", b!"x"⟩]) := by decide +kernel

/-- C131, refuted: a file without a name (a form whose file was not chosen, or a blob with an empty name) arrives as a text. -/
theorem C131_refuted_empty : heardForm [.file b!"f" b!"" b!"application/octet-stream" b!"x"] = some ([(b!"f", [b!"x"])], []) := by decide +kernel

/-- C131, refuted: two names that differ arrive as one. -/
theorem C131_refuted_merge : heardForm [.text b!"a[" b!"1", .text b!"a\\[" b!"2"] = some ([(b!"a[", [b!"1", b!"2"])], []) := by decide +kernel

end Water
