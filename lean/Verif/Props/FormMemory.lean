import Verif.Lemmas.FormMemory
/- C132: how much memory the form of a request takes. -/
namespace Water
open Spec

/-- C132: whatever the body, the files in memory have at most as many bytes as the limit, and the values 10 MiB more. -/
theorem C132_read {E : MimeEnv} {ct body : Str} {g : Gathered} (h : readBody E ct body = some g) :
    keptBytes g.files ≤ E.memory ∧ valueBytes g.values ≤ E.memory + 10 * 2 ^ 20 := by
  obtain ⟨h1, h2, _⟩ := body_counted h
  exact ⟨by omega, by omega⟩

/-- how many bytes of the request are held in memory: the files, and the values of the form -/
def Held.inMemory (h : Held) : Nat := keptBytes h.files + ((h.forms.multi.map (fun m => valueBytes m.1)).getD 0)

/-- C132, partial: whatever the request and its body, and whatever calls are made, the files in memory have at most
`MaxMultipartMemory` bytes, and all of the form 10 MiB more than twice that, as long as `FormFile` is not called (see `C132_refuted`). -/
theorem C132_limit_partial (E : MimeEnv) (n : Nat) (req : Req) (body : Option Str) (ops : List FOp) (h : ∀ name, FOp.file name ∉ ops) :
    keptBytes ((Held.fresh body).after E n req ops).files ≤ n ∧ ((Held.fresh body).after E n req ops).inMemory ≤ 2 * n + 10 * 2 ^ 20 := by
  have hw := after_within E n req [n] ops (by
    intro op ho
    cases op with
    | file name => exact absurd ho (h name)
    | _ => exact List.mem_singleton.2 rfl) (Held.fresh body) (.inl ⟨rfl, rfl⟩)
  unfold Held.inMemory
  rcases hw with ⟨h1, h2⟩ | ⟨M, hM, ct, b, g, h1, h2, h3⟩
  · rw [h1, h2]
    simp [keptBytes]
  · rw [List.mem_singleton.1 hM] at h1
    obtain ⟨a, c⟩ := C132_read h1
    rw [h2, h3]
    have e : (E.withMemory n).memory = n := rfl
    rw [e] at a c
    refine ⟨a, ?_⟩
    show keptBytes g.files + valueBytes g.values ≤ _
    omega

/-- C132: with `FormFile` the larger of this and 32 MiB. -/
theorem C132_limit (E : MimeEnv) (n : Nat) (req : Req) (body : Option Str) (ops : List FOp) :
    keptBytes ((Held.fresh body).after E n req ops).files ≤ max n (32 * 2 ^ 20) ∧
      ((Held.fresh body).after E n req ops).inMemory ≤ 2 * max n (32 * 2 ^ 20) + 10 * 2 ^ 20 := by
  have hw := after_within E n req [n, httpMemory] ops (by
    intro op ho
    cases op with
    | file name => exact List.mem_cons_of_mem _ (List.mem_singleton.2 rfl)
    | _ => exact List.mem_cons_self ..) (Held.fresh body) (.inl ⟨rfl, rfl⟩)
  unfold Held.inMemory
  rcases hw with ⟨h1, h2⟩ | ⟨M, hM, ct, b, g, h1, h2, h3⟩
  · rw [h1, h2]
    simp [keptBytes]
  · obtain ⟨a, c⟩ := C132_read h1
    have e : (E.withMemory M).memory = M := rfl
    rw [e] at a c
    have hle : M ≤ max n (32 * 2 ^ 20) := by
      simp only [List.mem_cons, List.not_mem_nil, or_false, httpMemory] at hM
      rcases hM with rfl | rfl
      · exact Nat.le_max_left ..
      · exact Nat.le_max_right ..
    rw [h2, h3]
    refine ⟨Nat.le_trans a hle, ?_⟩
    show keptBytes g.files + valueBytes g.values ≤ _
    omega

/-! ### the limit changes nothing else -/

theorem readBody_sent {E : MimeEnv} {B : Str} {cs : List FormPart} (h : FormSent E B cs) :
    ∃ g, readBody E (multipartType B) (multipartBody B cs) = some g ∧ g.values = addAll [] (textsOf cs) ∧
      g.names = addNums [] (numbered 0 (filesOf cs)) ∧ g.files.map sentOf = (filesOf cs).map Prod.snd ∧
      (fileBytes cs ≤ E.memory → ∀ x ∈ g.files, x.spilled = false) := by
  have hT := final_tail h.boundary []
  rw [List.append_nil] at hT
  rw [body_eq]
  obtain ⟨g, new, h1, h2, h3, h4, h5, h6⟩ := gather_all E cs h.parts h.names ⟨[], [], [], E.memory, E.memory + 10 * 2 ^ 20⟩
    (by have := h.texts; show ((E.memory + textBytes cs : Nat) : Int) ≤ (E.memory : Int) + 10 * 2 ^ 20; omega) h.files
  have h4 : g.files = new := h4
  exact ⟨g, (readForm_eq E h.boundary hT cs h.parts).trans h1, h2, h3, by rw [h4]; exact h5, by rw [h4]; exact h6⟩

/-- A form that can be read with the limit of the program and with the one of `FormFile`. -/
structure BothRead (E : MimeEnv) (n : Nat) (B : Str) (cs : List FormPart) (req : Req) (qs : List (Str × Str)) : Prop where
  req : FormSentReq (E.withMemory n) B cs req qs
  http : FormSent (E.withMemory httpMemory) B cs

theorem BothRead.any {E : MimeEnv} {n : Nat} {B : Str} {cs : List FormPart} {req : Req} {qs : List (Str × Str)} (h : BothRead E n B cs req qs)
    (op : FOp) : FormSentReq (E.withMemory (memoryOf n op)) B cs req qs := by
  cases op with
  | file name => exact ⟨h.http, h.req.type, h.req.query⟩
  | _ => exact h.req

theorem parts_memory {E : MimeEnv} {a b : Nat} {B : Str} {cs : List FormPart} (ha : FormSent (E.withMemory a) B cs)
    (hb : FormSent (E.withMemory b) B cs) : (stdMime (E.withMemory a)).parts (multipartType B) (multipartBody B cs) =
      (stdMime (E.withMemory b)).parts (multipartType B) (multipartBody B cs) := by
  obtain ⟨g, h1, h2, h3, _⟩ := readBody_sent ha
  obtain ⟨g', h1', h2', h3', _⟩ := readBody_sent hb
  unfold stdMime
  simp only [h1, h1', Option.map_some, h2, h3, h2', h3']
  rfl

/-- The body is there unless the parts were read. -/
def Ready (d : Str) (s : Forms) : Prop := s.multi ≠ none ∨ s.body = some d

theorem ready_form {E : MimeEnv} {B : Str} {cs : List FormPart} {req : Req} {qs : List (Str × Str)} (h : FormSentReq E B cs req qs)
    {s : Forms} (hs : Ready (multipartBody B cs) s) : Ready (multipartBody B cs) (s.parseForm (stdMime E) req).2 := by
  obtain ⟨G, files, hm, _⟩ := h.multi
  rcases hs with hs | hs
  · exact .inl (by rw [parseForm_multi]; exact hs)
  · refine .inr ?_
    unfold Forms.parseForm
    split
    · exact hs
    · show s.body.map (·.drop (parsePlain (stdMime E).toMime req s.body).read) = _
      rw [hs, hm.plain.2.1]
      rfl

theorem ready_parts {E : MimeEnv} {B : Str} {cs : List FormPart} {req : Req} {qs : List (Str × Str)} (h : FormSentReq E B cs req qs)
    {s : Forms} (hs : Ready (multipartBody B cs) s) : (s.readParts (stdMime E) req).2.multi ≠ none := by
  obtain ⟨G, files, hm, _⟩ := h.multi
  unfold Forms.readParts
  split
  · rename_i hh; rw [hh]; simp
  · rename_i hn
    have hb := hs.resolve_left (by rw [hn]; simp)
    obtain ⟨k, hp⟩ := hm.parts
    dsimp only
    rw [if_neg (by
      show ¬ (req.header.get b!"Content-Type" = [] ∨ ((stdMime E).mediaType (req.header.get b!"Content-Type")).2 = true ∨
        ((stdMime E).mediaType (req.header.get b!"Content-Type")).1 ≠ b!"multipart/form-data")
      rw [hm.type]; simp [hm.given])]
    rw [hb]
    split
    · rename_i hq
      have hp' : (stdMime E).parts (req.header.get kContentType) ((some (multipartBody B cs)).getD []) = (some (G, files), k) := hp
      rw [hp'] at hq
      cases hq
    · simp

theorem parts_same {E : MimeEnv} {a b : Nat} {B : Str} {cs : List FormPart} {req : Req} {qs : List (Str × Str)}
    (ha : FormSentReq (E.withMemory a) B cs req qs) (hb : FormSentReq (E.withMemory b) B cs req qs) {s : Forms}
    (hs : Ready (multipartBody B cs) s) : s.readParts (stdMime (E.withMemory a)) req = s.readParts (stdMime (E.withMemory b)) req := by
  unfold Forms.readParts
  split
  · rfl
  · rename_i hn
    have hbd := hs.resolve_left (by rw [hn]; simp)
    have hct : req.header.get kContentType = multipartType B := ha.type
    have hmt : (stdMime (E.withMemory a)).mediaType = (stdMime (E.withMemory b)).mediaType := by
      funext ct
      simp only [stdMime, media_memory E a b]
    dsimp only
    rw [hct, hbd]
    show (if _ then _ else _) = _
    rw [hmt]
    simp only [Option.getD_some]
    rw [parts_memory ha.form hb.form]

theorem multi_same {E : MimeEnv} {a b : Nat} {B : Str} {cs : List FormPart} {req : Req} {qs : List (Str × Str)}
    (ha : FormSentReq (E.withMemory a) B cs req qs) (hb : FormSentReq (E.withMemory b) B cs req qs) {s : Forms}
    (hs : Ready (multipartBody B cs) s) : s.parseMulti (stdMime (E.withMemory a)) req = s.parseMulti (stdMime (E.withMemory b)) req := by
  have hr := ready_form ha hs
  unfold Forms.parseMulti
  rw [← parseForm_memory E a b]
  split
  · rfl
  · rename_i s1 h1
    rw [h1] at hr
    exact parts_same ha hb hr

theorem prepare_same {E : MimeEnv} {a b : Nat} {B : Str} {cs : List FormPart} {req : Req} {qs : List (Str × Str)}
    (ha : FormSentReq (E.withMemory a) B cs req qs) (hb : FormSentReq (E.withMemory b) B cs req qs) {s : Forms}
    (hs : Ready (multipartBody B cs) s) : s.prepare (stdMime (E.withMemory a)) req = s.prepare (stdMime (E.withMemory b)) req := by
  unfold Forms.prepare
  split
  · rfl
  · dsimp only
    split
    · exact multi_same ha hb hs
    · exact parseForm_memory E a b req _

theorem step_same {E : MimeEnv} {a b : Nat} {B : Str} {cs : List FormPart} {req : Req} {qs : List (Str × Str)}
    (ha : FormSentReq (E.withMemory a) B cs req qs) (hb : FormSentReq (E.withMemory b) B cs req qs) {s : Forms}
    (hs : Ready (multipartBody B cs) s) (op : FOp) :
    s.step (stdMime (E.withMemory a)) req op = s.step (stdMime (E.withMemory b)) req op := by
  cases op with
  | prepare => unfold Forms.step; dsimp only; rw [prepare_same ha hb hs]
  | query name => unfold Forms.step Forms.query; dsimp only; rw [prepare_same ha hb hs]
  | file name => unfold Forms.step Forms.formFile; dsimp only; rw [multi_same ha hb hs]

theorem ready_step {E : MimeEnv} {B : Str} {cs : List FormPart} {req : Req} {qs : List (Str × Str)} (h : FormSentReq E B cs req qs)
    {s : Forms} (hs : Ready (multipartBody B cs) s) (op : FOp) : Ready (multipartBody B cs) (s.step (stdMime E) req op) := by
  have hm : ∀ s : Forms, Ready (multipartBody B cs) s → Ready (multipartBody B cs) (s.parseMulti (stdMime E) req).2 := by
    intro s hs
    have hr := ready_form h hs
    unfold Forms.parseMulti
    split
    · rename_i s1 h1; rw [h1] at hr; exact hr
    · rename_i s1 h1; rw [h1] at hr; exact .inl (ready_parts h hr)
  have hp : Ready (multipartBody B cs) (s.prepare (stdMime E) req).2 := by
    unfold Forms.prepare
    split
    · exact hs
    · dsimp only
      split
      · exact hm _ hs
      · exact ready_form h hs
  cases op with
  | prepare => exact hp
  | query name =>
    unfold Forms.step Forms.query
    dsimp only
    split <;> rename_i h1 <;> rw [h1] at hp <;> exact hp
  | file name =>
    have key : ∀ r : Bool × Forms, Ready (multipartBody B cs) r.2 →
        Ready (multipartBody B cs) (match r with
          | (true, s) => ((Except.error FileErr.form : Except FileErr Nat), s)
          | (false, s) =>
            match s.multi with
            | none => (.error .missing, s)
            | some (_, fs) =>
              match fs.at name with
              | some (x :: _) => (.ok x, s)
              | _ => (.error .missing, s)).2 := by
      rintro ⟨b, s1⟩ h
      cases b with
      | true => exact h
      | false =>
        dsimp only
        split
        · exact h
        · split <;> exact h
    unfold Forms.step Forms.formFile
    dsimp only
    refine key _ ?_
    split
    · exact hs
    · exact hm _ hs

/-- C132: the limits change nothing but where the bytes are: the request goes through the states it has if all calls use the limit
of the program, and the files held are those sent. -/
theorem C132_same {E : MimeEnv} {n : Nat} {B : Str} {cs : List FormPart} {req : Req} {qs : List (Str × Str)} (h : BothRead E n B cs req qs)
    (ops : List FOp) :
    ((Held.fresh (some (multipartBody B cs))).after E n req ops).forms =
        (Forms.fresh (some (multipartBody B cs))).after (stdMime (E.withMemory n)) req ops ∧
      (((Held.fresh (some (multipartBody B cs))).after E n req ops).forms.multi ≠ none →
        ((Held.fresh (some (multipartBody B cs))).after E n req ops).files.map sentOf = (filesOf cs).map Prod.snd) := by
  have key : ∀ (ops : List FOp) (x : Held), Ready (multipartBody B cs) x.forms →
      (x.forms.multi ≠ none → x.files.map sentOf = (filesOf cs).map Prod.snd) →
      (x.after E n req ops).forms = x.forms.after (stdMime (E.withMemory n)) req ops ∧
        ((x.after E n req ops).forms.multi ≠ none → (x.after E n req ops).files.map sentOf = (filesOf cs).map Prod.snd) := by
    intro ops
    induction ops with
    | nil => intro x _ hf; exact ⟨rfl, hf⟩
    | cons op ops ih =>
      intro x hr hf
      have e1 : (x.step E n req op).forms = x.forms.step (stdMime (E.withMemory n)) req op := step_same (h.any op) h.req hr op
      have hr' : Ready (multipartBody B cs) (x.step E n req op).forms := ready_step (h.any op) hr op
      obtain ⟨a, b⟩ := ih (x.step E n req op) hr' (by
        intro hm
        unfold Held.step
        dsimp only
        split
        · rename_i hc
          rw [Bool.and_eq_true, Option.isNone_iff_eq_none] at hc
          have hb := ready_form (h.any op) hr
          have hb := hb.resolve_left (by rw [parseForm_multi, hc.1]; simp)
          rw [hb]
          obtain ⟨g, h1, _, _, h4, _⟩ := readBody_sent (h.any op).form
          unfold receivedFiles
          have hct : req.header.get kContentType = multipartType B := h.req.type
          rw [hct]
          simp only [Option.getD_some]
          rw [h1]
          exact h4
        · rename_i hc
          refine hf (fun h0 => hc ?_)
          rw [h0]
          unfold Held.step at hm
          dsimp only at hm
          cases hq : (x.forms.step (stdMime (E.withMemory (memoryOf n op))) req op).multi with
          | none => exact absurd hq hm
          | some _ => rfl)
      refine ⟨?_, b⟩
      show ((x.step E n req op).after E n req ops).forms = (x.forms.step _ req op).after _ req ops
      rw [a, e1]
  exact key ops _ (.inr rfl) (fun hm => absurd rfl hm)

/-- C132: `FormFile` gives the file sent under the name, whatever was called before and whichever limit it was read with. -/
theorem C132_file {E : MimeEnv} {n : Nat} {B : Str} {cs : List FormPart} {req : Req} {qs : List (Str × Str)} (h : BothRead E n B cs req qs)
    (ops : List FOp) (name : Str) :
    match valuesIn (filesOf cs) name with
    | f :: _ => ∃ k x, (((Held.fresh (some (multipartBody B cs))).after E n req ops).forms.formFile (stdMime (E.withMemory httpMemory)) req name).1 = .ok k ∧
        ((Held.fresh (some (multipartBody B cs))).after E n req (ops ++ [.file name])).files[k]? = some x ∧ sentOf x = f
    | [] => (((Held.fresh (some (multipartBody B cs))).after E n req ops).forms.formFile (stdMime (E.withMemory httpMemory)) req name).1 =
        .error .missing := by
  obtain ⟨e1, e2⟩ := C132_same h ops
  obtain ⟨e3, e4⟩ := C132_same h (ops ++ [.file name])
  have hr : ∀ (ops : List FOp) (x : Forms), Ready (multipartBody B cs) x → Ready (multipartBody B cs) (x.after (stdMime (E.withMemory n)) req ops) := by
    intro ops
    induction ops with
    | nil => intro x hx; exact hx
    | cons op ops ih => intro x hx; exact ih _ (ready_step h.req hx op)
  have hr := hr ops (Forms.fresh (some (multipartBody B cs))) (.inr rfl)
  have hh : FormSentReq (E.withMemory httpMemory) B cs req qs := h.any (.file name)
  have hsame : ((Forms.fresh (some (multipartBody B cs))).after (stdMime (E.withMemory n)) req ops).formFile (stdMime (E.withMemory httpMemory)) req name =
      ((Forms.fresh (some (multipartBody B cs))).after (stdMime (E.withMemory n)) req ops).formFile (stdMime (E.withMemory n)) req name := by
    unfold Forms.formFile
    rw [multi_same hh h.req hr]
  have hf := C131_file_partial h.req ops name
  rw [e1, hsame]
  cases hv : valuesIn (filesOf cs) name with
  | nil =>
    rw [hv] at hf
    exact hf
  | cons f rest =>
    rw [hv] at hf
    obtain ⟨k, x, h1, h2, h3, h4, h5⟩ := hf
    obtain ⟨g, g1, _, _, g4, _⟩ := readBody_sent h.req.form
    have hsx : sentOf x = f := by
      unfold sentOf
      rw [h3, h4, h5]
    have hmulti : ((Held.fresh (some (multipartBody B cs))).after E n req (ops ++ [.file name])).forms.multi ≠ none := by
      rw [e3]
      unfold Forms.after
      rw [List.foldl_append]
      show (Forms.formFile (stdMime (E.withMemory n)) req name ((Forms.fresh (some (multipartBody B cs))).after (stdMime (E.withMemory n)) req ops)).2.multi ≠ none
      intro h0
      revert h1
      unfold Forms.formFile at h0 ⊢
      dsimp only at h0 ⊢
      split
      · intro hx; cases hx
      · rename_i s1 hs1
        rw [hs1] at h0
        dsimp only at h0
        cases hm1 : s1.multi with
        | none => intro hx; cases hx
        | some p =>
          rw [hm1] at h0
          dsimp only at h0
          split at h0
          · rw [hm1] at h0; cases h0
          · rw [hm1] at h0; cases h0
    have e4 := e4 hmulti
    have hk : (((Held.fresh (some (multipartBody B cs))).after E n req (ops ++ [.file name])).files.map sentOf)[k]? = some f := by
      rw [e4, ← g4, List.getElem?_map]
      unfold receivedFiles at h2
      rw [g1] at h2
      have h2 : g.files[k]? = some x := h2
      rw [h2, Option.map_some, hsx]
    rw [List.getElem?_map] at hk
    cases hq : ((Held.fresh (some (multipartBody B cs))).after E n req (ops ++ [.file name])).files[k]? with
    | none => rw [hq] at hk; cases hk
    | some y =>
      rw [hq] at hk
      refine ⟨k, y, h1, hq, ?_⟩
      simpa using hk

/-- the first call, when it reads the form -/
theorem held_first {E : MimeEnv} {n : Nat} {req : Req} {body : Str} {qs : List (Str × Str)} {g : Gathered} {op : FOp}
    (hb : readBody (E.withMemory (memoryOf n op)) (req.header.get kContentType) body = some g)
    (h : MultiReq (stdMime (E.withMemory (memoryOf n op))) req body qs g.values g.names)
    (ho : (∀ name, op ≠ .file name) → wantsMultipart req = true) :
    ((Held.fresh (some body)).after E n req [op]).files = g.files ∧
      ((Held.fresh (some body)).after E n req [op]).forms.multi = some (g.values, g.names) := by
  have hm : ((Forms.fresh (some body)).step (stdMime (E.withMemory (memoryOf n op))) req op).multi = some (g.values, g.names) := by
    have hc := fun (s : Forms) h1 h2 h3 => parseMulti_untouched (s := s) h h1 h2 h3
    cases op with
    | prepare =>
      have ho := ho (fun _ => by simp)
      unfold Forms.step Forms.prepare
      dsimp only
      rw [if_neg (by simp [Forms.fresh]), if_pos ho]
      exact (hc { Forms.fresh (some body) with parsed := true } rfl rfl rfl).2.2
    | query name =>
      have ho := ho (fun _ => by simp)
      unfold Forms.step Forms.query Forms.prepare
      dsimp only
      rw [if_neg (by simp [Forms.fresh]), if_pos ho]
      obtain ⟨c1, c2⟩ := hc { Forms.fresh (some body) with parsed := true } rfl rfl rfl
      split <;> rename_i hs <;> rw [hs] at c2 <;> exact c2.2
    | file name =>
      obtain ⟨c1, c2⟩ := hc (Forms.fresh (some body)) rfl rfl rfl
      unfold Forms.step Forms.formFile
      dsimp only
      have e : (Forms.fresh (some body)).multi = none := rfl
      rw [e]
      dsimp only
      split
      · rename_i hs; rw [hs] at c2; exact c2.2
      · rename_i s1 hs
        rw [hs] at c2
        rw [c2.2]
        dsimp only
        split <;> exact c2.2
  refine ⟨?_, hm⟩
  show (if _ then _ else _) = _
  have e : (Held.fresh (some body)).forms = Forms.fresh (some body) := rfl
  rw [e, hm, if_pos (by rfl)]
  have : ((Forms.fresh (some body)).parseForm (stdMime (E.withMemory (memoryOf n op))) req).2.body = some body := by
    show (some body).map (·.drop (parsePlain (stdMime (E.withMemory (memoryOf n op))).toMime req (some body)).read) = _
    rw [h.plain.2.1]
    rfl
  show receivedFiles _ _ (((Forms.fresh (some body)).parseForm _ req).2.body.getD []) = _
  rw [this]
  unfold receivedFiles
  simp only [Option.getD_some]
  rw [hb]
  rfl

theorem FormSentReq.read {E : MimeEnv} {B : Str} {cs : List FormPart} {req : Req} {qs : List (Str × Str)} (h : FormSentReq E B cs req qs)
    {g : Gathered} (hg : readBody E (multipartType B) (multipartBody B cs) = some g) :
    MultiReq (stdMime E) req (multipartBody B cs) qs g.values g.names := by
  obtain ⟨G, files, hm, _⟩ := h.multi
  refine ⟨hm.type, hm.given, hm.query, ⟨E.taken (multipartBody B cs), ?_⟩, ?_⟩
  · rw [h.type]
    unfold stdMime
    simp only [hg]
    rfl
  · obtain ⟨k, hp⟩ := hm.parts
    rw [h.type] at hp
    unfold stdMime at hp
    simp only [hg, Option.map_some, Prod.mk.injEq, Option.some.injEq] at hp
    rw [hp.1.2]
    exact hm.names

/-- C132, refuted: `FormFile` does not know `MaxMultipartMemory`. Whatever it is, a file of up to 32 MiB is held in memory. -/
theorem C132_refuted {E : MimeEnv} {B name filename t d : Str} (n : Nat) {req : Req} {qs : List (Str × Str)} (hd : d.length ≤ 32 * 2 ^ 20)
    (h : FormSentReq (E.withMemory httpMemory) B [.file name filename t d] req qs) :
    keptBytes ((Held.fresh (some (multipartBody B [.file name filename t d]))).after E n req [.file name]).files = d.length := by
  obtain ⟨g, h1, _, _, h4, h5⟩ := readBody_sent h.form
  have hct : req.header.get kContentType = multipartType B := h.type
  rw [(held_first (op := .file name) (n := n) (by rw [hct]; exact h1) (h.read h1) (fun h0 => absurd rfl (h0 name))).1]
  have h5 := h5 (by show d.length + 0 ≤ _; exact hd)
  cases hf : g.files with
  | nil => rw [hf] at h4; cases h4
  | cons x xs =>
    rw [hf] at h4 h5
    have hx := h5 x (List.mem_cons_self ..)
    have h4 : sentOf x :: xs.map sentOf = [⟨filename, t, d⟩] := h4
    cases xs with
    | cons => simp at h4
    | nil =>
      have h4 : sentOf x = ⟨filename, t, d⟩ := by simpa using h4
      have hc : x.content = d := congrArg SentFile.data h4
      unfold keptBytes
      simp [hx, hc]

theorem plain_sendable {B : Str} (n : Nat) : ¬ (b!"--" ++ B) <:+: List.replicate n (97 : UInt8) := by
  intro h
  have := h.subset (show (45 : UInt8) ∈ b!"--" ++ B by simp)
  rw [List.mem_replicate] at this
  exact absurd this.2 (by decide)

theorem plain_kept (n : Nat) : NameKept (List.replicate (n + 1) (97 : UInt8)) := by
  refine ⟨by simp, ?_, ?_⟩
  · intro c hc
    rw [(List.mem_replicate.1 hc).2]
    decide
  · intro a b e
    have : (92 : UInt8) ∈ List.replicate (n + 1) (97 : UInt8) := by rw [e]; simp
    rw [List.mem_replicate] at this
    exact absurd this.2 (by decide)

theorem total_aux (E : MimeEnv) (n : Nat) {B : Str} (hB : BoundaryText B) {req : Req} {qs : List (Str × Str)}
    (ht : req.header.get b!"Content-Type" = multipartType B) (hq : Query req.rawQuery qs) (hw : wantsMultipart req = true) {v d : Str}
    (hv : v.length = n + 10 * 2 ^ 20) (hd : d.length = n) (sv : ¬ (b!"--" ++ B) <:+: v) (sd : ¬ (b!"--" ++ B) <:+: d) :
    ((Held.fresh (some (multipartBody B [.text b!"a" v, .file b!"f" b!"x" b!"text/plain" d]))).after E n req [.prepare]).inMemory =
      2 * n + 10 * 2 ^ 20 := by
  have hT := final_tail hB []
  rw [List.append_nil] at hT
  have ka : NameKept b!"a" := plain_kept 0
  have kf : NameKept b!"f" := kept_of_read (r := []) (by decide) (by decide +kernel)
  have kx : NameKept b!"x" := kept_of_read (r := []) (by decide) (by decide +kernel)
  have hty : (∀ x ∈ b!"text/plain", x ≠ 13 ∧ x ≠ 10) ∧ (b!"text/plain").head? ≠ some 32 ∧ (b!"text/plain").head? ≠ some 9 ∧
      (b!"text/plain").getLast? ≠ some 32 ∧ (b!"text/plain").getLast? ≠ some 9 := by decide +kernel
  have hsend : (FormPart.file b!"f" b!"x" b!"text/plain" d).Sendable B := ⟨sd, hty⟩
  have hr := readForm_eq (E.withMemory n) hB hT [.text b!"a" v, .file b!"f" b!"x" b!"text/plain" d]
    (by
      intro c hc
      simp only [List.mem_cons, List.not_mem_nil, or_false] at hc
      rcases hc with rfl | rfl
      · exact ⟨sv, trivial⟩
      · exact hsend)
  rw [← body_eq, List.map_cons, List.map_cons, List.map_nil, List.foldlM_cons,
    gather_text _ _ ka (by
      rw [hv]
      show ((n + 10 * 2 ^ 20 : Nat) : Int) ≤ (n : Int) + 10 * 2 ^ 20
      omega)] at hr
  obtain ⟨g, new, h1, h2, h3, h4, h5, _, h7⟩ := gather_file (E.withMemory n)
    { (⟨[], [], [], (E.withMemory n).memory, (E.withMemory n).memory + 10 * 2 ^ 20⟩ : Gathered) with
      values := Form.append [] b!"a" [v]
      left := (E.withMemory n).memory + 10 * 2 ^ 20 - (v.length : Int) }
    kf kx hsend (.inr (by rw [hd]; exact Nat.le_refl _))
  have hr : readBody (E.withMemory n) (multipartType B) (multipartBody B [.text b!"a" v, .file b!"f" b!"x" b!"text/plain" d]) = some g := by
    rw [hr, Option.bind_eq_bind, Option.bind_some, List.foldlM_cons, h1]
    rfl
  have hct : req.header.get kContentType = multipartType B := ht
  have hm : MultiReq (stdMime (E.withMemory n)) req (multipartBody B [.text b!"a" v, .file b!"f" b!"x" b!"text/plain" d]) qs
      g.values g.names := by
    refine ⟨?_, ?_, hq, ⟨E.taken (multipartBody B [.text b!"a" v, .file b!"f" b!"x" b!"text/plain" d]), ?_⟩, ?_⟩
    · rw [ht]
      simp only [stdMime]
      rw [multipart_type _ hB]
    · rw [ht]; simp [multipartType]
    · rw [ht]
      unfold stdMime
      simp only [hr]
      rfl
    · rw [h3]
      show ([b!"f"] : List Str).Nodup
      decide
  obtain ⟨f1, f2⟩ := held_first (op := .prepare) (n := n) (E := E) (by rw [hct]; exact hr) hm (fun _ => hw)
  have hnew := (h7 (by rw [hd]; exact Nat.le_refl _)).1
  have hcont : new.content = d := congrArg SentFile.data h5
  unfold Held.inMemory
  rw [f1, f2, h2, h4]
  simp only [keptBytes, valueBytes, Form.append, List.nil_append, Option.map_some, Option.getD_some]
  simp [hnew, hcont, hv, hd]
  omega

/-- C132, refuted: the limit for all of a form is not 10 MiB more than `MaxMultipartMemory`, as net/http says: a text takes all of
that, and a file behind it `MaxMultipartMemory` again. So `C132_limit_partial` is the best there is. -/
theorem C132_refuted_total (E : MimeEnv) (n : Nat) {B : Str} (hB : BoundaryText B) {req : Req} {qs : List (Str × Str)}
    (ht : req.header.get b!"Content-Type" = multipartType B) (hq : Query req.rawQuery qs) (hw : wantsMultipart req = true) :
    ∃ body, ((Held.fresh (some body)).after E n req [.prepare]).inMemory = 2 * n + 10 * 2 ^ 20 :=
  ⟨_, total_aux E n hB ht hq hw List.length_replicate List.length_replicate (plain_sendable _) (plain_sendable _)⟩

/-- C132, refuted: names are not counted, nor how many controls there are. Whatever the limit, a form whose texts and files are empty
can hold a name of any length. -/
theorem C132_refuted_names (E : MimeEnv) (n k : Nat) {B : Str} (hB : BoundaryText B) {req : Req} {qs : List (Str × Str)}
    (ht : req.header.get b!"Content-Type" = multipartType B) (hq : Query req.rawQuery qs) (hw : wantsMultipart req = true) :
    ∃ body name, name.length = k + 1 ∧ ((Held.fresh (some body)).after E n req [.prepare]).inMemory = 0 ∧
      ((Held.fresh (some body)).after E n req [.prepare]).forms.multi = some ([(name, [[]])], []) := by
  have hs : FormSentReq (E.withMemory n) B [.text (List.replicate (k + 1) 97) []] req qs := by
    refine ⟨⟨hB, ?_, ?_, Nat.zero_le _, .inl (fun f hf => by cases hf)⟩, ht, hq⟩
    · intro c hc
      rw [List.mem_singleton.1 hc]
      exact ⟨plain_sendable 0, trivial⟩
    · intro c hc
      rw [List.mem_singleton.1 hc]
      exact plain_kept k
  obtain ⟨g, h1, h2, h3, h4, _⟩ := readBody_sent hs.form
  have hct : req.header.get kContentType = multipartType B := ht
  obtain ⟨f1, f2⟩ := held_first (op := .prepare) (n := n) (E := E) (by rw [hct]; exact h1) (hs.read h1) (fun _ => hw)
  have hf : g.files = [] := by simpa [filesOf] using h4
  have hv : g.values = [(List.replicate (k + 1) 97, [[]])] := h2
  have hn : g.names = [] := h3
  refine ⟨multipartBody B [.text (List.replicate (k + 1) 97) []], List.replicate (k + 1) 97, by simp, ?_, ?_⟩
  · unfold Held.inMemory
    rw [f1, f2, hf, hv]
    simp [keptBytes, valueBytes]
  · rw [f2, hv, hn]

/-! ### cases -/

namespace Demo

/-- the same form can be read with every limit, since temporary files can be written -/
theorem webReq_both : BothRead mimeEnv 0 webBoundary webForm webReq [(b!"tag", b!"q"), (b!"id", b!"7")] := by
  have h := webForm_sent
  exact ⟨⟨⟨h.boundary, h.parts, h.names, h.texts, .inl (fun _ _ => rfl)⟩, webReq_sent.type, webReq_sent.query⟩,
    ⟨h.boundary, h.parts, h.names, h.texts, .inl (fun _ _ => rfl)⟩⟩

/-- with the limit 0, as it is by default: `Query` first, then `FormFile` -/
example : ((Held.fresh (some (multipartBody webBoundary webForm))).after mimeEnv 0 webReq [.query b!"tag", .file b!"pic"]).files.map (·.spilled) =
    [true, true] := by decide +kernel

/-- `FormFile` first -/
example : ((Held.fresh (some (multipartBody webBoundary webForm))).after mimeEnv 0 webReq [.file b!"pic", .query b!"tag"]).files.map (·.spilled) =
    [false, false] := by decide +kernel

example : wantsMultipart webReq = true := by decide +kernel

end Demo

end Water
