import Verif.Model.FormMemory
import Verif.Props.Multipart
/- What a form holds in memory, and that the limit changes nothing else. -/
namespace Water
open Spec

/-- the bytes of the files in memory -/
def keptBytes (fs : List FileGot) : Nat := ((fs.filter (fun f => !f.spilled)).map (fun f => f.content.length)).sum

/-- the bytes of the values -/
def valueBytes (f : Form) : Nat := (f.map (fun e => (e.2.map List.length).sum)).sum

theorem valueBytes_append (f : Form) (k d : Str) : valueBytes (f.append k [d]) = valueBytes f + d.length := by
  induction f with
  | nil => simp [Form.append, valueBytes]
  | cons e f ih =>
    obtain ⟨k', vs⟩ := e
    unfold Form.append
    split
    · simp [valueBytes]; omega
    · simp only [valueBytes, List.map_cons, List.sum_cons] at ih ⊢
      omega

theorem keptBytes_append (fs : List FileGot) (f : FileGot) :
    keptBytes (fs ++ [f]) = keptBytes fs + if f.spilled then 0 else f.content.length := by
  unfold keptBytes
  rw [List.filter_append, List.map_append, List.sum_append]
  cases h : f.spilled <;> simp [h]

/-- what is counted while a form is read -/
structure Counted (M : Nat) (g : Gathered) : Prop where
  files : keptBytes g.files + g.mem = M
  values : (valueBytes g.values : Int) ≤ M + 10 * 2 ^ 20 ∧ ((valueBytes g.values + keptBytes g.files : Nat) : Int) + g.left = M + 10 * 2 ^ 20

theorem gather_counted {E : MimeEnv} {M : Nat} {g g' : Gathered} {p : RawPart} (h : Counted M g) (hg : gather E g p = some g') : Counted M g' := by
  obtain ⟨h1, h2, h3⟩ := h
  unfold gather at hg
  dsimp only at hg
  split at hg
  · cases hg; exact ⟨h1, h2, h3⟩
  · split at hg
    · cases hg
    · rename_i data _
      split at hg
      · split at hg
        · rename_i hle
          cases hg
          refine ⟨h1, ?_, ?_⟩
          · show ((valueBytes (g.values.append _ [data]) : Nat) : Int) ≤ _
            rw [valueBytes_append]
            omega
          · show ((valueBytes (g.values.append _ [data]) + keptBytes g.files : Nat) : Int) + (g.left - data.length) = _
            rw [valueBytes_append]
            omega
        · cases hg
      · split at hg
        · rename_i hle
          cases hg
          refine ⟨?_, h2, ?_⟩
          · show keptBytes (g.files ++ [⟨_, p.header, data, false⟩]) + (g.mem - data.length) = M
            rw [keptBytes_append]
            show keptBytes g.files + data.length + (g.mem - data.length) = M
            omega
          · show ((valueBytes g.values + keptBytes (g.files ++ [⟨_, p.header, data, false⟩]) : Nat) : Int) + (g.left - data.length) = _
            rw [keptBytes_append]
            show ((valueBytes g.values + (keptBytes g.files + data.length) : Nat) : Int) + (g.left - data.length) = _
            omega
        · split at hg
          · cases hg
            refine ⟨?_, h2, ?_⟩
            · show keptBytes (g.files ++ [⟨_, p.header, data, true⟩]) + g.mem = M
              rw [keptBytes_append]
              exact h1
            · show ((valueBytes g.values + keptBytes (g.files ++ [⟨_, p.header, data, true⟩]) : Nat) : Int) + g.left = _
              rw [keptBytes_append]
              exact h3
          · cases hg

theorem fold_counted {E : MimeEnv} {M : Nat} (ps : List RawPart) {g g' : Gathered} (h : Counted M g)
    (hg : ps.foldlM (gather E) g = some g') : Counted M g' := by
  induction ps generalizing g with
  | nil => cases hg; exact h
  | cons p ps ih =>
    rw [List.foldlM_cons] at hg
    cases hp : gather E g p with
    | none => rw [hp] at hg; cases hg
    | some g1 =>
      rw [hp] at hg
      exact ih (gather_counted h hp) hg

theorem body_counted {E : MimeEnv} {ct body : Str} {g : Gathered} (h : readBody E ct body = some g) : Counted E.memory g := by
  unfold readBody at h
  dsimp only at h
  split at h
  · unfold readForm at h
    split at h
    · cases h
    · split at h
      · cases h
      · refine fold_counted _ ?_ h
        refine ⟨by simp [keptBytes], ?_, ?_⟩
        · show ((valueBytes [] : Nat) : Int) ≤ _
          simp [valueBytes]
          omega
        · simp [valueBytes, keptBytes]
  · cases h

/-! ### the limit and the media type -/

theorem params_memory (E : MimeEnv) (a b : Nat) (t : Str) (fuel : Nat) (v : Str) (ps cs : MParams) :
    mediaParams (E.withMemory a) t fuel v ps cs = mediaParams (E.withMemory b) t fuel v ps cs := by
  induction fuel generalizing v ps cs with
  | zero => rfl
  | succ fuel ih =>
    rw [mediaParams, mediaParams]
    simp only [ih]
    rfl

theorem media_memory (E : MimeEnv) (a b : Nat) (v : Str) : parseMediaType (E.withMemory a) v = parseMediaType (E.withMemory b) v := by
  unfold parseMediaType
  simp only [params_memory E a b]

theorem plain_memory (E : MimeEnv) (a b : Nat) (req : Req) (body : Option Str) :
    parsePlain (stdMime (E.withMemory a)).toMime req body = parsePlain (stdMime (E.withMemory b)).toMime req body := by
  have : (stdMime (E.withMemory a)).toMime.mediaType = (stdMime (E.withMemory b)).toMime.mediaType := by
    funext ct
    simp only [FMime.toMime, stdMime, media_memory E a b]
  unfold parsePlain parsePostForm
  rw [this]

theorem parseForm_memory (E : MimeEnv) (a b : Nat) (req : Req) (s : Forms) :
    s.parseForm (stdMime (E.withMemory a)) req = s.parseForm (stdMime (E.withMemory b)) req := by
  unfold Forms.parseForm
  split
  · rfl
  · simp only [plain_memory E a b]

/-! ### when the parts are read -/

/-- nothing new, or the parts of what is left of the body -/
def PartsRead (m : FMime) (req : Req) (s s' : Forms) : Prop :=
  s'.multi = s.multi ∨ s.multi = none ∧ ∃ vs fs, s'.multi = some (vs, fs) ∧
    (m.parts (req.header.get kContentType) ((s.parseForm m req).2.body.getD [])).1 = some (vs, fs)

theorem parseForm_multi (m : FMime) (req : Req) (s : Forms) : (s.parseForm m req).2.multi = s.multi := by
  unfold Forms.parseForm
  split <;> rfl

theorem readParts_multi (m : FMime) (req : Req) (s : Forms) : (s.readParts m req).2.multi = s.multi ∨ s.multi = none ∧
    ∃ vs fs, (s.readParts m req).2.multi = some (vs, fs) ∧ (m.parts (req.header.get kContentType) (s.body.getD [])).1 = some (vs, fs) := by
  unfold Forms.readParts
  split
  · exact .inl rfl
  · rename_i hm
    dsimp only
    split
    · exact .inl rfl
    · split
      · exact .inl rfl
      · rename_i vs fs n hp
        exact .inr ⟨hm, vs, fs, rfl, by rw [hp]⟩

theorem parseMulti_multi (m : FMime) (req : Req) (s : Forms) : PartsRead m req s (s.parseMulti m req).2 := by
  unfold Forms.parseMulti PartsRead
  have h1 := parseForm_multi m req s
  split
  · rename_i s1 hs; rw [hs] at h1
    exact .inl h1
  · rename_i s1 hs; rw [hs] at h1
    have h2 := readParts_multi m req s1
    rw [h1] at h2
    rw [hs]
    exact h2

theorem prepare_multi (m : FMime) (req : Req) (s : Forms) : PartsRead m req s (s.prepare m req).2 := by
  unfold Forms.prepare
  split
  · exact .inl rfl
  · dsimp only
    split
    · have h := parseMulti_multi m req { s with parsed := true }
      have e : ((({ s with parsed := true } : Forms).parseForm m req).2.body) = (s.parseForm m req).2.body := by
        unfold Forms.parseForm
        dsimp only
        split <;> rfl
      unfold PartsRead at h ⊢
      rw [e] at h
      exact h
    · exact .inl (parseForm_multi m req _)

theorem step_multi (m : FMime) (req : Req) (s : Forms) (op : FOp) : PartsRead m req s (s.step m req op) := by
  cases op with
  | prepare => exact prepare_multi m req s
  | query name =>
    have h := prepare_multi m req s
    unfold Forms.step Forms.query
    dsimp only
    split <;> rename_i hs <;> rw [hs] at h <;> exact h
  | file name =>
    have key : ∀ r : Bool × Forms, PartsRead m req s r.2 →
        PartsRead m req s (match r with
          | (true, s) => ((Except.error FileErr.form : Except FileErr Nat), s)
          | (false, s) =>
            match s.multi with
            | none => (.error .missing, s)
            | some (_, fs) =>
              match fs.at name with
              | some (x :: _) => (.ok x, s)
              | _ => (.error .missing, s)).2 := by
      rintro ⟨b, s1⟩ h
      cases b with
      | true => exact h
      | false =>
        dsimp only
        split
        · exact h
        · split <;> exact h
    unfold Forms.step Forms.formFile
    dsimp only
    refine key _ ?_
    split
    · exact .inl rfl
    · exact parseMulti_multi m req s

/-- nothing was read, or a form with one of these limits -/
def Within (E : MimeEnv) (Ms : List Nat) (h : Held) : Prop :=
  (h.forms.multi = none ∧ h.files = []) ∨ ∃ M ∈ Ms, ∃ ct body g, readBody (E.withMemory M) ct body = some g ∧
    h.forms.multi = some (g.values, g.names) ∧ h.files = g.files

theorem step_within {E : MimeEnv} {n : Nat} {req : Req} {Ms : List Nat} {h : Held} (hw : Within E Ms h) {op : FOp} (ho : memoryOf n op ∈ Ms) :
    Within E Ms (h.step E n req op) := by
  have hs := step_multi (stdMime (E.withMemory (memoryOf n op))) req h.forms op
  unfold Held.step
  dsimp only
  rcases hs with hs | ⟨h0, vs, fs, h1, h2⟩
  · unfold Within at hw ⊢
    dsimp only
    rw [hs]
    rw [if_neg (by cases h.forms.multi <;> simp)]
    exact hw
  · refine .inr ⟨_, ho, ?_⟩
    dsimp only
    rw [h1, h0, if_pos (by simp)]
    unfold stdMime at h2
    dsimp only at h2
    cases hg : readBody (E.withMemory (memoryOf n op)) (req.header.get kContentType)
        ((h.forms.parseForm (stdMime (E.withMemory (memoryOf n op))) req).2.body.getD []) with
    | none =>
      unfold stdMime at hg
      dsimp only at hg
      rw [hg] at h2; cases h2
    | some g =>
      refine ⟨_, _, g, hg, ?_, ?_⟩
      · unfold stdMime at hg
        dsimp only at hg
        rw [hg] at h2
        simpa using h2.symm
      · unfold receivedFiles
        rw [hg]
        rfl

theorem after_within (E : MimeEnv) (n : Nat) (req : Req) (Ms : List Nat) (ops : List FOp) (ho : ∀ op ∈ ops, memoryOf n op ∈ Ms) (h : Held)
    (hw : Within E Ms h) : Within E Ms (h.after E n req ops) := by
  induction ops generalizing h with
  | nil => exact hw
  | cons op ops ih =>
    exact ih (fun x hx => ho x (List.mem_cons_of_mem _ hx)) _ (step_within hw (ho op (List.mem_cons_self ..)))

end Water
