import Verif.Lemmas.MultipartForm
/- What `ReadForm` gathers from a form. -/
namespace Water
open Spec

/-- all numbers under a name -/
def numbersIn (f : FormFiles) (k : Str) : List Nat := (f.filter (fun e => e.1 == k)).flatMap Prod.snd

/-- files added one by one -/
def addNums (f : FormFiles) (l : List (Str × Nat)) : FormFiles := l.foldl (fun f p => f.append p.1 p.2) f

theorem numbers_cons (k' : Str) (ns : List Nat) (f : FormFiles) (k : Str) :
    numbersIn ((k', ns) :: f) k = (if k' = k then ns else []) ++ numbersIn f k := by
  unfold numbersIn
  by_cases h : k' = k <;> simp [h]

theorem numbers_absent {f : FormFiles} {k : Str} (h : k ∉ f.map Prod.fst) : numbersIn f k = [] := by
  induction f with
  | nil => rfl
  | cons e f ih =>
    obtain ⟨k', ns⟩ := e
    simp only [List.map_cons, List.mem_cons, not_or] at h
    rw [numbers_cons, if_neg (fun hh => h.1 hh.symm), ih h.2]
    rfl

theorem fileAppend_keys {f : FormFiles} {k : Str} {n : Nat} {x : Str} :
    x ∈ (f.append k n).map Prod.fst ↔ x ∈ f.map Prod.fst ∨ x = k := by
  induction f with
  | nil => simp [FormFiles.append]
  | cons e f ih =>
    obtain ⟨k', ns⟩ := e
    unfold FormFiles.append
    split
    · rename_i h; subst h
      simp only [List.map_cons, List.mem_cons]
      constructor
      · intro h; exact .inl h
      · rintro (h | h)
        · exact h
        · exact .inl h
    · simp only [List.map_cons, List.mem_cons, ih, or_assoc]

theorem fileAppend_nodup {f : FormFiles} (h : (f.map Prod.fst).Nodup) (k : Str) (n : Nat) : ((f.append k n).map Prod.fst).Nodup := by
  induction f with
  | nil => simp [FormFiles.append]
  | cons e f ih =>
    obtain ⟨k', ns⟩ := e
    simp only [List.map_cons, List.nodup_cons] at h
    unfold FormFiles.append
    split
    · simpa using h
    · rename_i hk
      simp only [List.map_cons, List.nodup_cons]
      refine ⟨?_, ih h.2⟩
      rw [fileAppend_keys]
      rintro (h' | h')
      · exact h.1 h'
      · exact hk h'

theorem numbers_append {f : FormFiles} (h : (f.map Prod.fst).Nodup) (k : Str) (n : Nat) (x : Str) :
    numbersIn (f.append k n) x = numbersIn f x ++ (if k = x then [n] else []) := by
  induction f with
  | nil => rw [FormFiles.append, numbers_cons]; simp [numbersIn]
  | cons e f ih =>
    obtain ⟨k', ns⟩ := e
    simp only [List.map_cons, List.nodup_cons] at h
    unfold FormFiles.append
    split
    · rename_i hk; subst hk
      rw [numbers_cons, numbers_cons]
      by_cases hx : k' = x
      · subst hx
        simp [numbers_absent h.1]
      · simp [hx]
    · rw [numbers_cons, numbers_cons, ih h.2, List.append_assoc]

theorem fileAppend_ne {f : FormFiles} (h : ∀ e ∈ f, e.2 ≠ []) (k : Str) (n : Nat) : ∀ e ∈ f.append k n, e.2 ≠ [] := by
  induction f with
  | nil =>
    intro e he
    rw [FormFiles.append, List.mem_singleton] at he
    subst he
    simp
  | cons x f ih =>
    obtain ⟨k', ns⟩ := x
    intro e he
    unfold FormFiles.append at he
    split at he
    · rcases List.mem_cons.1 he with rfl | he
      · simp
      · exact h e (List.mem_cons_of_mem _ he)
    · rcases List.mem_cons.1 he with rfl | he
      · exact h _ (List.mem_cons_self ..)
      · exact ih (fun e he => h e (List.mem_cons_of_mem _ he)) e he

theorem addNums_spec {f : FormFiles} (h : (f.map Prod.fst).Nodup) (hne : ∀ e ∈ f, e.2 ≠ []) (l : List (Str × Nat)) :
    ((addNums f l).map Prod.fst).Nodup ∧ (∀ e ∈ addNums f l, e.2 ≠ []) ∧ ∀ k, numbersIn (addNums f l) k = numbersIn f k ++ valuesIn l k := by
  induction l generalizing f with
  | nil => exact ⟨h, hne, fun k => by simp [addNums, valuesIn]⟩
  | cons p l ih =>
    obtain ⟨a, b, c⟩ := ih (fileAppend_nodup h p.1 p.2) (fileAppend_ne hne p.1 p.2)
    refine ⟨a, b, fun k => ?_⟩
    show numbersIn (addNums (f.append p.1 p.2) l) k = _
    rw [c, numbers_append h, List.append_assoc]
    unfold valuesIn
    by_cases hx : p.1 = k <;> simp [hx]

theorem addAll_ne {f : Form} (h : ∀ e ∈ f, e.2 ≠ []) (ps : List (Str × Str)) : ∀ e ∈ addAll f ps, e.2 ≠ [] := by
  have one : ∀ (f : Form), (∀ e ∈ f, e.2 ≠ []) → ∀ (k v : Str), ∀ e ∈ f.append k [v], e.2 ≠ [] := by
    intro f
    induction f with
    | nil =>
      intro _ k v e he
      rw [Form.append, List.mem_singleton] at he
      subst he
      simp
    | cons x f ih =>
      obtain ⟨k', ns⟩ := x
      intro h k v e he
      unfold Form.append at he
      split at he
      · rcases List.mem_cons.1 he with rfl | he
        · simp
        · exact h e (List.mem_cons_of_mem _ he)
      · rcases List.mem_cons.1 he with rfl | he
        · exact h _ (List.mem_cons_self ..)
        · exact ih (fun e he => h e (List.mem_cons_of_mem _ he)) k v e he
  induction ps generalizing f with
  | nil => exact h
  | cons p ps ih => exact ih (one f h _ _)

/-- a file as it was received -/
def sentOf (g : FileGot) : SentFile := ⟨g.filename, g.header.get b!"Content-Type", g.content⟩

/-- the files with their numbers, from `n` on -/
def numbered (n : Nat) (fs : List (Str × SentFile)) : List (Str × Nat) := (fs.zipIdx n).map (fun p => (p.1.1, p.2))

theorem numbered_cons (n : Nat) (f : Str × SentFile) (fs : List (Str × SentFile)) : numbered n (f :: fs) = (f.1, n) :: numbered (n + 1) fs := by
  simp [numbered, List.zipIdx_cons]

/-- a text -/
theorem gather_text (E : MimeEnv) (g : Gathered) {name v : Str} (h : NameKept name) (hv : (v.length : Int) ≤ g.left) :
    gather E g (rawOf (.text name v)) = some { g with values := g.values.append name [v], left := g.left - v.length } := by
  have hn : (rawOf (.text name v)).formName E = name := by
    unfold RawPart.formName
    rw [disposition_text E h]
    rfl
  have hf : (rawOf (.text name v)).fileName E = [] := by
    unfold RawPart.fileName
    rw [disposition_text E h]
    rfl
  unfold gather
  dsimp only
  rw [hn, if_neg h.1, raw_plain]
  dsimp only
  rw [hf, if_pos rfl]
  exact if_pos hv

/-- a file -/
theorem gather_file (E : MimeEnv) (g : Gathered) {B name filename t d : Str} (h : NameKept name) (hf : NameKept filename)
    (hs : (FormPart.file name filename t d).Sendable B) (hd : E.spill d = true ∨ d.length ≤ g.mem) :
    ∃ g' new, gather E g (rawOf (.file name filename t d)) = some g' ∧ g'.values = g.values ∧
      g'.names = g.names.append name g.files.length ∧ g'.files = g.files ++ [new] ∧ sentOf new = ⟨filename, t, d⟩ ∧
      (∀ T : Nat, ((g.mem + T : Nat) : Int) ≤ g.left → ((g'.mem + T : Nat) : Int) ≤ g'.left) ∧ (d.length ≤ g.mem → new.spilled = false ∧ g'.mem + d.length = g.mem) := by
  have hn : (rawOf (.file name filename t d)).formName E = name := by
    unfold RawPart.formName
    rw [disposition_file E h hf]
    rfl
  have hfn : (rawOf (.file name filename t d)).fileName E = filename := by
    unfold RawPart.fileName
    rw [disposition_file E h hf]
    rfl
  have ht := raw_type hs
  unfold gather
  dsimp only
  rw [hn, if_neg h.1, raw_plain]
  dsimp only
  rw [hfn, if_neg hf.1]
  by_cases hm : d.length ≤ g.mem
  · rw [if_pos (show (FormPart.file name filename t d).bytes.length ≤ g.mem from hm)]
    refine ⟨_, ⟨filename, (rawOf (.file name filename t d)).header, d, false⟩, rfl, rfl, rfl, rfl, ?_, ?_, ?_⟩
    · simp only [sentOf]
      exact congrArg (fun x => SentFile.mk filename x d) ht
    · intro T hT
      show ((g.mem - d.length + T : Nat) : Int) ≤ g.left - d.length
      omega
    · intro _
      refine ⟨rfl, ?_⟩
      show g.mem - d.length + d.length = g.mem
      omega
  · have hd := hd.resolve_right hm
    rw [if_neg (show ¬ (FormPart.file name filename t d).bytes.length ≤ g.mem from hm),
      if_pos (show E.spill (FormPart.file name filename t d).bytes = true from hd)]
    refine ⟨_, ⟨filename, (rawOf (.file name filename t d)).header, d, true⟩, rfl, rfl, rfl, rfl, ?_, ?_, ?_⟩
    · simp only [sentOf]
      exact congrArg (fun x => SentFile.mk filename x d) ht
    · intro T hT; exact hT
    · intro h; exact absurd h hm

/-- all of a form -/
theorem gather_all (E : MimeEnv) {B : Str} (cs : List FormPart) (hs : ∀ c ∈ cs, c.Sendable B) (hk : ∀ c ∈ cs, c.Kept) (g : Gathered)
    (ht : ((g.mem + textBytes cs : Nat) : Int) ≤ g.left) (hd : (∀ f ∈ filesOf cs, E.spill f.2.data = true) ∨ fileBytes cs ≤ g.mem) :
    ∃ g' new, (cs.map rawOf).foldlM (gather E) g = some g' ∧ g'.values = addAll g.values (textsOf cs) ∧
      g'.names = addNums g.names (numbered g.files.length (filesOf cs)) ∧ g'.files = g.files ++ new ∧
      new.map sentOf = (filesOf cs).map Prod.snd ∧ (fileBytes cs ≤ g.mem → ∀ x ∈ new, x.spilled = false) := by
  induction cs generalizing g with
  | nil => exact ⟨g, [], rfl, rfl, rfl, by simp, rfl, fun _ => by simp⟩
  | cons c cs ih =>
    have hs' := fun x hx => hs x (List.mem_cons_of_mem _ hx)
    have hk' := fun x hx => hk x (List.mem_cons_of_mem _ hx)
    have hc := hs c (List.mem_cons_self ..)
    have hkc := hk c (List.mem_cons_self ..)
    cases c with
    | text name v =>
      have hb : textBytes (.text name v :: cs) = v.length + textBytes cs := rfl
      have hfb : fileBytes (.text name v :: cs) = fileBytes cs := rfl
      rw [hb] at ht
      rw [hfb] at hd
      obtain ⟨g', new, h1, h2, h3, h4, h5, h6⟩ := ih hs' hk' { g with values := g.values.append name [v], left := g.left - v.length }
        (by show ((g.mem + textBytes cs : Nat) : Int) ≤ g.left - v.length; omega) hd
      refine ⟨g', new, ?_, h2, h3, h4, h5, h6⟩
      rw [List.map_cons, List.foldlM_cons, gather_text E g hkc (by omega)]
      exact h1
    | file name filename t d =>
      have hb : textBytes (.file name filename t d :: cs) = textBytes cs := rfl
      have hfb : fileBytes (.file name filename t d :: cs) = d.length + fileBytes cs := rfl
      have hfo : filesOf (.file name filename t d :: cs) = (name, ⟨filename, t, d⟩) :: filesOf cs := rfl
      rw [hb] at ht
      rw [hfb, hfo] at hd
      obtain ⟨g1, x, a1, a2, a3, a4, a5, a6, a7⟩ := gather_file E g (B := B) (t := t) (d := d) hkc.1 hkc.2 hc
        (by rcases hd with hd | hd
            · exact .inl (hd _ (List.mem_cons_self ..))
            · exact .inr (by omega))
      obtain ⟨g', new, h1, h2, h3, h4, h5, h6⟩ := ih hs' hk' g1 (a6 _ ht)
        (by rcases hd with hd | hd
            · exact .inl (fun f hf => hd f (List.mem_cons_of_mem _ hf))
            · have := (a7 (by omega)).2
              exact .inr (by omega))
      refine ⟨g', x :: new, ?_, ?_, ?_, ?_, ?_, ?_⟩
      · rw [List.map_cons, List.foldlM_cons, a1]
        exact h1
      · rw [h2, a2]; rfl
      · rw [h3, a3, hfo, numbered_cons, a4, List.length_append]
        rfl
      · rw [h4, a4, List.append_assoc]
        rfl
      · rw [List.map_cons, h5, a5, hfo]
        rfl
      · intro hle y hy
        rw [hfb] at hle
        have := a7 (by omega)
        rcases List.mem_cons.1 hy with rfl | hy
        · exact this.1
        · exact h6 (by omega) y hy

theorem boundary_param {B : Str} (hB : BoundaryText B) : consumeMediaParam (b!"; boundary=" ++ B) = some (b!"boundary", B, []) := by
  obtain ⟨c, cs, rfl⟩ : ∃ c cs, B = c :: cs := by
    cases B with
    | nil => exact absurd rfl hB.1
    | cons c cs => exact ⟨c, cs, rfl⟩
  have hc := boundary_byte hB (List.mem_cons_self ..)
  have h34 : c ≠ 34 := by
    rintro rfl
    exact absurd hc.1 (by decide)
  have h59 : NonSpace 59 := by decide
  have h61 : NonSpace 61 := by decide
  unfold consumeMediaParam
  have e1 : trimLeft (b!"; boundary=" ++ c :: cs) = 59 :: 32 :: (b!"boundary" ++ 61 :: (c :: cs)) := trimLeft_head h59 rfl
  rw [e1]
  simp only [ne_eq, not_true_eq_false, if_false]
  rw [trimLeft_space (by intro y hy; cases hy; decide), token_split (by decide) (by decide)]
  have hl : toLower b!"boundary" = b!"boundary" := by decide +kernel
  simp only [hl]
  rw [if_neg (by decide), trimLeft_head h61 rfl]
  simp only [not_true_eq_false, if_false]
  rw [trimLeft_head hc.2.2.2.2.2 rfl]
  have hv : consumeValue (c :: cs) = (c :: cs, []) := by
    unfold consumeValue
    refine (if_pos h34).trans ?_
    exact token_all (fun x hx => (boundary_byte hB hx).1)
  rw [hv, if_neg (by simp)]

theorem multipart_type (E : MimeEnv) {B : Str} (hB : BoundaryText B) :
    parseMediaType E (multipartType B) = ⟨b!"multipart/form-data", [(b!"boundary", B)], false⟩ := by
  unfold parseMediaType multipartType
  have h1 : indexByte (b!"multipart/form-data; boundary=" ++ B) 59 = some 19 :=
    indexByte_append (a := b!"multipart/form-data") (b := b!" boundary=" ++ B) (c := 59) (by decide)
  rw [h1]
  have h2 : (b!"multipart/form-data; boundary=" ++ B).take ((some 19).getD (b!"multipart/form-data; boundary=" ++ B).length) =
      b!"multipart/form-data" := rfl
  have h3 : (b!"multipart/form-data; boundary=" ++ B).drop ((some 19).getD (b!"multipart/form-data; boundary=" ++ B).length) =
      b!"; boundary=" ++ B := rfl
  dsimp only
  rw [h2, h3]
  have h4 : trimSpace (toLower b!"multipart/form-data") = b!"multipart/form-data" := by decide +kernel
  rw [h4, if_pos (show checkMediaType b!"multipart/form-data" = true by decide +kernel)]
  rw [mediaParams_one E _ _ _ b!"boundary" B [] [] 59 rfl (by decide) (boundary_param hB) (by decide) (by simp)]
  exact mediaParams_end ..

end Water
