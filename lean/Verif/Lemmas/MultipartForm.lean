import Verif.Lemmas.Multipart
/- All of a form. -/
namespace Water
open Spec

/-- the Content-Disposition of a control -/
def Spec.FormPart.disp : FormPart → Str
  | .text name _ => b!"form-data; name=\"" ++ (formName name ++ b!"\"")
  | .file name filename _ _ => b!"form-data; name=\"" ++ (formName name ++ b!"\"; filename=\"" ++ formName filename ++ b!"\"")

/-- the header a control arrives with -/
def Spec.FormPart.header : FormPart → Header
  | .text name v => Header.add Map.empty b!"Content-Disposition" (FormPart.text name v).disp
  | .file name filename type d =>
    (Header.add Map.empty b!"Content-Disposition" (FormPart.file name filename type d).disp).add b!"Content-Type"
      ((cutBlank (32 :: type)).dropWhile blankB)

theorem disp_shape (p : FormPart) : ∃ x, p.disp = b!"form-data; name=\"" ++ x ++ [34] ∧ 10 ∉ x := by
  cases p with
  | text name v =>
    exact ⟨formName name, by simp [FormPart.disp], fun h => (formName_clean _ _ h).2.2 rfl⟩
  | file name filename t d =>
    refine ⟨formName name ++ b!"\"; filename=\"" ++ formName filename, by simp [FormPart.disp], ?_⟩
    simp only [List.mem_append, not_or]
    exact ⟨⟨fun h => (formName_clean _ _ h).2.2 rfl, by decide⟩, fun h => (formName_clean _ _ h).2.2 rfl⟩

theorem disp_line (p : FormPart) (fuel : Nat) (h : Header) {rest : Str} (hr : ∀ y, rest.head? = some y → blankB y = false) :
    mimeHeaderLoop (fuel + 1) h (b!"Content-Disposition" ++ [colon] ++ (32 :: p.disp) ++ b!"\r\n" ++ rest) =
      mimeHeaderLoop fuel (h.add b!"Content-Disposition" p.disp) rest := by
  obtain ⟨x, hx, hn⟩ := disp_shape p
  rw [header_line fuel h (by decide) (by decide) (by decide) (by decide) ?_ hr]
  · rw [hx]
    have e : (32 : UInt8) :: (b!"form-data; name=\"" ++ x ++ [34]) = (32 :: (b!"form-data; name=\"" ++ x)) ++ [34] := rfl
    rw [e, cutBlank_end (by decide)]
    congr 2
  · rw [hx]
    simp only [List.mem_cons, List.mem_append, not_or]
    exact ⟨by decide, ⟨by decide, hn⟩, by decide⟩

/-- the header of a control -/
theorem read_head {B : Str} {p : FormPart} (hp : p.Sendable B) (rest : Str) :
    readMIMEHeader (p.head ++ b!"\r\n" ++ rest) = .ok p.header rest := by
  have hfirst : ((p.head ++ b!"\r\n" ++ rest).head?.map blankB).getD false = false := by
    cases p <;> rfl
  unfold readMIMEHeader
  rw [if_neg (by rw [hfirst]; decide)]
  cases p with
  | text name v =>
    have e : (FormPart.text name v).head ++ b!"\r\n" ++ rest =
        b!"Content-Disposition" ++ [colon] ++ (32 :: (FormPart.text name v).disp) ++ b!"\r\n" ++ (b!"\r\n" ++ rest) := by
      simp [FormPart.head, FormPart.disp]
    have hl : ∃ n, (b!"Content-Disposition" ++ [colon] ++ (32 :: (FormPart.text name v).disp) ++ b!"\r\n" ++ (b!"\r\n" ++ rest)).length + 1 =
        n + 1 + 1 := by
      refine ⟨(FormPart.text name v).disp.length + rest.length + 24, ?_⟩
      simp only [List.length_append, List.length_cons, List.length_nil]
      omega
    obtain ⟨n, hl⟩ := hl
    rw [e, hl, disp_line _ _ _ (by intro y hy; cases hy; decide), header_end]
    rfl
  | file name filename type d =>
    have e : (FormPart.file name filename type d).head ++ b!"\r\n" ++ rest =
        b!"Content-Disposition" ++ [colon] ++ (32 :: (FormPart.file name filename type d).disp) ++ b!"\r\n" ++
          (b!"Content-Type" ++ [colon] ++ (32 :: type) ++ b!"\r\n" ++ (b!"\r\n" ++ rest)) := by
      simp [FormPart.head, FormPart.disp]
    have hl : ∃ n, (b!"Content-Disposition" ++ [colon] ++ (32 :: (FormPart.file name filename type d).disp) ++ b!"\r\n" ++
          (b!"Content-Type" ++ [colon] ++ (32 :: type) ++ b!"\r\n" ++ (b!"\r\n" ++ rest))).length + 1 = n + 1 + 1 + 1 := by
      refine ⟨(FormPart.file name filename type d).disp.length + type.length + rest.length + 39, ?_⟩
      simp only [List.length_append, List.length_cons, List.length_nil]
      omega
    obtain ⟨n, hl⟩ := hl
    have ht : 10 ∉ (32 : UInt8) :: type := by
      intro h
      rcases List.mem_cons.1 h with h | h
      · cases h
      · exact (hp.2.1 _ h).2 rfl
    rw [e, hl, disp_line _ _ _ (by intro y hy; cases hy; decide)]
    rw [header_line _ _ (by decide) (by decide) (by decide) (by decide) ht (by intro y hy; cases hy; decide), header_end]
    rfl

/-! ### all parts -/

/-- the parts of a body -/
def rawOf (p : FormPart) : RawPart := ⟨p.header, p.bytes⟩

/-- what a body can end with -/
structure Tail (B T : Str) : Prop where
  begins : ∃ r, T = b!"--" ++ B ++ r ∧ afterBoundary r = true
  first : ∀ fuel, rawParts B (fuel + 1) b!"\r\n" true T = some []
  later : ∀ fuel, rawParts B (fuel + 1) b!"\r\n" false (b!"\r\n" ++ T) = some []

theorem wires_begin {B T : Str} (hT : Tail B T) (cs : List FormPart) :
    ∃ r, cs.flatMap (FormPart.wire B) ++ T = b!"--" ++ B ++ r ∧ afterBoundary r = true := by
  cases cs with
  | nil => exact hT.begins
  | cons c cs =>
    refine ⟨b!"\r\n" ++ c.head ++ b!"\r\n" ++ c.bytes ++ b!"\r\n" ++ (cs.flatMap (FormPart.wire B) ++ T), ?_, rfl⟩
    simp [FormPart.wire]

theorem rawParts_one {B T : Str} {c : FormPart} {cs : List FormPart} {nl : Str} {first : Bool} {s : Str} (hB : BoundaryText B)
    (hT : Tail B T) (hc : c.Sendable B) (fuel : Nat)
    (hs : nextBoundary B (s.length + 1) nl first false s =
      .part b!"\r\n" (c.head ++ b!"\r\n" ++ (c.bytes ++ b!"\r\n" ++ (cs.flatMap (FormPart.wire B) ++ T)))) :
    rawParts B (fuel + 1) nl first s =
      (rawParts B fuel b!"\r\n" false (b!"\r\n" ++ (cs.flatMap (FormPart.wire B) ++ T))).map (rawOf c :: ·) := by
  rw [rawParts, hs]
  dsimp only
  rw [read_head hc]
  dsimp only
  obtain ⟨r, hr, ha⟩ := wires_begin hT cs
  rw [hr]
  have e : c.bytes ++ b!"\r\n" ++ (b!"--" ++ B ++ r) = c.bytes ++ b!"\r\n" ++ (b!"--" ++ B) ++ r := by simp
  rw [e, partData_eq hB hc.1 ha]
  dsimp only
  have e2 : b!"\r\n" ++ (b!"--" ++ B) ++ r = b!"\r\n" ++ (b!"--" ++ B ++ r) := by simp
  rw [e2]
  rfl

theorem rawParts_all {B T : Str} (hB : BoundaryText B) (hT : Tail B T) (cs : List FormPart) (hc : ∀ c ∈ cs, c.Sendable B) (fuel : Nat)
    (hf : cs.length < fuel) :
    rawParts B fuel b!"\r\n" true (cs.flatMap (FormPart.wire B) ++ T) = some (cs.map rawOf) := by
  have later : ∀ (cs : List FormPart), (∀ c ∈ cs, c.Sendable B) → ∀ fuel, cs.length < fuel →
      rawParts B fuel b!"\r\n" false (b!"\r\n" ++ (cs.flatMap (FormPart.wire B) ++ T)) = some (cs.map rawOf) := by
    intro cs
    induction cs with
    | nil =>
      intro _ fuel hf
      obtain ⟨n, rfl⟩ : ∃ n, fuel = n + 1 := ⟨fuel - 1, by simp at hf; omega⟩
      exact hT.later n
    | cons c cs ih =>
      intro hc fuel hf
      obtain ⟨n, rfl⟩ : ∃ n, fuel = n + 1 := ⟨fuel - 1, by simp at hf; omega⟩
      rw [rawParts_one (c := c) (cs := cs) hB hT (hc c (List.mem_cons_self ..)), ih (fun x hx => hc x (List.mem_cons_of_mem _ hx)) n (by simp at hf; omega)]
      · rfl
      · have e : b!"\r\n" ++ ((c :: cs).flatMap (FormPart.wire B) ++ T) =
            b!"\r\n" ++ (b!"--" ++ B ++ b!"\r\n" ++ (c.head ++ b!"\r\n" ++ (c.bytes ++ b!"\r\n" ++ (cs.flatMap (FormPart.wire B) ++ T)))) := by
          simp [FormPart.wire]
        rw [e]
        rw [next_empty]
        rw [List.length_append, show (b!"\r\n").length = 1 + 1 from rfl, Nat.add_comm (1 + 1), ← Nat.add_assoc]
        exact next_first hB _ _ _ _
  cases cs with
  | nil =>
    obtain ⟨n, rfl⟩ : ∃ n, fuel = n + 1 := ⟨fuel - 1, by simp at hf; omega⟩
    exact hT.first n
  | cons c cs =>
    obtain ⟨n, rfl⟩ : ∃ n, fuel = n + 1 := ⟨fuel - 1, by simp at hf; omega⟩
    rw [rawParts_one (c := c) (cs := cs) hB hT (hc c (List.mem_cons_self ..)), later cs (fun x hx => hc x (List.mem_cons_of_mem _ hx)) n (by simp at hf; omega)]
    · rfl
    · have e : (c :: cs).flatMap (FormPart.wire B) ++ T =
          b!"--" ++ B ++ b!"\r\n" ++ (c.head ++ b!"\r\n" ++ (c.bytes ++ b!"\r\n" ++ (cs.flatMap (FormPart.wire B) ++ T))) := by
        simp [FormPart.wire]
      rw [e]
      exact next_first hB _ _ _ _

theorem final_tail {B : Str} (hB : BoundaryText B) (more : Str) : Tail B (b!"--" ++ B ++ b!"--\r\n" ++ more) := by
  refine ⟨⟨b!"--\r\n" ++ more, by simp, rfl⟩, fun fuel => ?_, fun fuel => ?_⟩
  · rw [rawParts, next_final hB]
  · rw [rawParts, next_empty]
    rw [List.length_append, show (b!"\r\n").length = 1 + 1 from rfl, Nat.add_comm (1 + 1), ← Nat.add_assoc, next_final hB]

/-- a body that ends behind a boundary line -/
theorem cut_tail {B : Str} (hB : BoundaryText B) : Tail B (b!"--" ++ B ++ b!"\r\n") := by
  have h := fun fuel first expect => next_first hB fuel first expect []
  simp only [List.append_nil] at h
  refine ⟨⟨b!"\r\n", rfl, rfl⟩, fun fuel => ?_, fun fuel => ?_⟩
  · rw [rawParts, h]
    rfl
  · rw [rawParts, next_empty]
    rw [List.length_append, show (b!"\r\n").length = 1 + 1 from rfl, Nat.add_comm (1 + 1), ← Nat.add_assoc, h]
    rfl

theorem wires_length (B : Str) (cs : List FormPart) : cs.length ≤ (cs.flatMap (FormPart.wire B)).length := by
  induction cs with
  | nil => simp
  | cons c cs ih =>
    rw [List.flatMap_cons, List.length_append, List.length_cons]
    have : 1 ≤ (FormPart.wire B c).length := by simp [FormPart.wire]
    omega

/-! ### gathering -/

theorem set_same' {κ ν : Type} [DecidableEq κ] (m : Map κ ν) (k : κ) (v : ν) : Map.set m k v k = some v := by simp [Map.set]

theorem set_other' {κ ν : Type} [DecidableEq κ] (m : Map κ ν) {k k' : κ} (v : ν) (h : k' ≠ k) : Map.set m k v k' = m k' := by simp [Map.set, h]

theorem raw_disposition (p : FormPart) : p.header.get b!"Content-Disposition" = p.disp := by
  have h1 : canonKey b!"Content-Disposition" = b!"Content-Disposition" := by decide +kernel
  have h2 : canonKey b!"Content-Type" = b!"Content-Type" := by decide +kernel
  cases p with
  | text name v =>
    unfold FormPart.header Header.get Header.add
    dsimp only
    rw [set_same']
    rfl
  | file name filename t d =>
    unfold FormPart.header Header.get Header.add
    dsimp only
    rw [h1, h2, set_other' _ _ (by decide), set_same']
    rfl

theorem raw_plain (E : MimeEnv) (p : FormPart) : (rawOf p).content E = some p.bytes := by
  have h1 : canonKey b!"Content-Disposition" = b!"Content-Disposition" := by decide +kernel
  have h2 : canonKey b!"Content-Type" = b!"Content-Type" := by decide +kernel
  have h3 : canonKey b!"Content-Transfer-Encoding" = b!"Content-Transfer-Encoding" := by decide +kernel
  have : p.header.get b!"Content-Transfer-Encoding" = [] := by
    cases p with
    | text name v =>
      unfold FormPart.header Header.get Header.add
      dsimp only
      rw [h1, h3, set_other' _ _ (by decide)]
      rfl
    | file name filename t d =>
      unfold FormPart.header Header.get Header.add
      dsimp only
      rw [h1, h2, h3, set_other' _ _ (by decide), set_other' _ _ (by decide)]
      rfl
  unfold RawPart.content rawOf
  rw [this, if_neg (by decide)]

theorem raw_type {B name filename type d : Str} (h : (FormPart.file name filename type d).Sendable B) :
    (FormPart.file name filename type d).header.get b!"Content-Type" = type := by
  have h1 : canonKey b!"Content-Disposition" = b!"Content-Disposition" := by decide +kernel
  have h2 : canonKey b!"Content-Type" = b!"Content-Type" := by decide +kernel
  have e : (cutBlank (32 :: type)).dropWhile blankB = type := by
    obtain ⟨_, _, a1, a2, a3, a4⟩ := h
    cases ht : type with
    | nil => rfl
    | cons c cs =>
      rw [← ht]
      obtain ⟨i, l, hl⟩ : ∃ i l, type = i ++ [l] := ⟨type.dropLast, type.getLast (by rw [ht]; simp), (List.dropLast_concat_getLast _).symm⟩
      have hb : blankB l = false := by
        rw [hl] at a3 a4
        simp only [List.getLast?_append, List.getLast?_singleton, Option.some_or, ne_eq, Option.some.injEq] at a3 a4
        simp [blankB, a3, a4]
      have e1 : cutBlank (32 :: type) = 32 :: type := by
        rw [hl, ← List.cons_append]
        exact cutBlank_end hb
      rw [e1]
      have hc : blankB c = false := by
        rw [ht] at a1 a2
        simp only [List.head?_cons, ne_eq, Option.some.injEq] at a1 a2
        simp [blankB, a1, a2]
      rw [ht]
      simp [show blankB 32 = true from rfl, hc]
  unfold FormPart.header Header.get Header.add
  dsimp only
  rw [h1, h2, set_same', set_other' _ _ (by decide), e]
  rfl

theorem disposition_text (E : MimeEnv) {name v : Str} (h : NameKept name) :
    (rawOf (.text name v)).disposition E = ⟨b!"form-data", [(b!"name", name)], false⟩ := by
  unfold RawPart.disposition rawOf
  rw [raw_disposition]
  unfold FormPart.disp
  rw [disposition_name, formName_plain h.2.1]
  have hq : quotedTail (name ++ b!"\"") = some (name, []) := quotedTail_kept h.2.1 h.2.2 []
  rw [mediaParams_one E _ _ _ b!"name" name [] [] 59 rfl (by decide) (by rw [consume_name, hq]; rfl) (by decide) (by simp)]
  exact mediaParams_end ..

theorem disposition_file (E : MimeEnv) {name filename t d : Str} (h : NameKept name) (hf : NameKept filename) :
    (rawOf (.file name filename t d)).disposition E = ⟨b!"form-data", [(b!"name", name), (b!"filename", filename)], false⟩ := by
  unfold RawPart.disposition rawOf
  rw [raw_disposition]
  unfold FormPart.disp
  rw [disposition_name, formName_plain h.2.1, formName_plain hf.2.1]
  have e : name ++ b!"\"; filename=\"" ++ filename ++ b!"\"" = name ++ 34 :: (b!"; filename=\"" ++ (filename ++ b!"\"")) := by simp
  have hq : quotedTail (name ++ b!"\"; filename=\"" ++ filename ++ b!"\"") = some (name, b!"; filename=\"" ++ (filename ++ b!"\"")) := by
    rw [e]; exact quotedTail_kept h.2.1 h.2.2 _
  have hq2 : quotedTail (filename ++ b!"\"") = some (filename, []) := quotedTail_kept hf.2.1 hf.2.2 []
  rw [mediaParams_one E _ _ _ b!"name" name _ [] 59 rfl (by decide) (by rw [consume_name, hq]; rfl) (by decide) (by simp)]
  rw [mediaParams_one E _ _ _ b!"filename" filename [] _ 59 rfl (by decide) (by rw [consume_filename, hq2]; rfl) (by decide) (by simp)]
  exact mediaParams_end ..

end Water
