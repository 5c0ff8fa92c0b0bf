import Verif.Model.HeaderBind
import Verif.Spec.HeaderBind
import Verif.Lemmas.Text
import Verif.Lemmas.Binding
import Verif.Lemmas.Mapping
import Verif.Lemmas.JsonBind
namespace Water
open Spec

theorem at_append (f : Form) (k : Str) (vs : List Str) (x : Str) :
    (f.append k vs).at x = if k = x then some ((f.at x).getD [] ++ vs) else f.at x := by
  induction f with
  | nil => by_cases h : k = x <;> simp [Form.append, Form.at, h]
  | cons e f ih =>
    obtain ⟨k', vs'⟩ := e
    unfold Form.append
    by_cases hk : k' = k
    · subst hk
      rw [if_pos rfl]
      by_cases h : k' = x <;> simp [Form.at, h]
    · rw [if_neg hk]
      by_cases h : k' = x
      · subst h
        simp [Form.at, Ne.symm hk]
      · have e1 : ∀ (ws : List Str) (g : Form), Form.at ((k', ws) :: g) x = g.at x := by
          intro ws g; simp [Form.at, h]
        rw [e1, e1, ih]

theorem readHeader_from (n : Str) {lines : List (Str × Str)} {vs : List Str} (h : SentAs n lines vs) (f : Form) :
    (lines.foldl (fun f l => f.append (canonKey l.1) [l.2]) f).at (canonKey n) =
      if vs = [] then f.at (canonKey n) else some ((f.at (canonKey n)).getD [] ++ vs) := by
  induction h generalizing f with
  | nil => rfl
  | @same k v ls vs hk _ ih =>
    rw [List.foldl_cons, ih, at_append, if_pos (canonKey_eq.2 hk)]
    by_cases hv : vs = []
    · simp [hv]
    · simp [hv]
  | @other k v ls vs hk _ ih =>
    rw [List.foldl_cons, ih, at_append, if_neg (fun e => hk (canonKey_eq.1 e))]

theorem readHeader_at {n : Str} {lines : List (Str × Str)} {vs : List Str} (h : SentAs n lines vs) :
    (readHeader lines).at (canonKey n) = if vs = [] then none else some vs := by
  rw [readHeader, readHeader_from n h]
  simp [Form.at]

theorem sentAs_exists (n : Str) (lines : List (Str × Str)) : ∃ vs, SentAs n lines vs := by
  induction lines with
  | nil => exact ⟨_, .nil⟩
  | cons l ls ih =>
    obtain ⟨k, v⟩ := l
    obtain ⟨vs, h⟩ := ih
    by_cases hk : canonKey k = canonKey n
    · exact ⟨_, .same (canonKey_eq.1 hk) h⟩
    · exact ⟨_, .other (fun e => hk (canonKey_eq.2 e)) h⟩

theorem readHeader_same {ls ls' : List (Str × Str)} (h : SameLines ls ls') : readHeader ls = readHeader ls' := by
  unfold readHeader
  generalize ([] : Form) = f
  induction h generalizing f with
  | nil => rfl
  | cons hk _ ih => rw [List.foldl_cons, List.foldl_cons, ih, canonKey_eq.2 hk]

theorem tagged_head {t a : Str} (h : Tagged t a) : (head t 44).1 = a := by
  obtain ⟨h1, rest, h2, h3 | h3⟩ := h
  · rw [h2, h3, List.append_nil, head_plain h1]
  · obtain ⟨r, e⟩ : ∃ r, rest = 44 :: r := by
      cases rest with
      | nil => cases h3
      | cons c r => cases h3; exact ⟨r, rfl⟩
    rw [h2, e, head_cut h1]

theorem bindName_header {fd : Field} {n : Str} (h : NamesHeader fd n) : bindName fd b!"header" = some (canonKey n) := by
  obtain ⟨h1, h2, h3⟩ := h
  unfold bindName tagParts
  have e := tagged_head h1
  rw [head_eq] at e
  rw [(splitB_head 44 (fd.tag b!"header")).1]
  simp only at e
  dsimp only
  rw [e]
  refine (if_neg ?_).trans ?_
  · rintro (e | e)
    · exact h2 e
    · exact h3 e
  · exact if_pos rfl

theorem lookupName_header {fd : Field} {n : Str} (h : NamesHeader fd n) (hd : fd.tag b!"header" ≠ b!"-") : Spec.lookupName fd b!"header" = some n := by
  obtain ⟨h1, h2, h3⟩ := h
  rw [oldKey_eq hd]
  have e : oldKey fd b!"header" = n := by
    unfold oldKey
    rw [tagged_head h1]
    exact if_neg h2
  rw [e]
  exact if_neg h2

theorem tagged_dash {fd : Field} {n : Str} (h : NamesHeader fd n) : fd.tag b!"header" ≠ b!"-" := by
  obtain ⟨h1, h2, h3⟩ := h
  intro e
  have := tagged_head h1
  rw [e] at this
  exact h3 (by rw [← this]; decide)

theorem sameHeader_comma {a b : Str} (h : SameHeader a b) (ha : 44 ∉ a) : 44 ∉ b := by
  rcases h with h | ⟨_, h, _⟩
  · exact h ▸ ha
  · intro hb
    exact absurd (h _ hb) (by decide)

theorem canonKey_nil {s : Str} (h : canonKey s = []) : s = [] := by
  have : canonKey s = canonKey [] := h
  rcases canonKey_eq.1 this with h | ⟨_, _, h⟩
  · exact h
  · cases h; rfl

/-- what two spellings of a tag have in common -/
theorem respelled_parts {f g : Field} (h : Respelled f g) :
    canonKey (head (f.tag b!"header") 44).1 = canonKey (head (g.tag b!"header") 44).1 ∧
    (head (f.tag b!"header") 44).2 = (head (g.tag b!"header") 44).2 ∧
    (f.tag b!"header" = b!"-" ↔ g.tag b!"header" = b!"-") := by
  obtain ⟨a, b, rest, h1, h2, h3, h4, h5⟩ := h.header
  have hb := sameHeader_comma h2 h1
  have hc := canonKey_eq.2 h2
  rw [h4, h5]
  have hd : ∀ {a b : Str} (c : canonKey a = canonKey b), a ++ rest = b!"-" → b ++ rest = b!"-" := by
    intro a b c e
    cases a with
    | nil =>
      have : b = [] := canonKey_nil c.symm
      rw [this]; exact e
    | cons x l =>
      have e1 : x = 45 ∧ l ++ rest = [] := by
        have : x :: (l ++ rest) = [45] := e
        simpa using this
      have e2 : l = [] ∧ rest = [] := by simpa using e1.2
      rw [e1.1, e2.1] at c
      have : canonKey b = b!"-" := by rw [← c]; decide
      rw [canonKey_dash this, e2.2]; rfl
  refine ⟨?_, ?_, hd hc, hd hc.symm⟩
  · rw [tagged_head ⟨h1, rest, rfl, h3⟩, tagged_head ⟨hb, rest, rfl, h3⟩, hc]
  · rcases h3 with h3 | h3
    · rw [h3, List.append_nil, List.append_nil, head_plain h1, head_plain hb]
    · obtain ⟨r, e⟩ : ∃ r, rest = 44 :: r := by
        cases rest with
        | nil => cases h3
        | cons c r => cases h3; exact ⟨r, rfl⟩
      rw [e, head_cut h1, head_cut hb]

theorem respelled_parse {f g : Field} (h : Respelled f g) : parseFormName g b!"header" = parseFormName f b!"header" := by
  obtain ⟨h1, h2, _⟩ := respelled_parts h
  unfold parseFormName
  rw [h.other b!"time_format" (by decide), h.other b!"time_utc" (by decide), h.other b!"time_location" (by decide)]
  generalize hx : head (f.tag b!"header") 44 = x at h1 h2
  generalize hy : head (g.tag b!"header") 44 = y at h1 h2
  obtain ⟨a, r⟩ := x
  obtain ⟨b, r'⟩ := y
  simp only at h1 h2
  subst h2
  dsimp only
  have e : (if b!"header" = b!"header" ∧ (if b = [] then b!"-" else b) ≠ b!"-" then canonKey (if b = [] then b!"-" else b) else (if b = [] then b!"-" else b)) =
      (if b!"header" = b!"header" ∧ (if a = [] then b!"-" else a) ≠ b!"-" then canonKey (if a = [] then b!"-" else a) else (if a = [] then b!"-" else a)) := by
    by_cases ha : a = []
    · have hb : b = [] := canonKey_nil (by rw [← h1, ha]; rfl)
      rw [ha, hb]
    · have hb : b ≠ [] := fun e => ha (canonKey_nil (by rw [h1, e]; rfl))
      rw [if_neg ha, if_neg hb]
      by_cases hd : a = b!"-"
      · have : b = b!"-" := canonKey_dash (by rw [← h1, hd]; decide)
        rw [hd, this]
      · have hd' : b ≠ b!"-" := fun e => hd (canonKey_dash (by rw [h1, e]; decide))
        rw [if_pos ⟨rfl, hd'⟩, if_pos ⟨rfl, hd⟩, h1]
  rw [e]

/-! ### Bind -/

variable {o : BOracle}

theorem respelled_try {f g : Field} (h : Respelled f g) (form : Form) (files : FormFiles) (t : Ty) (v : Val) :
    tryToSetValue2 o form files b!"header" g t v = tryToSetValue2 o form files b!"header" f t v := by
  unfold tryToSetValue2
  rw [respelled_parse h, h.exported]

theorem respelled_field {f g : Field} (h : Respelled f g) (form : Form) (files : FormFiles) (walk : Ty → Val → BOut × Val) (v : Val) :
    mapField o form files b!"header" walk g v = mapField o form files b!"header" walk f v := by
  have ha : ∀ v, allocates g v = allocates f v := by intro v; unfold allocates; rw [h.ty, h.anonymous]
  have hd : ∀ t, descends g t = descends f t := by intro t; unfold descends; rw [h.anonymous]
  unfold mapField
  simp only [ha, hd, h.ty, h.exported, h.anonymous, respelled_try h]

theorem respelled_fields {fs gs : List Field} (h : RespelledAll fs gs) {step : Field → Val → BOut × Val}
    (hs : ∀ f g v, Respelled f g → step g v = step f v) (vs : List Val) : mapFields step gs vs = mapFields step fs vs := by
  induction h generalizing vs with
  | nil => rfl
  | cons hfg _ ih =>
    cases vs with
    | nil => rfl
    | cons v vs =>
      unfold mapFields
      rw [hs _ _ _ hfg, ih]

theorem respelled_length {fs gs : List Field} (h : RespelledAll fs gs) : gs.length = fs.length := by
  induction h with
  | nil => rfl
  | cons _ _ ih => simp [ih]

theorem respelled_map {E E' : TyEnv} (h : ∀ n, RespelledAll (E n) (E' n)) (form : Form) (files : FormFiles) (fuel : Nat) :
    mapForm o E' form files b!"header" fuel = mapForm o E form files b!"header" fuel := by
  induction fuel with
  | zero => rfl
  | succ k ih =>
    funext t v
    unfold mapForm
    rw [ih]
    dsimp only
    have hf : ∀ n vs, mapFields (mapField o form files b!"header" (mapForm o E form files b!"header" k)) (E' n) vs =
        mapFields (mapField o form files b!"header" (mapForm o E form files b!"header" k)) (E n) vs :=
      fun n vs => respelled_fields (h n) (fun f g v hfg => respelled_field hfg form files _ v) vs
    simp only [hf, respelled_length (h _)]

/-! ### Bind2 -/

theorem respelled_proper {f g : Field} (h : Respelled f g) : setProper o g = setProper o f := by
  funext t s v
  unfold setProper setTimeField
  rw [h.other b!"time_format" (by decide), h.other b!"time_utc" (by decide), h.other b!"time_location" (by decide)]

theorem respelled_array {f g : Field} (h : Respelled f g) (el : Ty) (ss : List Str) (vs : List Val) :
    setArray o g el ss vs = setArray o f el ss vs := by
  induction ss generalizing vs with
  | nil => cases vs <;> rfl
  | cons s ss ih =>
    cases vs with
    | nil => rfl
    | cons v vs =>
      unfold setArray
      rw [respelled_proper h, ih]

theorem respelled_values {f g : Field} (h : Respelled f g) (t : Ty) (vs : List Str) (v : Val) : setValues o g t vs v = setValues o f t vs v := by
  unfold setValues
  simp only [respelled_array h, respelled_proper h]

theorem respelled_hidden {f g : Field} (h : Respelled f g) (t : Ty) (vs : List Str) (v : Val) : hiddenValues o g t vs v = hiddenValues o f t vs v := by
  have hp : hiddenProper o g = hiddenProper o f := by
    funext t s
    unfold hiddenProper
    rw [respelled_proper h]
  unfold hiddenValues
  simp only [respelled_values h, hp]

theorem respelled_key {f g : Field} (h : Respelled f g) : canonKey (oldKey g b!"header") = canonKey (oldKey f b!"header") := by
  obtain ⟨h1, _, _⟩ := respelled_parts h
  unfold oldKey
  dsimp only
  generalize (head (f.tag b!"header") 44).1 = a at h1
  generalize (head (g.tag b!"header") 44).1 = b at h1
  by_cases ha : a = []
  · have hb : b = [] := canonKey_nil (by rw [← h1, ha]; rfl)
    rw [if_pos ha, if_pos hb, h.name]
  · have hb : b ≠ [] := fun e => ha (canonKey_nil (by rw [h1, e]; rfl))
    rw [if_neg ha, if_neg hb, h1]

theorem respelled_try2 {f g : Field} (h : Respelled f g) (form : Form) (t : Ty) (v : Val) :
    tryToSetValue o ⟨form, [], true⟩ b!"header" g t v = tryToSetValue o ⟨form, [], true⟩ b!"header" f t v := by
  have hk := respelled_key h
  have hd : oldDefault g b!"header" = oldDefault f b!"header" := by
    unfold oldDefault
    rw [(respelled_parts h).2.1]
  have hn : (oldKey g b!"header" = []) ↔ (oldKey f b!"header" = []) := by
    constructor
    · intro e; rw [e] at hk; exact canonKey_nil hk.symm
    · intro e; rw [e] at hk; exact canonKey_nil hk
  unfold tryToSetValue
  by_cases he : oldKey f b!"header" = []
  · rw [if_pos he, if_pos (hn.2 he)]
  · rw [if_neg he, if_neg (fun e => he (hn.1 e))]
    unfold trySource
    have hf : ∀ k, FormFiles.at [] k = none := fun _ => rfl
    simp only [hf, if_pos]
    unfold setByForm
    rw [hk, hd, h.exported]
    simp only [respelled_values h, respelled_hidden h]

theorem respelled_shown {f g : Field} (h : Respelled f g) : Respelled (shown f) (shown g) :=
  ⟨h.name, rfl, h.anonymous, h.ty, h.other, h.header⟩

theorem respelled_loop {fs gs : List Field} (h : RespelledAll fs gs) {step step' : Field → Val → BOut × Bool × Val}
    (hs : ∀ f g v, Respelled f g → step' g v = step f v) (vs : List Val) : mapLoop step' gs vs = mapLoop step fs vs := by
  induction h generalizing vs with
  | nil => rfl
  | cons hfg _ ih =>
    cases vs with
    | nil => rfl
    | cons v vs =>
      unfold mapLoop
      rw [hs _ _ _ hfg, ih, hfg.exported, hfg.anonymous]

theorem respelled_mapping {E E' : TyEnv} (h : ∀ n, RespelledAll (E n) (E' n)) (form : Form) (fuel : Nat) :
    ∀ (f g : Field) (t : Ty) (v : Val), Respelled f g →
      mapping o E' ⟨form, [], true⟩ b!"header" fuel t g v = mapping o E ⟨form, [], true⟩ b!"header" fuel t f v := by
  induction fuel with
  | zero => intro f g t v _; rfl
  | succ k ih =>
    intro f g t v hfg
    have hpt : ∀ t', mapPointer g v (fun fd x => mapping o E' ⟨form, [], true⟩ b!"header" k t' fd x) =
        mapPointer f v (fun fd x => mapping o E ⟨form, [], true⟩ b!"header" k t' fd x) := by
      intro t'
      unfold mapPointer
      simp only [ih f g t' _ hfg, ih (shown f) (shown g) t' _ (respelled_shown hfg), hfg.exported]
    have hst : ∀ t' x, mapStruct E' (fun fd x => mapping o E' ⟨form, [], true⟩ b!"header" k fd.ty fd x) t' x =
        mapStruct E (fun fd x => mapping o E ⟨form, [], true⟩ b!"header" k fd.ty fd x) t' x := by
      intro t' x
      unfold mapStruct
      have hl : ∀ n vs, mapLoop (fun fd x => mapping o E' ⟨form, [], true⟩ b!"header" k fd.ty fd x) (E' n) vs =
          mapLoop (fun fd x => mapping o E ⟨form, [], true⟩ b!"header" k fd.ty fd x) (E n) vs :=
        fun n vs => respelled_loop (h n) (fun f g v hh => by rw [hh.ty]; exact ih f g f.ty v hh) vs
      simp only [hl, respelled_length (h _)]
    unfold mapping
    by_cases hd : f.tag b!"header" = b!"-"
    · rw [if_pos hd, if_pos ((respelled_parts hfg).2.2.1 hd)]
    · rw [if_neg hd, if_neg (fun e => hd ((respelled_parts hfg).2.2.2 e))]
      simp only [hpt, hst, hfg.anonymous, respelled_try2 hfg]

end Water
