import Verif.Lemmas.Dispatch
/- Helper lemmas: literal routes, plain paths, idempotence of the gin-style translation. -/
namespace Water
open Spec
variable {α : Type}

/-! ### trimming twice -/

/-- no member of `encs` is a prefix of `s` -/
def NoEnc (encs : List Str) (s : Str) : Prop := ∀ e ∈ encs, ¬ e <+: s

theorem stripF_noEnc {encs : List Str} (hne : ∀ e ∈ encs, e ≠ []) (f : Nat) (s : Str) (hf : s.length ≤ f) :
    NoEnc encs (stripF encs f s) := by
  induction f generalizing s with
  | zero =>
    have : s = [] := List.length_eq_zero_iff.1 (by omega)
    subst this
    intro e he hp
    simp only [stripF] at hp
    exact hne e he (List.prefix_nil.1 hp)
  | succ n ih =>
    unfold stripF
    cases hfnd : encs.find? (fun e => e.isPrefixOf s) with
    | none =>
      intro e he hp
      have := List.find?_eq_none.1 hfnd e he
      simp at this
      exact this hp
    | some e =>
      simp only []
      have he := List.mem_of_find?_eq_some hfnd
      apply ih
      have : 0 < e.length := List.length_pos_iff.2 (hne e he)
      simp; omega

theorem stripF_of_noEnc {encs : List Str} {f : Nat} {s : Str} (h : NoEnc encs s) : stripF encs f s = s := by
  cases f with
  | zero => rfl
  | succ n =>
    unfold stripF
    have : encs.find? (fun e => e.isPrefixOf s) = none := by
      rw [List.find?_eq_none]; intro e he; simp; exact h e he
    rw [this]

theorem spaceEnc_ne : ∀ e ∈ spaceEnc, e ≠ [] := by decide
theorem spaceEncRev_ne : ∀ e ∈ spaceEnc.map List.reverse, e ≠ [] := by decide

theorem trimLeft_noEnc (s : Str) : NoEnc spaceEnc (trimLeft s) := stripF_noEnc spaceEnc_ne _ _ (Nat.le_refl _)

theorem trimRight_idem (s : Str) : trimRight (trimRight s) = trimRight s := by
  have h := stripF_noEnc spaceEncRev_ne s.length s.reverse (by simp)
  unfold trimRight
  rw [List.reverse_reverse, stripF_of_noEnc h]

theorem trimSpace_idem (s : Str) : trimSpace (trimSpace s) = trimSpace s := by
  unfold trimSpace
  have h : trimLeft (trimRight (trimLeft s)) = trimRight (trimLeft s) := by
    have h1 : NoEnc spaceEnc (trimRight (trimLeft s)) :=
      fun e he hp => trimLeft_noEnc s e he (hp.trans (trimRight_prefix _))
    unfold trimLeft at h1 ⊢
    exact stripF_of_noEnc h1
  rw [h, trimRight_idem]

theorem ginSeg_idem (v : Str) : ginSeg (ginSeg v) = ginSeg v := by
  by_cases h1 : v.head? = some colon
  · have : ginSeg v = [lt] ++ trimSpace v.tail ++ [gt] := by unfold ginSeg; rw [if_pos h1]
    rw [this]
    exact ginSeg_plain (by simp; decide) (by simp; decide)
  · by_cases h2 : v.head? = some star
    · have : ginSeg v = trimSpace v := by unfold ginSeg; rw [if_neg h1, if_pos h2]
      rw [this]
      have hh : (trimSpace v).head? = some star := trimSpace_head (by unfold NonSpace; decide) h2
      unfold ginSeg
      rw [if_neg (by rw [hh]; decide), if_pos hh, trimSpace_idem]
    · rw [ginSeg_plain h1 h2, ginSeg_plain h1 h2]

theorem head_variantUri {uri : Str} (h : uri.head? = some slash) : (variantUri uri).head? = some slash := by
  have h1 := splitB_variantUri h
  obtain ⟨l, hl⟩ := splitB_slash_head h
  rw [hl] at h1
  have hne : l ≠ [] := by
    rintro rfl
    have := splitB_injective (hl.trans (show [[]] = splitB slash [] from rfl))
    rw [this] at h; cases h
  have h2 : variantUri uri = join [slash] ([] :: l.map ginSeg) := by
    rw [← join_splitB slash (variantUri uri), h1]
    simp [ginSeg]
  rw [h2, join_cons_ne (by simpa using hne)]
  rfl

theorem variantUri_idem {uri : Str} (h : uri.head? = some slash) : variantUri (variantUri uri) = variantUri uri := by
  apply splitB_injective (c := slash)
  rw [splitB_variantUri (head_variantUri h), splitB_variantUri h, List.map_map]
  apply List.map_congr_left
  intro x _
  exact ginSeg_idem x

/-! ### plain paths -/

theorem splitB_cons_slash (t : Str) : splitB slash (slash :: t) = [] :: splitB slash t := by
  simp [splitB]

theorem plain_cases {uri : Str} (h : Plain uri) : uri = [slash] ∨
    ∃ t, uri = slash :: t ∧ uri.getLast? ≠ some slash ∧ ∀ s ∈ splitB slash t, s ≠ [] := by
  rcases h with h | ⟨l, hne, h1, h2⟩
  · exact .inl h
  · right
    cases uri with
    | nil => simp [splitB] at h1; exact absurd h1 hne
    | cons c t =>
      have hc : c = slash := by
        unfold splitB at h1
        split at h1
        · rename_i hc; simpa using hc
        · split at h1 <;> simp at h1
      subst hc
      rw [splitB_cons_slash] at h1
      injection h1 with _ h1
      subst h1
      refine ⟨t, rfl, ?_, h2⟩
      intro hl
      have hs := splitB_trimSuffix (slash :: t)
      rcases List.eq_nil_or_concat t with rfl | ⟨u, c, rfl⟩
      · exact h2 [] (by simp [splitB]) rfl
      · have : c = slash := by
          rw [List.concat_eq_append, ← List.cons_append, List.getLast?_append] at hl
          simpa using hl
        subst this
        rw [List.concat_eq_append] at h2
        rw [splitB_concat_slash] at h2
        exact h2 [] (by simp) rfl

theorem pathSegs_plain {t : Str} (h : (slash :: t).getLast? ≠ some slash) :
    pathSegs (slash :: t) = splitB slash t := by
  unfold pathSegs stripSlashes
  simp only [List.head?_cons, if_true, List.tail_cons]
  have : t.getLast? ≠ some slash := by
    intro ht
    cases t with
    | nil => simp at ht
    | cons x xs => rw [List.getLast?_cons_cons] at h; exact h ht
  rw [if_neg this]

/-- On plain paths the segments of a registration are the translated segments of the path. -/
theorem routeSegs_plain {uri : Str} (h : Plain uri) : routeSegs uri = (pathSegs uri).map ginSeg := by
  rcases plain_cases h with rfl | ⟨t, rfl, h1, h2⟩
  · decide
  · rw [pathSegs_plain h1]
    unfold routeSegs
    simp only [h1, if_false]
    rw [splitB_cons_slash]
    cases hs : splitB slash t with
    | nil => exact absurd hs (splitB_ne_nil _ _)
    | cons x xs =>
      rw [hs] at h2
      simp only [List.map_cons, skipEmpty]
      rw [if_pos (by simp [ginSeg]), skipEmpty_of_nonempty]
      intro y hy
      obtain ⟨z, hz, rfl⟩ := List.mem_map.1 hy
      intro h0
      exact h2 z (by simp [hz]) (ginSeg_eq_nil.1 h0)

theorem plain_ext {u v : Str} (hu : Plain u) (hv : Plain v) (h : pathSegs u = pathSegs v) : u = v := by
  rcases plain_cases hu with rfl | ⟨t, rfl, h1, h2⟩
  · rcases plain_cases hv with rfl | ⟨t', rfl, h1', h2'⟩
    · rfl
    · rw [pathSegs_plain h1'] at h
      exact absurd rfl (h2' [] (by rw [← h]; decide))
  · rcases plain_cases hv with rfl | ⟨t', rfl, h1', h2'⟩
    · rw [pathSegs_plain h1] at h
      exact absurd rfl (h2 [] (by rw [h]; decide))
    · rw [pathSegs_plain h1, pathSegs_plain h1'] at h
      rw [splitB_injective h]

/-! ### literal segments -/

theorem kind_literal {p : Str} (h : kind p = .literal) : p.head? ≠ some star ∧ lt ∉ p := by
  unfold kind at h
  repeat' split at h
  all_goals first | cases h | skip
  rename_i h1 h2
  exact ⟨h1, h2⟩

theorem ginSeg_literal {p : Str} (h : kind (ginSeg p) = .literal) : ginSeg p = p := by
  obtain ⟨h1, h2⟩ := kind_literal h
  by_cases hc : p.head? = some colon
  · have : ginSeg p = [lt] ++ trimSpace p.tail ++ [gt] := by unfold ginSeg; rw [if_pos hc]
    rw [this] at h2; simp at h2
  · by_cases hs : p.head? = some star
    · have : ginSeg p = trimSpace p := by unfold ginSeg; rw [if_neg hc, if_pos hs]
      rw [this, trimSpace_head (by unfold NonSpace; decide) hs] at h1
      exact absurd rfl h1
    · exact ginSeg_plain hc hs

theorem accepts_at {rx : Regex} {c : List Str} {a b : Str} {ra rb : List Str}
    (h : Accepts rx (c ++ a :: ra) (c ++ b :: rb)) (hk : kind a = .literal) : a = b := by
  induction c with
  | nil =>
    simp only [List.nil_append] at h
    cases h with
    | last h => simpa [acceptsSeg, hk] using h
    | rest h => rw [hk] at h; cases h
    | cons h _ => simpa [acceptsSeg, hk] using h
  | cons p c ih =>
    cases c with
    | nil =>
      simp only [List.cons_append, List.nil_append] at h ih
      cases h with
      | cons _ h => exact ih h
    | cons q c =>
      simp only [List.cons_append] at h ih
      cases h with
      | cons _ h => exact ih h

theorem accepts_refl {rx : Regex} {r : List Str} (hne : r ≠ []) (h : ∀ p ∈ r, kind p = .literal) : Accepts rx r r := by
  induction r with
  | nil => exact absurd rfl hne
  | cons p r ih =>
    have hp := h p (by simp)
    have ha : acceptsSeg rx p p := by simp [acceptsSeg, hp]
    cases r with
    | nil => exact .last ha
    | cons q r => exact .cons ha (ih (by simp) (fun x hx => h x (by simp [hx])))

theorem accepts_literal {rx : Regex} {r ss : List Str} (h : Accepts rx r ss) (hl : ∀ p ∈ r, kind p = .literal) :
    r = ss := by
  induction h with
  | last h => have := hl _ List.mem_cons_self; simpa [acceptsSeg, this] using h
  | rest h => have := hl _ List.mem_cons_self; rw [this] at h; cases h
  | cons h _ ih =>
    have := hl _ List.mem_cons_self
    rw [ih (fun p hp => hl p (by simp [hp]))]
    simpa [acceptsSeg, this] using h

/-- no accepting pattern beats a literal one on its own segments -/
theorem wins_literal {rx : Regex} {tbl : List (Entry α)} {k : Nat} {r ss : List Str} (ha : Accepts rx r ss)
    (hl : ∀ p ∈ ss, kind p = .literal) (hw : Wins tbl k r ss) : False := by
  obtain ⟨c, a, ra, b, rb, ⟨rfl, rfl, hd⟩, hw⟩ := hw
  have hb := hl b (by simp)
  have h0 : ∀ x : Str, (kind x).rank = 0 → kind x = .literal := by
    intro x hx; cases hk : kind x <;> rw [hk] at hx <;> simp [Kind.rank] at hx
  have hr : (kind b).rank = 0 := by rw [hb]; rfl
  rcases hw with ⟨h1, h2, h3⟩ | ⟨h1, h2, h3, _⟩ | ⟨h1, h2, _, h3⟩ | ⟨_, _, _, _, h3, _⟩
  · have hab : a = b := accepts_at ha (h0 a (by omega))
    rcases hd with hd | ⟨hd, _⟩ | ⟨_, hd⟩
    · exact hd hab
    · exact h1 hd
    · exact h2 hd
  · rw [hb] at h3; cases h3
  · have hab : a = b := accepts_at ha (h0 a (by omega))
    rcases hd with hd | ⟨_, hd⟩ | ⟨hd, _⟩
    · exact hd hab
    · exact hd h2
    · exact hd h1
  · rw [hb] at h3; cases h3

/-- On its own segments a literal pattern is what gets selected. -/
theorem selected_literal {rx : Regex} {tbl : List (Entry α)} {r ss : List Str} (ha : Accepts rx r ss)
    (hmax : ∀ x ∈ tbl, Accepts rx x.segs ss → x.segs = r ∨ Wins tbl ss.length r x.segs)
    {x : Entry α} (hx : x ∈ tbl) (hs : x.segs = ss) (hl : ∀ p ∈ ss, kind p = .literal) : r = ss := by
  have hxa : Accepts rx x.segs ss := by rw [hs]; exact accepts_refl (accepts_ne_nil ha).2 hl
  rcases hmax x hx hxa with h | h
  · rw [← h, hs]
  · rw [hs] at h; exact (wins_literal ha hl h).elim

end Water
