import Verif.Spec.Files
import Verif.Lemmas.Literal
/- Lemmas on paths, prefixes and hexadecimal text. -/
namespace Water
open Spec

/-! ### Elements of a path -/

theorem splitB_append_any (c : UInt8) (a b : Str) : splitB c (a ++ c :: b) = splitB c a ++ splitB c b := by
  induction a with
  | nil => simp [splitB]
  | cons x a ih =>
    by_cases hx : x = c
    · subst hx; simp [splitB, ih]
    · simp only [List.cons_append, splitB, beq_iff_eq, hx, if_false, ih]
      cases h : splitB c a with
      | nil => exact absurd h (splitB_ne_nil c a)
      | cons y ys => rfl

theorem elems_append (a b : Str) : elems (a ++ slash :: b) = elems a ++ elems b := by
  simp [elems, splitB_append_any]

theorem elems_nil : elems [] = [] := by decide

theorem elems_cons_slash (p : Str) : elems (slash :: p) = elems p := by
  have := elems_append [] p
  rw [elems_nil] at this
  exact this

theorem trimRightSlashes_eq (s : Str) : ∃ k, s = trimRightSlashes s ++ List.replicate k slash := by
  unfold trimRightSlashes
  refine ⟨(s.reverse.takeWhile (· == slash)).length, ?_⟩
  have h := List.takeWhile_append_dropWhile (p := (· == slash)) (l := s.reverse)
  have h2 : s.reverse.takeWhile (· == slash) = List.replicate (s.reverse.takeWhile (· == slash)).length slash := by
    rw [List.eq_replicate_iff]
    refine ⟨rfl, fun b hb => ?_⟩
    have := List.all_takeWhile (p := (· == slash)) (l := s.reverse)
    rw [List.all_eq_true] at this
    simpa using this b hb
  calc s = s.reverse.reverse := by simp
    _ = (s.reverse.takeWhile (· == slash) ++ s.reverse.dropWhile (· == slash)).reverse := by rw [h]
    _ = _ := by rw [List.reverse_append]; congr 1; rw [h2]; simp

theorem elems_replicate (t : Str) (k : Nat) : elems (t ++ List.replicate k slash) = elems t := by
  induction k with
  | zero => simp
  | succ k ih =>
    rw [List.replicate_succ', ← List.append_assoc, elems_append, ih, elems_nil, List.append_nil]

theorem elems_trim (s : Str) : elems (trimRightSlashes s) = elems s := by
  obtain ⟨k, hk⟩ := trimRightSlashes_eq s
  conv => rhs; rw [hk]
  rw [elems_replicate]

theorem elems_normPrefix (p : Str) : elems (normPrefix p) = elems p := by
  unfold normPrefix
  split
  · rfl
  · rw [elems_trim]
    split
    · exact elems_cons_slash p
    · rfl

theorem trimRightSlashes_head {s : Str} (h : s.head? = some slash) :
    trimRightSlashes s = [] ∨ (trimRightSlashes s).head? = some slash := by
  obtain ⟨k, hk⟩ := trimRightSlashes_eq s
  cases ht : trimRightSlashes s with
  | nil => exact .inl rfl
  | cons c t => rw [ht] at hk; rw [hk] at h; exact .inr (by simpa using h)

theorem normPrefix_head (p : Str) : normPrefix p = [] ∨ (normPrefix p).head? = some slash := by
  unfold normPrefix
  split
  · rename_i h; exact .inl h
  · refine trimRightSlashes_head ?_
    split
    · rfl
    · rename_i h; simpa using h

theorem foldl_clean (rooted : Bool) (l out : List Str) (h : ∀ s ∈ l, s ≠ b!"..") :
    l.foldl (cleanStep rooted) out = out ++ l.filter (fun s => s ≠ [] && s ≠ b!".") := by
  induction l generalizing out with
  | nil => simp
  | cons x l ih =>
    rw [List.foldl_cons, ih _ (fun s hs => h s (by simp [hs]))]
    have hx := h x (by simp)
    unfold cleanStep
    by_cases h1 : x = []
    · simp [h1]
    by_cases h2 : x = b!"."
    · simp [h2]
    simp [h1, h2, hx]

theorem join_flatMap {l : List Str} (h : l ≠ []) : slash :: join [slash] l = l.flatMap (fun s => slash :: s) := by
  induction l with
  | nil => exact absurd rfl h
  | cons x l ih =>
    cases l with
    | nil => simp [join]
    | cons y r => rw [join_cons_ne (by simp), List.flatMap_cons, ← ih (by simp)]; simp

/-- an element of a cleaned path -/
def CleanElem (e : Str) : Prop := e ≠ [] ∧ slash ∉ e

theorem cleanStep_elems {rooted : Bool} {out : List Str} {e : Str} (h : ∀ x ∈ out, CleanElem x) (he : slash ∉ e) :
    ∀ x ∈ cleanStep rooted out e, CleanElem x := by
  have happ : e ≠ [] → ∀ x ∈ out ++ [e], CleanElem x := by
    intro hne x hx
    rw [List.mem_append] at hx
    rcases hx with hx | hx
    · exact h x hx
    · simp only [List.mem_singleton] at hx; subst hx; exact ⟨hne, he⟩
  unfold cleanStep
  split
  · exact h
  · rename_i h1
    have hne : e ≠ [] := fun h2 => h1 (.inl h2)
    split
    · split
      · split
        · exact h
        · exact happ hne
      · split
        · exact happ hne
        · exact fun x hx => h x ((List.dropLast_sublist _).subset hx)
    · exact happ hne

theorem clean_elems (rooted : Bool) (l out : List Str) (h : ∀ x ∈ out, CleanElem x) (hl : ∀ x ∈ l, slash ∉ x) :
    ∀ x ∈ l.foldl (cleanStep rooted) out, CleanElem x := by
  induction l generalizing out with
  | nil => exact h
  | cons e l ih =>
    rw [List.foldl_cons]
    exact ih _ (cleanStep_elems h (hl e (by simp))) (fun x hx => hl x (by simp [hx]))

theorem getLast_join {es : List Str} (hne : es ≠ []) (h : ∀ x ∈ es, CleanElem x) :
    (join [slash] es).getLast? ≠ some slash ∧ join [slash] es ≠ [] := by
  induction es with
  | nil => exact absurd rfl hne
  | cons x es ih =>
    have hx := h x (by simp)
    cases es with
    | nil => exact ⟨fun hl => hx.2 (List.mem_of_getLast? hl), hx.1⟩
    | cons y r =>
      obtain ⟨h1, h2⟩ := ih (by simp) (fun z hz => h z (by simp [hz]))
      rw [join_cons_ne (by simp)]
      refine ⟨?_, by simp⟩
      rw [List.getLast?_append]
      cases hj : (join [slash] (y :: r)).getLast? with
      | none => rw [List.getLast?_eq_none_iff] at hj; exact absurd hj h2
      | some z => rw [hj] at h1; simpa using h1

/-- A cleaned path other than the root does not end with a slash. -/
theorem pathClean_last {p : Str} (h : pathClean p ≠ [slash]) : (pathClean p).getLast? ≠ some slash := by
  unfold pathClean at h ⊢
  split
  · decide
  · rename_i hp
    simp only [hp, if_false] at h
    have hel := clean_elems (p.head? == some slash) (splitB slash p) [] (by simp) (fun x hx => not_mem_of_mem_splitB hx)
    simp only []
    generalize (splitB slash p).foldl (cleanStep (p.head? == some slash)) [] = es at h hel ⊢
    split
    · rename_i hr
      simp only [hr, if_true] at h
      cases es with
      | nil => exact absurd rfl h
      | cons x r =>
        obtain ⟨h1, h2⟩ := getLast_join (by simp) hel
        cases hj : join [slash] (x :: r) with
        | nil => exact absurd hj h2
        | cons c t => rw [hj] at h1; rw [List.getLast?_cons_cons]; exact h1
    · split
      · decide
      · rename_i hne
        exact (getLast_join hne hel).1

/-- A prefix without `..` is registered as its elements followed by a catch-all. -/
theorem staticPattern_eq {p : Str} (h : ∀ s ∈ elems p, s ≠ b!"..") : staticPattern p = pathBelow (elems p) [star] := by
  have he := elems_normPrefix p
  unfold staticPattern pathJoin
  by_cases hn : normPrefix p = []
  · rw [hn, elems_nil] at he
    rw [hn, ← he]
    decide
  · rw [if_pos hn]
    obtain h1 | h1 := normPrefix_head p
    · exact absurd h1 hn
    · have hs : ∀ s ∈ splitB slash (normPrefix p ++ [slash] ++ b!"/*"), s ≠ b!".." := by
        rintro s hs rfl
        have : b!".." ∈ elems (normPrefix p ++ [slash] ++ b!"/*") := by
          unfold elems; rw [List.mem_filter]; exact ⟨hs, by decide⟩
        rw [show normPrefix p ++ [slash] ++ b!"/*" = normPrefix p ++ slash :: b!"/*" by simp, elems_append, he,
          List.mem_append] at this
        rcases this with h2 | h2
        · exact h _ h2 rfl
        · exact absurd h2 (by decide)
      unfold pathClean
      have hne : normPrefix p ++ [slash] ++ b!"/*" ≠ [] := by simp
      have hh : (normPrefix p ++ [slash] ++ b!"/*").head? = some slash := by
        cases hp : normPrefix p with
        | nil => exact absurd hp hn
        | cons c t => rw [hp] at h1; simpa using h1
      rw [if_neg hne, hh]
      simp only [beq_self_eq_true, if_true]
      rw [foldl_clean true _ [] hs, List.nil_append]
      have hel : (splitB slash (normPrefix p ++ [slash] ++ b!"/*")).filter (fun s => s ≠ [] && s ≠ b!".") =
          elems p ++ [[star]] := by
        have : elems (normPrefix p ++ [slash] ++ b!"/*") = elems p ++ [[star]] := by
          rw [show normPrefix p ++ [slash] ++ b!"/*" = normPrefix p ++ slash :: b!"/*" by simp, elems_append, he]
          congr 1
        exact this
      rw [hel, join_flatMap (by simp)]
      simp [pathBelow]

theorem elems_no_slash {p s : Str} (h : s ∈ elems p) : slash ∉ s := by
  unfold elems at h
  rw [List.mem_filter] at h
  exact not_mem_of_mem_splitB h.1

theorem elems_ne_nil {p s : Str} (h : s ∈ elems p) : s ≠ [] := by
  unfold elems at h
  rw [List.mem_filter] at h
  rintro rfl
  simp at h

theorem splitB_below {es : List Str} (h : ∀ s ∈ es, slash ∉ s) (name : Str) :
    splitB slash (pathBelow es name) = [] :: (es ++ splitB slash name) := by
  unfold pathBelow
  induction es with
  | nil => exact splitB_cons_slash name
  | cons x es ih =>
    have ih := ih (fun s hs => h s (by simp [hs]))
    simp only [List.flatMap_cons, List.cons_append, List.append_assoc] at ih ⊢
    rw [splitB_cons_slash]
    cases hes : es.flatMap (fun s => slash :: s) ++ slash :: name with
    | nil => simp at hes
    | cons c t =>
      have hc : c = slash := by
        cases es with
        | nil => simp at hes; exact hes.1.symm
        | cons y ys => simp at hes; exact hes.1.symm
      subst hc
      rw [splitB_append (h x (by simp))]
      rw [hes, splitB_cons_slash] at ih
      rw [List.cons.inj ih |>.2]

theorem kind_ordinary {s : Str} (h : Ordinary s) : kind s = .literal := by
  simp [kind, h.noStar, h.noBracket]

/-- The segments of the registered pattern. -/
theorem routeSegs_below {es : List Str} (hs : ∀ s ∈ es, slash ∉ s) (hn : ∀ s ∈ es, s ≠ []) (ho : ∀ s ∈ es, Ordinary s) :
    routeSegs (pathBelow es [star]) = es ++ [[star]] := by
  unfold routeSegs
  have hl : (pathBelow es [star]).getLast? ≠ some slash := by
    unfold pathBelow
    simp [List.getLast?_append]; decide
  simp only [hl, if_false]
  rw [splitB_below hs, splitB_of_not_mem (show slash ∉ [star] by decide)]
  have hg : (es ++ [[star]]).map ginSeg = es ++ [[star]] := by
    rw [List.map_append]
    congr 1
    conv => rhs; rw [← List.map_id es]
    refine List.map_congr_left (fun s hs => ?_)
    exact ginSeg_plain (ho s hs).noColon (ho s hs).noStar
  rw [List.map_cons, hg]
  have hne : ∀ x ∈ es ++ [[star]], x ≠ [] := by
    intro x hx
    rw [List.mem_append] at hx
    rcases hx with hx | hx
    · exact hn x hx
    · simp at hx; simp [hx]
  cases hes : es ++ [[star]] with
  | nil => simp at hes
  | cons t r =>
    rw [hes] at hne
    have : ginSeg [] = [] := by decide
    simp only [this, skipEmpty, if_true]
    rw [skipEmpty_of_nonempty (fun x hx => hne x (by simp [hx]))]

theorem pathSegs_below {es : List Str} (hs : ∀ s ∈ es, slash ∉ s) {name : Str} (hne : name ≠ [])
    (hl : name.getLast? ≠ some slash) : pathSegs (pathBelow es name) = es ++ splitB slash name := by
  have h := splitB_below hs name
  have hb : pathBelow es name = slash :: (pathBelow es name).tail := by
    unfold pathBelow
    cases es with
    | nil => rfl
    | cons x es => rfl
  unfold pathSegs stripSlashes
  have h1 : (pathBelow es name).head? = some slash := by rw [hb]; rfl
  have h2 : (pathBelow es name).tail.getLast? ≠ some slash := by
    intro h3
    have h4 : (pathBelow es name).getLast? = some slash := by
      rw [hb]
      cases ht : (pathBelow es name).tail with
      | nil => rw [ht] at h3; cases h3
      | cons c t => rw [List.getLast?_cons_cons, ← ht]; exact h3
    unfold pathBelow at h4
    rw [List.getLast?_append] at h4
    cases name with
    | nil => exact hne rfl
    | cons c t =>
      rw [List.getLast?_cons_cons] at h4
      cases h5 : (c :: t).getLast? with
      | none => simp at h5
      | some x => rw [h5] at h4 hl; exact hl (by simpa using h4)
  simp only [h1, if_true, h2, if_false]
  rw [hb, splitB_cons_slash] at h
  exact (List.cons.inj h).2

/-! ### Hexadecimal text -/

theorem hexDigit_toNat {d : Nat} (h : d < 16) : (hexDigit d).toNat = if d < 10 then 48 + d else 87 + d := by
  unfold hexDigit
  split
  · simp; omega
  · simp; omega

theorem hexVal_hexDigit {d : Nat} (h : d < 16) : hexVal (hexDigit d) = d := by
  unfold hexVal
  rw [hexDigit_toNat h]
  split <;> split <;> omega

theorem hexDigit_ne_dash {d : Nat} (h : d < 16) : hexDigit d ≠ 45 := by
  intro he
  have := congrArg UInt8.toNat he
  rw [hexDigit_toNat h] at this
  have h45 : (45 : UInt8).toNat = 45 := rfl
  rw [h45] at this
  split at this <;> omega

theorem hexDigitsF_spec (f n : Nat) (h : n < f) :
    hexRead (hexDigitsF f n) = n ∧ (45 : UInt8) ∉ hexDigitsF f n ∧ hexDigitsF f n ≠ [] := by
  induction f generalizing n with
  | zero => omega
  | succ f ih =>
    unfold hexDigitsF
    split
    · rename_i hn
      refine ⟨?_, ?_, by simp⟩
      · simp [hexRead, hexVal_hexDigit hn]
      · simp; exact fun h => hexDigit_ne_dash hn h.symm
    · rename_i hn
      obtain ⟨h1, h2, h3⟩ := ih (n / 16) (by omega)
      have hm : n % 16 < 16 := Nat.mod_lt _ (by omega)
      refine ⟨?_, ?_, by simp⟩
      · unfold hexRead at h1 ⊢
        rw [List.foldl_append, h1]
        simp only [List.foldl_cons, List.foldl_nil, hexVal_hexDigit hm]
        omega
      · rw [List.mem_append, not_or]
        exact ⟨h2, by simp; exact fun h => hexDigit_ne_dash hm h.symm⟩

theorem hexNat_inj {a b : Nat} (h : hexNat a = hexNat b) : a = b := by
  have ha := (hexDigitsF_spec (a + 1) a (by omega)).1
  have hb := (hexDigitsF_spec (b + 1) b (by omega)).1
  unfold hexNat at h
  rw [h, hb] at ha
  exact ha.symm

theorem dash_not_mem_hexNat (a : Nat) : (45 : UInt8) ∉ hexNat a := (hexDigitsF_spec (a + 1) a (by omega)).2.1

theorem hexNat_ne_nil (a : Nat) : hexNat a ≠ [] := (hexDigitsF_spec (a + 1) a (by omega)).2.2

/-- text up to the first separator is determined -/
theorem cut_inj {c : UInt8} {a b x y : Str} (ha : c ∉ a) (hb : c ∉ b) (h : a ++ c :: x = b ++ c :: y) : a = b ∧ x = y := by
  induction a generalizing b with
  | nil =>
    cases b with
    | nil => simpa using h
    | cons d b => simp at h; exact absurd (by simp [h.1]) hb
  | cons d a ih =>
    cases b with
    | nil => simp at h; exact absurd (by simp [h.1]) ha
    | cons e b =>
      simp only [List.cons_append, List.cons.injEq] at h
      obtain ⟨rfl, h⟩ := h
      obtain ⟨rfl, rfl⟩ := ih (fun hm => ha (by simp [hm])) (fun hm => hb (by simp [hm])) h
      exact ⟨rfl, rfl⟩

theorem hexNat_head (a : Nat) (x : Str) : ∃ d t, hexNat a ++ x = d :: t ∧ d ≠ 45 := by
  cases h : hexNat a with
  | nil => exact absurd h (hexNat_ne_nil a)
  | cons d t =>
    refine ⟨d, t ++ x, rfl, ?_⟩
    rintro rfl
    exact dash_not_mem_hexNat a (by rw [h]; simp)

theorem hexInt_cut {a b : Int} {x y : Str} (h : hexInt a ++ 45 :: x = hexInt b ++ 45 :: y) : a = b ∧ x = y := by
  unfold hexInt at h
  split at h <;> split at h
  · simp only [List.cons_append, List.cons.injEq, true_and] at h
    obtain ⟨h1, h2⟩ := cut_inj (dash_not_mem_hexNat _) (dash_not_mem_hexNat _) h
    have := hexNat_inj h1
    exact ⟨by omega, h2⟩
  · obtain ⟨d, t, h1, h2⟩ := hexNat_head b.toNat (45 :: y)
    rw [h1] at h
    exact absurd (List.cons.inj h).1.symm h2
  · obtain ⟨d, t, h1, h2⟩ := hexNat_head a.toNat (45 :: x)
    rw [h1] at h
    exact absurd (List.cons.inj h).1 h2
  · obtain ⟨h1, h2⟩ := cut_inj (dash_not_mem_hexNat _) (dash_not_mem_hexNat _) h
    have := hexNat_inj h1
    exact ⟨by omega, h2⟩

theorem hexInt_inj {a b : Int} (h : hexInt a = hexInt b) : a = b :=
  (hexInt_cut (x := []) (y := []) (by rw [h])).1

theorem hexStr_inj {a b : Str} (h : hexStr a = hexStr b) : a = b := by
  induction a generalizing b with
  | nil =>
    cases b with
    | nil => rfl
    | cons d b => simp [hexStr] at h
  | cons c a ih =>
    cases b with
    | nil => simp [hexStr] at h
    | cons d b =>
      simp only [hexStr, List.flatMap_cons, List.cons_append, List.nil_append, List.cons.injEq] at h
      obtain ⟨h1, h2, h3⟩ := h
      have e1 := congrArg hexVal h1
      have e2 := congrArg hexVal h2
      have hc := c.toNat_lt
      have hd := d.toNat_lt
      rw [hexVal_hexDigit (by omega), hexVal_hexDigit (by omega)] at e1
      rw [hexVal_hexDigit (by omega), hexVal_hexDigit (by omega)] at e2
      have : c = d := UInt8.toNat_inj.1 (by omega)
      rw [this, ih h3]

end Water
