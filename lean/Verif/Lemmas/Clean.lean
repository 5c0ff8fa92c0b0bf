import Verif.Model.Clean
import Verif.Lemmas.Walk
/- The byte loop of `path.Clean` is the description by elements. -/
namespace Water
open Spec

/-- the buffer for a list of elements -/
def render (rooted : Bool) (es : List Str) : Str := (if rooted then [slash] else []) ++ join [slash] es

theorem join_snoc (es : List Str) (e : Str) : join [slash] (es ++ [e]) = if es = [] then e else join [slash] es ++ slash :: e := by
  induction es with
  | nil => simp [join]
  | cons x es ih =>
    cases es with
    | nil => simp [join]
    | cons y r =>
      rw [List.cons_append, join_cons_ne (by simp), ih, if_neg (by simp), join_cons_ne (x := x) (l := y :: r) (by simp)]
      simp

theorem render_snoc (rooted : Bool) (es : List Str) (e : Str) :
    render rooted (es ++ [e]) = render rooted es ++ (if es = [] then e else slash :: e) := by
  unfold render
  rw [join_snoc]
  by_cases h : es = []
  · subst h; simp [join]
  · simp [h]

theorem render_le (rooted : Bool) (xs : List Str) : ∀ ys : List Str, (render rooted xs).length ≤ (render rooted (xs ++ ys)).length := by
  intro ys
  generalize hn : ys.length = n
  induction n generalizing ys with
  | zero => rw [List.length_eq_zero_iff.1 hn]; simp
  | succ n ih =>
    rcases List.eq_nil_or_concat ys with rfl | ⟨l, x, h⟩
    · simp at hn
    · rw [List.concat_eq_append] at h
      subst h
      have := ih l (by simpa using hn)
      rw [← List.append_assoc, render_snoc, List.length_append]
      omega

theorem render_length {rooted : Bool} {es : List Str} (h : ∀ e ∈ es, RealElem e) :
    (render rooted es).length = (if rooted then 1 else 0) ↔ es = [] := by
  constructor
  · intro hl
    cases es with
    | nil => rfl
    | cons x r =>
      have := (getLast_join (es := x :: r) (by simp) (fun y hy => ⟨(h y hy).1, (h y hy).2.1⟩)).2
      have h2 : 0 < (join [slash] (x :: r)).length := List.length_pos_iff.2 this
      unfold render at hl
      rw [List.length_append] at hl
      cases rooted
      · simp only [Bool.false_eq_true, if_false, List.length_nil] at hl; omega
      · simp only [if_true, List.length_cons, List.length_nil] at hl; omega
  · rintro rfl
    cases rooted <;> rfl

theorem cutBack_stop {out : Str} {dd w : Nat} (hw : w ≤ dd ∨ out[w]? = some slash) : cutBack out dd w = w := by
  cases w with
  | zero => rfl
  | succ w =>
    unfold cutBack
    rw [if_neg]
    rintro ⟨h1, h2⟩
    rcases hw with h | h
    · omega
    · exact h2 h

theorem cutBack_down {out : Str} {dd b : Nat} : ∀ w, b ≤ w → dd ≤ b → (b ≤ dd ∨ out[b]? = some slash) →
    (∀ j, b < j → j ≤ w → out[j]? ≠ some slash) → cutBack out dd w = b := by
  intro w
  induction w with
  | zero => intro h1 _ h3 _; have : b = 0 := by omega
            subst this; rfl
  | succ w ih =>
    intro h1 h2 h3 h4
    by_cases hb : b = w + 1
    · subst hb; exact cutBack_stop h3
    · unfold cutBack
      rw [if_pos ⟨by omega, h4 (w + 1) (by omega) (by omega)⟩]
      exact ih (by omega) h2 h3 (fun j hj hj' => h4 j hj (by omega))

/-- The state of the loop stands for a stack of elements: `..` that cannot be removed, and real ones. -/
structure CleanInv (rooted : Bool) (es : List Str) (out : Str) (dotdot : Nat) : Prop where
  ups : ∃ k rs, es = List.replicate k b!".." ++ rs ∧ b!".." ∉ rs ∧ (rooted = true → k = 0) ∧
    dotdot = (render rooted (List.replicate k b!"..")).length
  real : ∀ e ∈ es, RealElem e
  out : out = render rooted es

theorem cut_last {rooted : Bool} {es : List Str} {e : Str} {dd : Nat} (he : RealElem e) (hdd : dd ≤ (render rooted es).length)
    (hd1 : rooted = true → dd ≥ 1) (hes : ∀ e ∈ es, RealElem e) :
    (render rooted (es ++ [e])).take (cutBack (render rooted (es ++ [e])) dd ((render rooted (es ++ [e])).length - 1)) = render rooted es := by
  have hlen : 0 < e.length := List.length_pos_iff.2 he.1
  have key : cutBack (render rooted (es ++ [e])) dd ((render rooted (es ++ [e])).length - 1) = (render rooted es).length := by
    have hnt : ∀ i, (h : i < e.length) → e[i]? ≠ some slash := fun i h hh => he.2.1 (List.mem_of_getElem? hh)
    rw [render_snoc]
    by_cases h0 : es = []
    · subst h0
      simp only [if_true]
      have hr : (render rooted []).length = (if rooted then 1 else 0) := (render_length (by simp)).2 rfl
      have hddr : dd = (render rooted []).length := by
        rw [hr] at hdd ⊢
        cases rooted with
        | false => simpa using hdd
        | true => have := hd1 rfl; simp at hdd ⊢; omega
      refine cutBack_down _ ?_ hdd (.inl (by omega)) ?_
      · rw [List.length_append]; omega
      · intro j hj hj' hc
        rw [List.getElem?_append_right (by omega)] at hc
        rw [List.length_append] at hj'
        exact hnt _ (by omega) hc
    · simp only [h0, if_false]
      refine cutBack_down _ ?_ hdd (.inr ?_) ?_
      · simp only [List.length_append, List.length_cons]; omega
      · rw [List.getElem?_append_right (Nat.le_refl _)]; simp
      · intro j hj hj' hc
        rw [List.getElem?_append_right (by omega)] at hc
        simp only [List.length_append, List.length_cons] at hj'
        obtain ⟨i, hi⟩ : ∃ i, j - (render rooted es).length = i + 1 := ⟨j - (render rooted es).length - 1, by omega⟩
        rw [hi, List.getElem?_cons_succ] at hc
        exact hnt i (by omega) hc
  rw [key, render_snoc]
  simp

/-- one element: what the loop does with `..` is what `cleanStep` does -/
theorem cleanInv_up {rooted : Bool} {es : List Str} {out : Str} {dd : Nat} (h : CleanInv rooted es out dd) :
    (out.length > dd → CleanInv rooted (cleanStep rooted es b!"..") (out.take (cutBack out dd (out.length - 1))) dd) ∧
    (¬ out.length > dd → rooted = false →
      CleanInv rooted (cleanStep rooted es b!"..") ((if out.length > 0 then out ++ [slash] else out) ++ [dotB, dotB])
        ((if out.length > 0 then out ++ [slash] else out) ++ [dotB, dotB]).length) ∧
    (¬ out.length > dd → rooted = true → CleanInv rooted (cleanStep rooted es b!"..") out dd) := by
  obtain ⟨⟨k, rs, rfl, hrs, hk, hdd⟩, hreal, hout⟩ := h
  have hstep : cleanStep rooted (List.replicate k b!".." ++ rs) b!".." =
      match (List.replicate k b!".." ++ rs).getLast? with
      | none => if rooted then List.replicate k b!".." ++ rs else List.replicate k b!".." ++ rs ++ [b!".."]
      | some l => if l = b!".." then List.replicate k b!".." ++ rs ++ [b!".."] else (List.replicate k b!".." ++ rs).dropLast := by
    unfold cleanStep
    rw [if_neg (by decide), if_pos rfl]
    rfl
  have hup : RealElem b!".." := by unfold RealElem; decide
  have hrepl : ∀ j, ∀ e ∈ List.replicate j b!"..", RealElem e := by
    intro j e he; rw [List.eq_of_mem_replicate he]; exact hup
  rcases List.eq_nil_or_concat rs with rfl | ⟨rs', e, hcc⟩
  · -- only `..`
    rw [List.append_nil] at hstep hreal hout ⊢
    have hlen : out.length = dd := by rw [hout, hdd]
    refine ⟨fun h => absurd h (by omega), fun _ hr => ?_, fun _ hr => ?_⟩
    · subst hr
      have he : cleanStep false (List.replicate k b!"..") b!".." = List.replicate (k + 1) b!".." := by
        rw [hstep, List.replicate_succ']
        cases k with
        | zero => rfl
        | succ k => rw [List.replicate_succ', List.getLast?_concat]; simp
      have hb : (if out.length > 0 then out ++ [slash] else out) ++ [dotB, dotB] = render false (List.replicate (k + 1) b!"..") := by
        rw [List.replicate_succ', render_snoc, ← hout]
        cases k with
        | zero =>
          have : out = [] := by rw [hout]; rfl
          rw [this]; rfl
        | succ k =>
          have : out.length ≠ 0 := by
            intro h0
            have := (render_length (rooted := false) (es := List.replicate (k + 1) b!"..") (hrepl _)).1 (by rw [← hout]; exact h0)
            simp at this
          rw [if_pos (by omega), if_neg (by simp)]
          simp [dotB]
      rw [he]
      refine ⟨⟨k + 1, [], by simp, by simp, by simp, by rw [hb]⟩, hrepl _, hb⟩
    · have hk0 := hk hr
      subst hk0 hr
      refine ⟨⟨0, [], by rw [hstep]; rfl, by simp, by simp, hdd⟩, ?_, ?_⟩
      · rw [hstep]; simp
      · rw [hstep]; simpa using hout
  · rw [List.concat_eq_append] at hcc
    subst hcc
    have he : e ≠ b!".." := fun hh => hrs (by simp [hh])
    rw [← List.append_assoc] at hstep hreal hout
    rw [List.getLast?_concat] at hstep
    simp only [he, if_false, List.dropLast_concat] at hstep
    have hreal' : ∀ x ∈ List.replicate k b!".." ++ rs', RealElem x := fun x hx => hreal x (List.mem_append_left _ hx)
    have hre : RealElem e := hreal e (by simp)
    have hle : dd ≤ (render rooted (List.replicate k b!".." ++ rs')).length := by
      rw [hdd]
      exact render_le _ _ _
    have hgt : out.length > dd := by
      rw [hout, render_snoc, List.length_append]
      have : 0 < e.length := List.length_pos_iff.2 hre.1
      split <;> simp <;> omega
    rw [← List.append_assoc, hstep]
    refine ⟨fun _ => ⟨⟨k, rs', rfl, fun hh => hrs (by simp [hh]), hk, hdd⟩, hreal', ?_⟩, fun h => absurd hgt h, fun h => absurd hgt h⟩
    rw [hout]
    refine cut_last hre hle ?_ hreal'
    intro hr
    have := hk hr
    subst this hr
    rw [hdd]; decide

theorem cleanInv_real {rooted : Bool} {es : List Str} {out : Str} {dd : Nat} (h : CleanInv rooted es out dd) {e : Str}
    (he : RealElem e) (hne : e ≠ b!"..") :
    CleanInv rooted (cleanStep rooted es e)
      ((if (rooted = true ∧ out.length ≠ 1) ∨ (rooted = false ∧ out.length ≠ 0) then out ++ [slash] else out) ++ e) dd := by
  obtain ⟨⟨k, rs, hes, hrs, hk, hdd⟩, hreal, hout⟩ := h
  have hs : cleanStep rooted es e = es ++ [e] := by
    unfold cleanStep
    rw [if_neg (fun hh => hh.elim he.1 he.2.2), if_neg hne]
  rw [hs]
  refine ⟨⟨k, rs ++ [e], by rw [hes]; simp, by simp [hrs]; exact fun hh => hne hh.symm, hk, hdd⟩, ?_, ?_⟩
  · intro x hx
    rcases List.mem_append.1 hx with hx | hx
    · exact hreal x hx
    · rw [List.mem_singleton.1 hx]; exact he
  · have hl := render_length (rooted := rooted) hreal
    rw [← hout] at hl
    rw [render_snoc, ← hout]
    by_cases h0 : es = []
    · have h1 := hl.2 h0
      rw [if_neg, if_pos h0]
      rintro (⟨h2, h3⟩ | ⟨h2, h3⟩) <;> rw [h2] at h1 <;> exact h3 (by simpa using h1)
    · rw [if_pos, if_neg h0]
      · simp
      · cases rooted with
        | true => exact .inl ⟨rfl, fun hh => h0 (hl.1 (by simpa using hh))⟩
        | false => exact .inr ⟨rfl, fun hh => h0 (hl.1 (by simpa using hh))⟩

theorem splitB_take {c : UInt8} {r : Str} (h : c ≠ slash) :
    ∃ l, splitB slash (c :: r) = (c :: r.takeWhile (· != slash)) :: l ∧
      ∀ (f : List Str → Str → List Str) (x : List Str), (∀ y, f y [] = y) → l.foldl f x = (splitB slash (r.dropWhile (· != slash))).foldl f x := by
  have hm : slash ∉ c :: r.takeWhile (· != slash) := by
    rw [List.mem_cons]
    rintro (hh | hh)
    · exact h hh.symm
    · have := List.all_takeWhile (p := (· != slash)) (l := r)
      rw [List.all_eq_true] at this
      simpa using this _ hh
  cases hd : r.dropWhile (· != slash) with
  | nil =>
    have hr : r.takeWhile (· != slash) = r := by
      have := List.takeWhile_append_dropWhile (p := (· != slash)) (l := r)
      rw [hd, List.append_nil] at this
      exact this
    rw [hr] at hm ⊢
    refine ⟨[], splitB_of_not_mem hm, ?_⟩
    intro f x hf
    simp [splitB, hf]
  | cons d t =>
    have hds : d = slash := by
      have := List.head?_dropWhile_not (p := (· != slash)) (l := r)
      rw [hd] at this
      simpa using this
    subst hds
    have hr : c :: r = (c :: r.takeWhile (· != slash)) ++ slash :: t := by
      rw [← hd, List.cons_append, List.takeWhile_append_dropWhile]
    refine ⟨splitB slash t, ?_, ?_⟩
    · rw [hr, splitB_append hm]
    · intro f x hf
      rw [splitB_cons_slash, List.foldl_cons, hf]

theorem span_stop {r : Str} (h : r = [] ∨ r.head? = some slash) : r.takeWhile (· != slash) = [] ∧ r.dropWhile (· != slash) = r := by
  rcases h with rfl | h
  · simp
  · cases r with
    | nil => simp at h
    | cons x t => simp at h; subst h; simp

theorem span_empty {r : Str} (h : r.takeWhile (· != slash) = []) : r = [] ∨ r.head? = some slash := by
  cases r with
  | nil => exact .inl rfl
  | cons x t =>
    by_cases hx : x = slash
    · exact .inr (by simp [hx])
    · rw [List.takeWhile_cons_of_pos (by simpa using hx)] at h; simp at h

theorem cleanLoop_eq (rooted : Bool) : ∀ fuel rest es out dd, rest.length ≤ fuel → CleanInv rooted es out dd →
    cleanLoop rooted fuel rest out dd = render rooted ((splitB slash rest).foldl (cleanStep rooted) es) := by
  have hnil : ∀ y, cleanStep rooted y [] = y := fun y => by unfold cleanStep; rw [if_pos (.inl rfl)]
  have hdot : ∀ y, cleanStep rooted y b!"." = y := fun y => by unfold cleanStep; rw [if_pos (.inr rfl)]
  intro fuel
  induction fuel with
  | zero =>
    intro rest es out dd hl hi
    have : rest = [] := List.length_eq_zero_iff.1 (by omega)
    subst this
    simp [cleanLoop, splitB, hnil, hi.out]
  | succ fuel ih =>
    intro rest es out dd hl hi
    cases rest with
    | nil => simp [cleanLoop, splitB, hnil, hi.out]
    | cons c r =>
      rw [List.length_cons] at hl
      unfold cleanLoop
      by_cases hc : c = slash
      · subst hc
        rw [if_pos rfl, splitB_cons_slash, List.foldl_cons, hnil]
        exact ih r es out dd (by omega) hi
      · rw [if_neg hc]
        obtain ⟨l, hl1, hl2⟩ := splitB_take (r := r) hc
        rw [hl1, List.foldl_cons, hl2 _ _ hnil]
        by_cases h1 : c = dotB ∧ (r = [] ∨ r.head? = some slash)
        · rw [if_pos h1]
          obtain ⟨ht, hd⟩ := span_stop h1.2
          rw [ht, hd, h1.1]
          have : cleanStep rooted es [dotB] = es := hdot es
          rw [this]
          exact ih r es out dd (by omega) hi
        · rw [if_neg h1]
          by_cases h2 : c = dotB ∧ r.head? = some dotB ∧ (r.tail = [] ∨ r.tail.head? = some slash)
          · rw [if_pos h2]
            obtain ⟨hcd, hh, ht⟩ := h2
            cases r with
            | nil => simp at hh
            | cons x t =>
              have hx : x = dotB := by simpa using hh
              subst hx hcd
              simp only [List.tail_cons] at ht ⊢
              obtain ⟨ht1, ht2⟩ := span_stop ht
              have hb : (dotB != slash) = true := by decide
              rw [List.takeWhile_cons_of_pos (by simpa using hb), List.dropWhile_cons_of_pos (by simpa using hb), ht1, ht2]
              obtain ⟨a1, a2, a3⟩ := cleanInv_up hi
              rw [List.length_cons] at hl
              by_cases ho : out.length > dd
              · rw [if_pos ho]
                exact ih t _ _ _ (by omega) (a1 ho)
              · rw [if_neg ho]
                cases hr : rooted with
                | false =>
                  rw [hr] at a2 ih
                  simp only [Bool.not_false, if_true]
                  exact ih t _ _ _ (by omega) (a2 ho rfl)
                | true =>
                  rw [hr] at a3 ih
                  simp only [Bool.not_true, Bool.false_eq_true, if_false]
                  exact ih t _ _ _ (by omega) (a3 ho rfl)
          · rw [if_neg h2]
            have hdrop : (r.dropWhile (· != slash)).length ≤ fuel := by
              have := (List.dropWhile_sublist (p := (· != slash)) (l := r)).length_le
              omega
            refine ih _ _ _ _ hdrop (cleanInv_real hi ⟨by simp, ?_, ?_⟩ ?_)
            · rw [List.mem_cons]
              rintro (hh | hh)
              · exact hc hh.symm
              · have := List.all_takeWhile (p := (· != slash)) (l := r)
                rw [List.all_eq_true] at this
                simpa using this _ hh
            · intro hh
              rw [List.cons.injEq] at hh
              exact h1 ⟨hh.1, span_empty hh.2⟩
            · intro hh
              rw [List.cons.injEq] at hh
              refine h2 ⟨hh.1, ?_⟩
              cases r with
              | nil => simp at hh
              | cons x t =>
                by_cases hx : x = slash
                · subst hx; simp at hh
                · rw [List.takeWhile_cons_of_pos (by simpa using hx), List.cons.injEq] at hh
                  exact ⟨by rw [hh.2.1]; rfl, span_empty hh.2.2⟩

theorem goClean_eq (p : Str) : goClean p = pathClean p := by
  unfold goClean pathClean
  by_cases hp : p = []
  · rw [if_pos hp, if_pos hp]
  · rw [if_neg hp, if_neg hp]
    cases p with
    | nil => exact absurd rfl hp
    | cons c r =>
      by_cases hc : c = slash
      · subst hc
        simp only [List.head?_cons, List.tail_cons, if_true, beq_self_eq_true]
        rw [cleanLoop_eq true _ r [] [slash] 1 (by simp) ⟨⟨0, [], rfl, by simp, by simp, by decide⟩, by simp, rfl⟩]
        rw [splitB_cons_slash, List.foldl_cons]
        have : cleanStep true [] [] = [] := rfl
        rw [this]
        simp [render]
      · have h1 : ((c :: r).head? == some slash) = false := by simpa using hc
        have h2 : ¬ (c :: r).head? = some slash := by simpa using hc
        simp only [h1, h2, Bool.false_eq_true, if_false]
        rw [cleanLoop_eq false _ (c :: r) [] [] 0 (by simp) ⟨⟨0, [], rfl, by simp, by simp, by decide⟩, by simp, rfl⟩]
        have hreal : ∀ e ∈ (splitB slash (c :: r)).foldl (cleanStep false) [], RealElem e :=
          clean_real _ _ _ (by simp) (fun x hx => not_mem_of_mem_splitB hx)
        have := render_length (rooted := false) hreal
        simp only [Bool.false_eq_true, if_false] at this
        by_cases h0 : (splitB slash (c :: r)).foldl (cleanStep false) [] = []
        · rw [if_pos h0, if_pos (List.length_eq_zero_iff.1 (this.2 h0))]
        · rw [if_neg h0, if_neg (fun hh => h0 (this.1 (by rw [hh]; rfl)))]
          rfl

end Water
