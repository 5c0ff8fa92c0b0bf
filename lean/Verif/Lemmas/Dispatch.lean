import Verif.Lemmas.Params
/- Helper lemmas: the complete description of a dispatch, in terms of the table of registrations. -/
namespace Water
open Spec
variable {α : Type}

theorem Leak.table {rx : Regex} {tbl : List (Entry α)} {n : Node α} (hb : Built rx tbl n) {x : Str} (h : Leak n x) :
    ∃ y ∈ tbl, InnerRegexName y.segs x := by
  induction h generalizing tbl with
  | @here n s x hs ht hx =>
    cases hb with
    | mk endsOrd endsOk endsAll subsOrd subsOk subsAll subsBuilt =>
      obtain ⟨h1, y, hy, q, rest, h2⟩ := subsOk s hs
      obtain ⟨_, _, h3, h4, _, _⟩ := analyze_spec h1
      refine ⟨y, hy, [], s.seg.pattern, q, rest, by simpa using h2, ?_, ?_⟩
      · rw [← h3, ht]; rfl
      · rw [← (h4 ht).2]; exact hx
  | @there n s x hs _ ih =>
    cases hb with
    | mk endsOrd endsOk endsAll subsOrd subsOk subsAll subsBuilt =>
      obtain ⟨y, hy, hi⟩ := ih (subsBuilt s hs)
      obtain ⟨_, z, hz, h2, _⟩ := mem_below.1 hy
      exact ⟨z, hz, by rw [h2]; exact inner_cons hi⟩

theorem Built.clean {rx : Regex} {tbl : List (Entry α)} {n : Node α} (hb : Built rx tbl n)
    (h : ∀ y ∈ tbl, ¬ RepeatsInnerRegexName y.segs) : Clean n := by
  induction hb with
  | @mk tbl seg subs ends endsOrd endsOk endsAll subsOrd subsOk subsAll subsBuilt ih =>
    refine .mk ?_ ?_
    · intro s hs ht x hx hl
      obtain ⟨y, hy, hi⟩ := hl.table (subsBuilt s hs)
      obtain ⟨_, z, hz, h2, _⟩ := mem_below.1 hy
      obtain ⟨_, _, h3, h4, _, _⟩ := analyze_spec (subsOk s hs).1
      exact h z hz ⟨[], s.seg.pattern, y.segs, x, h2, by rw [← h3, ht]; rfl, by rw [← (h4 ht).2]; exact hx, hi⟩
    · intro s hs
      apply ih s hs
      intro y hy ⟨c, p, d, x, h1, h2⟩
      obtain ⟨_, z, hz, h3, _⟩ := mem_below.1 hy
      exact h z hz ⟨s.seg.pattern :: c, p, d, x, by rw [h3, h1]; rfl, h2⟩

/-- A dispatch without the static map. -/
theorem dispatch_spec {rx : Regex} {nf : List α} {rs : List (Route α)} {e : Engine α}
    (h : mkEngine rx false nf rs = .ok e) {m path : Str} {n : EndNode α} (hr : routeOf rx e m path = some n) :
    ∃ r ps, paramsOf rx e m path = some ps ∧ Accepts rx r (pathSegs path) ∧
      FirstHandlers (tableFor m rs) r n.handlers ∧ LastUri (tableFor m rs) r n.uri ∧
      (∀ x ∈ tableFor m rs, Accepts rx x.segs (pathSegs path) →
        x.segs = r ∨ Wins (tableFor m rs) (pathSegs path).length r x.segs) ∧
      Writes rx 0 r (pathSegs path) (fun x => ∃ y ∈ tableFor m rs, InnerRegexName y.segs x)
        (∀ y ∈ tableFor m rs, ¬ RepeatsInnerRegexName y.segs) Map.empty ps := by
  obtain ⟨hinv, hst, _, _⟩ := mkEngine_inv h
  unfold routeOf at hr
  unfold paramsOf
  cases hi : methodIndex m with
  | none => rw [hi] at hr; cases hr
  | some i =>
    rw [hi] at hr
    have h1 := hinv m i hi
    unfold lookup at hr ⊢
    rw [hst] at hr ⊢
    cases ht : e.trees i with
    | none => simp [ht] at hr
    | some t =>
      rw [ht] at h1
      simp only [Bool.false_eq_true, if_false, ht] at hr ⊢
      have hsnd := matchUri_snd rx t path
      rw [hr] at hsnd
      cases hs : sel rx t (pathSegs path) with
      | none => rw [hs] at hsnd; simp at hsnd
      | some p =>
        obtain ⟨r, n'⟩ := p
        rw [hs] at hsnd
        simp at hsnd
        subst hsnd
        obtain ⟨h2, h3, h4, h5⟩ := sel_spec h1.1 hs
        refine ⟨r, (matchUri rx (some t) path).1, rfl, h2, h3, h4, h5, ?_⟩
        have hmm : matchNext rx t 0 (trimSuffix (trimPrefix path [slash]) [slash]) Map.empty =
            ((matchUri rx (some t) path).1, some n) := by
          rw [← hr]; rfl
        rw [pathSegs_eq] at hs ⊢
        have hw := matchNext_some rx t 0 _ Map.empty _ n h1.1.treeOk hmm r hs
        exact hw.after (fun _ _ => rfl) (fun x hx => hx.table h1.1) (fun hc => h1.1.clean hc)

theorem dispatch_none {rx : Regex} {nf : List α} {rs : List (Route α)} {e : Engine α}
    (h : mkEngine rx false nf rs = .ok e) {m path : Str} (hm : (methodIndex m).isSome)
    (hr : routeOf rx e m path = none) : ∀ x ∈ tableFor m rs, ¬ Accepts rx x.segs (pathSegs path) := by
  rcases routeOf_spec h hm path with h1 | ⟨_, _, n, h1, _⟩
  · exact h1.2
  · rw [hr] at h1; cases h1

theorem firstHandlers_mem {m : Str} {rs : List (Route α)} {r : List Str} {h : List α}
    (hf : FirstHandlers (tableFor m rs) r h) : ∃ v ∈ rs, v.method = m ∧ routeSegs v.uri = r ∧ v.handlers = h := by
  obtain ⟨l1, x, l2, h0, h1, h2, _⟩ := hf
  obtain ⟨v, hv, hm, rfl⟩ := mem_tableFor.1 (show x ∈ tableFor m rs by rw [h0]; simp)
  exact ⟨v, hv, hm, h1, h2⟩

theorem lastUri_mem {m : Str} {rs : List (Route α)} {r : List Str} {u : Str}
    (hf : LastUri (tableFor m rs) r u) : ∃ v ∈ rs, v.method = m ∧ routeSegs v.uri = r ∧ v.uri = u := by
  obtain ⟨l1, x, l2, h0, h1, h2, _⟩ := hf
  obtain ⟨v, hv, hm, rfl⟩ := mem_tableFor.1 (show x ∈ tableFor m rs by rw [h0]; simp)
  exact ⟨v, hv, hm, h1, h2⟩

end Water
