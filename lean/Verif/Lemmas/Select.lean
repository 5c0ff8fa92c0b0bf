import Verif.Lemmas.Built
/- Helper lemmas: what is selected in a built tree, in terms of the table of registrations. -/
namespace Water
open Spec
variable {α : Type}

theorem segAcc_iff {rx : Regex} {seg : Seg} {p : Str} (h : analyzePattern rx p = .ok seg) (s : Str) :
    segAcc rx seg s = true ↔ acceptsSeg rx p s := by
  obtain ⟨h1, _, h3, h4, h5, h6⟩ := analyze_spec h
  unfold segAcc acceptsSeg
  rw [← h3]
  cases ht : seg.typ with
  | static => simp [PTyp.kind, h1]
  | regexp =>
    obtain ⟨h7, h8⟩ := h4 ht
    simp [PTyp.kind, h7, h8]
    omega
  | holder => simp [PTyp.kind]
  | matchAll => simp [PTyp.kind]

theorem kind_star_iff {rx : Regex} {seg : Seg} {p : Str} (h : analyzePattern rx p = .ok seg) :
    seg.typ = .matchAll ↔ kind p = .star := by
  obtain ⟨_, _, h3, _⟩ := analyze_spec h
  rw [← h3]
  cases seg.typ <;> simp [PTyp.kind]

theorem rank_eq {rx : Regex} {seg : Seg} {p : Str} (h : analyzePattern rx p = .ok seg) :
    seg.typ.ord = (kind p).rank := by
  obtain ⟨_, _, h3, _⟩ := analyze_spec h
  rw [← h3, PTyp.kind_rank]

theorem selSubs_none {rx : Regex} {subs : List (Node α)} {s : Str} {rest : List Str}
    (h : selSubs rx subs s rest = none) : ∀ n ∈ subs, segAcc rx n.seg s = true → sel rx n rest = none := by
  induction subs with
  | nil => simp
  | cons m ms ih =>
    unfold selSubs at h
    intro n hn hacc
    split at h
    · split at h
      · cases h
      · rename_i hs
        rcases List.mem_cons.1 hn with rfl | hn
        · exact hs
        · exact ih h n hn hacc
    · rename_i hna
      rcases List.mem_cons.1 hn with rfl | hn
      · exact absurd hacc hna
      · exact ih h n hn hacc

theorem selSubs_some {rx : Regex} {subs : List (Node α)} {s : Str} {rest : List Str} {r : List Str} {e : EndNode α}
    (h : selSubs rx subs s rest = some (r, e)) :
    ∃ as n bs r0, subs = as ++ n :: bs ∧ segAcc rx n.seg s = true ∧ sel rx n rest = some (r0, e) ∧
      r = n.seg.pattern :: r0 ∧ ∀ m ∈ as, segAcc rx m.seg s = true → sel rx m rest = none := by
  induction subs with
  | nil => simp [selSubs] at h
  | cons m ms ih =>
    unfold selSubs at h
    split at h
    · rename_i hacc
      split at h
      · rename_i r0 e0 hs
        simp at h
        obtain ⟨rfl, rfl⟩ := h
        exact ⟨[], m, ms, r0, rfl, hacc, hs, rfl, by simp⟩
      · rename_i hs
        obtain ⟨as, n, bs, r0, rfl, h1, h2, h3, h4⟩ := ih h
        refine ⟨m :: as, n, bs, r0, rfl, h1, h2, h3, ?_⟩
        intro x hx hxa
        rcases List.mem_cons.1 hx with rfl | hx
        · exact hs
        · exact h4 x hx hxa
    · rename_i hna
      obtain ⟨as, n, bs, r0, rfl, h1, h2, h3, h4⟩ := ih h
      refine ⟨m :: as, n, bs, r0, rfl, h1, h2, h3, ?_⟩
      intro x hx hxa
      rcases List.mem_cons.1 hx with rfl | hx
      · exact absurd hxa hna
      · exact h4 x hx hxa

theorem accepts_ne_nil {rx : Regex} {r ss : List Str} (h : Accepts rx r ss) : r ≠ [] ∧ ss ≠ [] := by
  cases h <;> simp

theorem accepts_single {rx : Regex} {r : List Str} {s : Str} (h : Accepts rx r [s]) :
    ∃ p, r = [p] ∧ acceptsSeg rx p s := by
  cases h with
  | last h => exact ⟨_, rfl, h⟩

theorem accepts_multi {rx : Regex} {r : List Str} {s t : Str} {ss : List Str} (h : Accepts rx r (s :: t :: ss)) :
    (∃ p, r = [p] ∧ kind p = .star) ∨
    (∃ p q ps, r = p :: q :: ps ∧ acceptsSeg rx p s ∧ Accepts rx (q :: ps) (t :: ss)) := by
  cases h with
  | rest h => exact .inl ⟨_, rfl, h⟩
  | cons h1 h2 => exact .inr ⟨_, _, _, rfl, h1, h2⟩

theorem Spec.Wins.lift {tbl : List (Entry α)} {p : Str} {k : Nat} {r r' : List Str}
    (h : Wins (below p tbl) k r r') : Wins tbl (k + 1) (p :: r) (p :: r') := by
  obtain ⟨c, a, ra, b, rb, ⟨rfl, rfl, hd⟩, hw⟩ := h
  have hthrough : ∀ x : Str, ∀ e e' : Entry α, belowE p e = some e' → Through (c ++ [x]) e' →
      Through (p :: c ++ [x]) e := by
    intro x e e' he ⟨q, rest, hq⟩
    obtain ⟨_, h2, _⟩ := belowE_some.1 he
    exact ⟨q, rest, by rw [h2, hq]; simp⟩
  have hthrough' : ∀ x : Str, ∀ e : Entry α, Through (p :: c ++ [x]) e →
      ∃ e', belowE p e = some e' ∧ Through (c ++ [x]) e' := by
    intro x e ⟨q, rest, hq⟩
    refine ⟨{ e with segs := c ++ [x] ++ q :: rest }, belowE_some.2 ⟨by simp, by rw [hq]; simp, rfl, rfl⟩, q, rest, by simp⟩
  have hseg : ∀ r : List Str, ∀ e e' : Entry α, belowE p e = some e' → e'.segs = r → e.segs = p :: r := by
    intro r e e' he hr
    obtain ⟨_, h2, _⟩ := belowE_some.1 he
    rw [h2, hr]
  have hseg' : ∀ r : List Str, r ≠ [] → ∀ e : Entry α, e.segs = p :: r → ∃ e', belowE p e = some e' ∧ e'.segs = r := by
    intro r hr e he
    exact ⟨{ e with segs := r }, belowE_some.2 ⟨hr, he, rfl, rfl⟩, rfl⟩
  refine ⟨p :: c, a, ra, b, rb, ⟨by simp, by simp, hd⟩, ?_⟩
  rcases hw with ⟨h1, h2, h3⟩ | ⟨h1, h2, h3, h4⟩ | ⟨h1, h2, h3, h4⟩ | ⟨h1, h2, h3, h4, h5, h6⟩
  · refine .inl ⟨h1, h2, ?_⟩
    rcases h3 with h3 | ⟨h3, h4⟩
    · exact .inl h3
    · exact .inr ⟨h3, h4.of_below (hthrough a) (hthrough' b)⟩
  · exact .inr (.inl ⟨h1, h2, h3, by simp; omega⟩)
  · refine .inr (.inr (.inl ⟨h1, h2, by simp; omega, ?_⟩))
    rcases h4 with h4 | ⟨h4, h5⟩
    · exact .inl h4
    · exact .inr ⟨h4, h5.of_below (hseg _) (hseg' _ (by simp))⟩
  · exact .inr (.inr (.inr ⟨h1, h2, by simp; omega, h4, h5, h6.of_below (hseg _) (hseg' _ (by simp))⟩))

theorem lastStar_some {ends : List (EndNode α)} {r : List Str} {e : EndNode α} (h : lastStar ends = some (r, e)) :
    ∃ as, ends = as ++ [e] ∧ r = [e.seg.pattern] ∧ e.seg.typ = .matchAll := by
  unfold lastStar at h
  split at h
  · rename_i e' hl
    split at h
    · rename_i ht
      simp at h
      obtain ⟨rfl, rfl⟩ := h
      rw [List.getLast?_eq_some_iff] at hl
      obtain ⟨as, rfl⟩ := hl
      exact ⟨as, rfl, rfl, ht⟩
    · cases h
  · cases h

/-- everything registered that accepts the path is found: nothing is selected only if nothing accepts -/
theorem sel_complete {rx : Regex} {tbl : List (Entry α)} {n : Node α} (hb : Built rx tbl n) {ss : List Str}
    (h : sel rx n ss = none) : ∀ x ∈ tbl, ¬ Accepts rx x.segs ss := by
  induction ss generalizing tbl n with
  | nil => intro x _ ha; exact (accepts_ne_nil ha).2 rfl
  | cons s rest ih =>
    cases hb with
    | @mk tbl seg subs ends endsOrd endsOk endsAll subsOrd subsOk subsAll subsBuilt =>
    intro x hx ha
    cases rest with
    | nil =>
      obtain ⟨p, hp, hacc⟩ := accepts_single ha
      obtain ⟨e, he, hep⟩ := endsAll x hx p hp
      simp only [sel, Option.map_eq_none_iff, List.find?_eq_none] at h
      apply h e he
      rw [segAcc_iff (endsOk e he).1, hep]
      exact hacc
    | cons t ss =>
      simp only [sel, Option.or_eq_none_iff] at h
      rcases accepts_multi ha with ⟨p, hp, hk⟩ | ⟨p, q, ps, hp, hacc, hrest⟩
      · obtain ⟨e, he, hep⟩ := endsAll x hx p hp
        -- the last end node is a catch-all, since the order is by kind
        have hs : e.seg.typ = .matchAll := (kind_star_iff (endsOk e he).1).2 (by rw [hep]; exact hk)
        rcases List.eq_nil_or_concat ends with rfl | ⟨as, l, rfl⟩
        · simp at he
        · have hl : l.seg.typ = .matchAll := by
            rw [List.concat_eq_append] at he endsOrd
            rcases List.mem_append.1 he with he | he
            · rw [List.map_append, List.pairwise_append] at endsOrd
              have := endsOrd.2.2 e.seg (List.mem_map_of_mem he) l.seg (by simp)
              have hle : e.seg.typ.ord ≤ l.seg.typ.ord := by
                rcases this with h | h <;> omega
              rw [hs] at hle
              revert hle
              cases l.seg.typ <;> simp [PTyp.ord]
            · simp at he; rw [← he]; exact hs
          have := h.2
          simp [lastStar, hl] at this
      · obtain ⟨sub, hs, hsp⟩ := subsAll x hx p (through_one.2 ⟨q, ps, hp⟩)
        have hn := selSubs_none h.1 sub hs (by rw [segAcc_iff (subsOk sub hs).1, hsp]; exact hacc)
        refine ih (subsBuilt sub hs) hn { x with segs := q :: ps } ?_ hrest
        rw [mem_below]
        exact ⟨by simp, x, hx, by rw [hp, hsp], rfl, rfl⟩

/-- what is selected: an accepting registered route that wins against all others -/
theorem sel_spec {rx : Regex} {tbl : List (Entry α)} {n : Node α} (hb : Built rx tbl n) {ss r : List Str}
    {e : EndNode α} (h : sel rx n ss = some (r, e)) :
    Accepts rx r ss ∧ FirstHandlers tbl r e.handlers ∧ LastUri tbl r e.uri ∧
      ∀ x ∈ tbl, Accepts rx x.segs ss → x.segs = r ∨ Wins tbl ss.length r x.segs := by
  induction ss generalizing tbl n r with
  | nil => cases n; simp [sel] at h
  | cons s rest ih =>
    cases hb with
    | @mk tbl seg subs ends endsOrd endsOk endsAll subsOrd subsOk subsAll subsBuilt =>
    cases rest with
    | nil =>
      simp only [sel, Option.map_eq_some_iff, Prod.mk.injEq] at h
      obtain ⟨e', hf, rfl, rfl⟩ := h
      rw [List.find?_eq_some_iff_append] at hf
      obtain ⟨hacc, as, bs, rfl, hnot⟩ := hf
      have he : e' ∈ as ++ e' :: bs := by simp
      obtain ⟨hok, hfh, hlu⟩ := endsOk e' he
      refine ⟨.last ((segAcc_iff hok s).1 hacc), hfh, hlu, ?_⟩
      intro x hx ha
      obtain ⟨p, hp, hpacc⟩ := accepts_single ha
      obtain ⟨e2, he2, hep2⟩ := endsAll x hx p hp
      obtain ⟨hok2, _, _⟩ := endsOk e2 he2
      have hacc2 : segAcc rx e2.seg s = true := by rw [segAcc_iff hok2, hep2]; exact hpacc
      by_cases hpe : p = e'.seg.pattern
      · left; rw [hp, hpe]
      · right
        rcases List.mem_append.1 he2 with hm | hm
        · have := hnot e2 hm; simp [hacc2] at this
        · rcases List.mem_cons.1 hm with rfl | hm
          · exact absurd hep2.symm hpe
          · rw [List.map_append, List.pairwise_append, List.map_cons, List.pairwise_cons] at endsOrd
            have hlt := endsOrd.2.1.1 e2.seg (List.mem_map_of_mem hm)
            refine ⟨[], e'.seg.pattern, [], p, [], ⟨rfl, hp, .inl (Ne.symm hpe)⟩, ?_⟩
            refine .inr (.inr (.inl ⟨rfl, rfl, rfl, ?_⟩))
            rw [← hep2, ← rank_eq hok, ← rank_eq hok2]
            rcases hlt with hlt | ⟨heq, hbf⟩
            · exact .inl hlt
            · refine .inr ⟨heq, ?_⟩
              rw [hp, ← hep2]; exact hbf
    | cons t ss =>
      simp only [sel, Option.or_eq_some_iff] at h
      rcases h with h | ⟨hnone, h⟩
      · obtain ⟨as, m, bs, r0, rfl, hacc, hsel, rfl, hnot⟩ := selSubs_some h
        have hm : m ∈ as ++ m :: bs := by simp
        obtain ⟨hok, _⟩ := subsOk m hm
        obtain ⟨i1, i2, i3, i4⟩ := ih (subsBuilt m hm) hsel
        have hr0 := (accepts_ne_nil i1).1
        obtain ⟨q0, rs0, rfl⟩ : ∃ q0 rs0, r0 = q0 :: rs0 := by
          cases r0 with
          | nil => exact absurd rfl hr0
          | cons a b => exact ⟨a, b, rfl⟩
        refine ⟨.cons ((segAcc_iff hok s).1 hacc) i1, i2.of_below hr0, i3.of_below hr0, ?_⟩
        intro x hx ha
        rcases accepts_multi ha with ⟨p, hp, hk⟩ | ⟨p, q, ps, hp, hpacc, hrest⟩
        · right
          refine ⟨[], m.seg.pattern, q0 :: rs0, p, [], ⟨rfl, hp, .inr (.inr ⟨by simp, rfl⟩)⟩, ?_⟩
          exact .inr (.inl ⟨by simp, rfl, hk, by simp⟩)
        · obtain ⟨m2, hm2, hmp2⟩ := subsAll x hx p (through_one.2 ⟨q, ps, hp⟩)
          obtain ⟨hok2, _⟩ := subsOk m2 hm2
          have hacc2 : segAcc rx m2.seg s = true := by rw [segAcc_iff hok2, hmp2]; exact hpacc
          have hx' : (⟨q :: ps, x.handlers, x.uri⟩ : Entry α) ∈ below p tbl := by
            rw [mem_below]; exact ⟨by simp, x, hx, hp, rfl, rfl⟩
          by_cases hpm : p = m.seg.pattern
          · subst hpm
            rcases i4 _ hx' hrest with h | h
            · left; rw [hp]; simp at h; simp [h]
            · right; rw [hp]; exact h.lift
          · right
            rcases List.mem_append.1 hm2 with hm' | hm'
            · have hn := hnot m2 hm' hacc2
              exact absurd hrest (sel_complete (subsBuilt m2 hm2) hn _ (by rw [hmp2]; exact hx'))
            · rcases List.mem_cons.1 hm' with rfl | hm'
              · exact absurd hmp2.symm hpm
              · rw [List.map_append, List.pairwise_append, List.map_cons, List.pairwise_cons] at subsOrd
                have hlt := subsOrd.2.1.1 m2.seg (List.mem_map_of_mem hm')
                refine ⟨[], m.seg.pattern, q0 :: rs0, p, q :: ps, ⟨rfl, hp, .inl (Ne.symm hpm)⟩, ?_⟩
                refine .inl ⟨by simp, by simp, ?_⟩
                rw [← hmp2, ← rank_eq hok, ← rank_eq hok2]
                exact hlt
      · obtain ⟨as, rfl, rfl, ht⟩ := lastStar_some h
        have he : e ∈ as ++ [e] := by simp
        obtain ⟨hok, hfh, hlu⟩ := endsOk e he
        have hk := (kind_star_iff hok).1 ht
        refine ⟨.rest hk, hfh, hlu, ?_⟩
        intro x hx ha
        rcases accepts_multi ha with ⟨p, hp, hkp⟩ | ⟨p, q, ps, hp, hpacc, hrest⟩
        · by_cases hpe : p = e.seg.pattern
          · left; rw [hp, hpe]
          · right
            obtain ⟨e2, he2, hep2⟩ := endsAll x hx p hp
            obtain ⟨hok2, _, _⟩ := endsOk e2 he2
            have hm : e2 ∈ as := by
              rcases List.mem_append.1 he2 with hm | hm
              · exact hm
              · simp at hm; rw [hm] at hep2; exact absurd hep2.symm hpe
            rw [List.map_append, List.pairwise_append] at endsOrd
            have hlt := endsOrd.2.2 e2.seg (List.mem_map_of_mem hm) e.seg (by simp)
            have ht2 : e2.seg.typ = .matchAll := (kind_star_iff hok2).2 (by rw [hep2]; exact hkp)
            refine ⟨[], e.seg.pattern, [], p, [], ⟨rfl, hp, .inl (Ne.symm hpe)⟩, ?_⟩
            refine .inr (.inr (.inr ⟨rfl, rfl, by simp, hk, hkp, ?_⟩))
            rcases hlt with hlt | ⟨_, hbf⟩
            · rw [ht, ht2] at hlt; omega
            · rw [hp, ← hep2]; exact hbf
        · exfalso
          obtain ⟨m2, hm2, hmp2⟩ := subsAll x hx p (through_one.2 ⟨q, ps, hp⟩)
          obtain ⟨hok2, _⟩ := subsOk m2 hm2
          have hn := selSubs_none hnone m2 hm2 (by rw [segAcc_iff hok2, hmp2]; exact hpacc)
          refine sel_complete (subsBuilt m2 hm2) hn ⟨q :: ps, x.handlers, x.uri⟩ ?_ hrest
          rw [mem_below]; exact ⟨by simp, x, hx, by rw [hp, hmp2], rfl, rfl⟩

end Water
