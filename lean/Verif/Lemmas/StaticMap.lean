import Verif.Lemmas.Static
import Verif.Spec.Static
/- Helper lemmas: the static map holds every literal route. -/
namespace Water
open Spec
variable {α : Type}

theorem mem_skipEmpty : ∀ {l : List Str} {x : Str}, x ∈ l → x ≠ [] → x ∈ skipEmpty l
  | [], _, h, _ => by cases h
  | [s], _, h, _ => h
  | s :: t :: r, x, h, hx => by
    simp only [skipEmpty]
    rcases List.mem_cons.1 h with rfl | h
    · rw [if_neg hx]; simp
    · split
      · rcases List.mem_cons.1 h with rfl | h
        · simp
        · exact List.mem_cons_of_mem _ (mem_skipEmpty h hx)
      · exact List.mem_cons_of_mem _ (mem_skipEmpty h hx)

/-- a literal route is its own translation -/
theorem variantUri_of_literal {u : Str} (hc : u = [slash] ∨ checkSplitPattern u = true) (hl : ∀ p ∈ routeSegs u, kind p = .literal) :
    variantUri u = u := by
  rcases hc with rfl | hc
  · decide
  · have hh : u.head? = some slash := head_of_check (.inr hc)
    have hlast : u.getLast? ≠ some slash := by
      unfold checkSplitPattern at hc
      rw [hh] at hc
      cases hg : u.getLast? with
      | none => simp
      | some l => rw [hg] at hc; simp at hc; simp [hc]
    rw [variantUri_eq hh]
    have hmap : (splitB slash u).map ginSeg = splitB slash u := by
      conv => rhs; rw [← List.map_id (splitB slash u)]
      refine List.map_congr_left (fun s hs => ?_)
      by_cases he : ginSeg s = []
      · rw [he, ginSeg_eq_nil.1 he]; rfl
      · refine ginSeg_literal (hl _ ?_)
        unfold routeSegs
        rw [if_neg hlast]
        exact mem_skipEmpty (List.mem_map_of_mem hs) he
    rw [hmap, join_splitB]

theorem static_of_literal {rx : Regex} {seg : Seg} {p : Str} (h : analyzePattern rx p = .ok seg) (hk : kind p = .literal) :
    seg.typ = .static := by
  obtain ⟨_, _, h3, _⟩ := analyze_spec h
  rw [hk] at h3
  cases ht : seg.typ <;> rw [ht] at h3 <;> simp [PTyp.kind] at h3 ⊢

/-- the nodes of a literal pattern are static -/
theorem staticPath_complete {rx : Regex} {tbl : List (Entry α)} {n : Node α} (hb : Built rx tbl n) (hn : n.seg.typ = .static)
    {x : Entry α} (hx : x ∈ tbl) (hl : ∀ p ∈ x.segs, kind p = .literal) (hne : x.segs ≠ []) : staticPath x.segs n = true := by
  obtain ⟨segs, hsegs⟩ : ∃ segs, x.segs = segs := ⟨_, rfl⟩
  rw [hsegs] at hl hne ⊢
  induction segs generalizing tbl n x with
  | nil => exact absurd rfl hne
  | cons p rest ih =>
    have he := fun seg subs ends (h : n = .mk seg subs ends) => (h ▸ hb).ends_ne
    have hs := fun seg subs ends (h : n = .mk seg subs ends) => (h ▸ hb).subs_ne
    cases n with
    | mk seg subs ends =>
      have he := he _ _ _ rfl
      have hs := hs _ _ _ rfl
      cases hb with
      | mk endsOrd endsOk endsAll subsOrd subsOk subsAll subsBuilt =>
        cases rest with
        | nil =>
          obtain ⟨e, hem, rfl⟩ := endsAll x hx p hsegs
          simp only [staticPath, Bool.and_eq_true, beq_iff_eq]
          refine ⟨hn, ?_⟩
          rw [find_of_pairwise (f := fun e : EndNode α => e.seg.pattern) he hem]
          simpa using static_of_literal (endsOk e hem).1 (hl _ (by simp))
        | cons q rest =>
          obtain ⟨s, hsm, rfl⟩ := subsAll x hx p ⟨q, rest, by rw [hsegs]; rfl⟩
          simp only [staticPath, Bool.and_eq_true, beq_iff_eq]
          refine ⟨hn, ?_⟩
          rw [find_of_pairwise (f := fun e : Node α => e.seg.pattern) hs hsm]
          simp only []
          exact ih (subsBuilt s hsm) (static_of_literal (subsOk s hsm).1 (hl _ (by simp)))
            (x := { x with segs := q :: rest }) (mem_below.2 ⟨by simp, x, hx, hsegs, rfl, rfl⟩) 
            (by simp) (fun p hp => hl p (by simp only [List.mem_cons] at hp ⊢; exact .inr hp)) rfl

/-- the end node of a registered pattern -/
theorem endAt_complete {rx : Regex} {tbl : List (Entry α)} {n : Node α} (hb : Built rx tbl n) {x : Entry α} (hx : x ∈ tbl)
    (hne : x.segs ≠ []) :
    ∃ e, endAt x.segs n = some e ∧ FirstHandlers tbl x.segs e.handlers ∧ LastUri tbl x.segs e.uri := by
  obtain ⟨segs, hsegs⟩ : ∃ segs, x.segs = segs := ⟨_, rfl⟩
  rw [hsegs] at hne ⊢
  induction segs generalizing tbl n x with
  | nil => exact absurd rfl hne
  | cons p rest ih =>
    have he := fun seg subs ends (h : n = .mk seg subs ends) => (h ▸ hb).ends_ne
    have hs := fun seg subs ends (h : n = .mk seg subs ends) => (h ▸ hb).subs_ne
    cases n with
    | mk seg subs ends =>
      have he := he _ _ _ rfl
      have hs := hs _ _ _ rfl
      cases hb with
      | mk endsOrd endsOk endsAll subsOrd subsOk subsAll subsBuilt =>
        cases rest with
        | nil =>
          obtain ⟨e, hem, rfl⟩ := endsAll x hx p hsegs
          exact ⟨e, find_of_pairwise (f := fun e : EndNode α => e.seg.pattern) he hem, (endsOk e hem).2⟩
        | cons q rest =>
          obtain ⟨s, hsm, rfl⟩ := subsAll x hx p ⟨q, rest, by rw [hsegs]; rfl⟩
          obtain ⟨e, h1, h2, h3⟩ := ih (subsBuilt s hsm) (x := { x with segs := q :: rest })
            (mem_below.2 ⟨by simp, x, hx, hsegs, rfl, rfl⟩) (by simp) rfl
          refine ⟨e, ?_, h2.of_below (by simp), h3.of_below (by simp)⟩
          simp only [endAt]
          rw [find_of_pairwise (f := fun e : Node α => e.seg.pattern) hs hsm]
          exact h1

/-- every literal route is in the static map -/
def StaticAll (rs : List (Route α)) (e : Engine α) : Prop :=
  ∀ v ∈ rs, (∀ p ∈ routeSegs v.uri, kind p = .literal) → ∀ i, methodIndex v.method = some i →
    e.statics i (variantUri v.uri) = some (routeSegs v.uri)

theorem staticAll_step {rx : Regex} {rs : List (Route α)} {e e' : Engine α} {v : Route α}
    (hv : v.variant = variantUri v.uri) (hh : v.uri.head? = some slash) (hrs : ∀ w ∈ rs, w.uri.head? = some slash)
    (hst : e.enableStatic = true) (hinv : EngineInv rx rs e) (hs : StaticAll rs e) (h : buildStep rx e v = .ok e') :
    StaticAll (rs ++ [v]) e' ∧ e'.enableStatic = true := by
  have hinv' := buildStep_inv hv hh hinv h
  unfold buildStep at h
  cases hm : methodIndex v.method with
  | none => rw [hm] at h; cases h
  | some i =>
    rw [hm] at h
    simp only [bind, Except.bind] at h
    cases ha : Node.add rx ((e.trees i).getD newTree) v.variant v.handlers v.uri with
    | error er => rw [ha] at h; simp at h
    | ok t' =>
      rw [ha] at h
      simp only [pure, Except.pure, hst, Bool.true_and] at h
      have hseg : addSegments v.variant = routeSegs v.uri := by rw [hv]; exact addSegments_variantUri hh
      split at h
      · rename_i hc
        injection h with h
        subst h
        refine ⟨?_, rfl⟩
        intro w hw hl j hj
        simp only [setAt]
        by_cases hji : j = i
        · subst hji
          simp only [if_true, Map.set]
          by_cases huv : variantUri w.uri = v.variant
          · rw [if_pos huv, ← huv]
            congr 1
            refine addSegments_variantUri ?_
            rcases List.mem_append.1 hw with hw | hw
            · exact hrs w hw
            · simp at hw; rw [hw]; exact hh
          · rw [if_neg huv]
            rcases List.mem_append.1 hw with hw | hw
            · exact hs w hw hl j hj
            · simp at hw; subst hw; exact absurd hv.symm huv
        · rw [if_neg hji]
          rcases List.mem_append.1 hw with hw | hw
          · exact hs w hw hl j hj
          · simp at hw; subst hw; rw [hm] at hj; injection hj with hj; exact absurd hj.symm hji
      · rename_i hc
        injection h with h
        subst h
        refine ⟨?_, rfl⟩
        intro w hw hl j hj
        rcases List.mem_append.1 hw with hw | hw
        · exact hs w hw hl j hj
        · simp at hw
          subst hw
          exfalso
          rw [hm] at hj
          injection hj with hj
          subst hj
          have ht := hinv' w.method i hm
          simp only [setAt, if_true] at ht
          apply hc
          rw [hseg]
          exact staticPath_complete ht.1 ht.2 (x := ⟨routeSegs w.uri, w.handlers, w.uri⟩)
            (mem_tableFor.2 ⟨w, by simp, rfl, rfl⟩) hl (routeSegs_ne_nil _)

theorem staticAll_tree {rx : Regex} {vs : List (Route α)} {rs : List (Route α)} {e e' : Engine α}
    (hv : ∀ v ∈ vs, v.variant = variantUri v.uri ∧ v.uri.head? = some slash) (hrs : ∀ w ∈ rs, w.uri.head? = some slash)
    (hst : e.enableStatic = true) (hinv : EngineInv rx rs e) (hs : StaticAll rs e) (h : buildTree rx e vs = .ok e') :
    StaticAll (rs ++ vs) e' := by
  induction vs generalizing rs e with
  | nil => simp [buildTree] at h; rw [← h]; simpa using hs
  | cons v vs ih =>
    unfold buildTree at h
    cases hb : buildStep rx e v with
    | error er => rw [hb] at h; simp [bind, Except.bind] at h
    | ok e1 =>
      rw [hb] at h; simp only [bind, Except.bind] at h
      have hv1 := hv v (by simp)
      obtain ⟨h1, h2⟩ := staticAll_step hv1.1 hv1.2 hrs hst hinv hs hb
      have := ih (rs := rs ++ [v]) (fun x hx => hv x (by simp [hx]))
        (fun w hw => by rcases List.mem_append.1 hw with hw | hw; exact hrs w hw; simp at hw; rw [hw]; exact hv1.2) h2
        (buildStep_inv hv1.1 hv1.2 hinv hb) h1 h
      simpa using this

theorem mkEngine_staticAll {rx : Regex} {nf : List α} {rs : List (Route α)} {e : Engine α}
    (h : mkEngine rx true nf rs = .ok e) : StaticAll rs e := by
  unfold mkEngine at h
  cases hc : checkRoutes rs with
  | error er => rw [hc] at h; simp [bind, Except.bind] at h
  | ok rs' =>
    rw [hc] at h; simp only [bind, Except.bind] at h
    obtain ⟨h1, h2⟩ := checkRoutes_ok hc
    subst h1
    have := staticAll_tree (rs := []) (e := newEngine true nf) (rx := rx) (e' := e) ?_ (by simp) rfl ?_ ?_ h
    · intro v hv hl i hi
      exact this { v with variant := variantUri v.uri } (by simp only [List.nil_append]; exact List.mem_map_of_mem (f := fun v : Route α => { v with variant := variantUri v.uri }) hv) hl i hi
    · intro v hv
      obtain ⟨w, hw, rfl⟩ := List.mem_map.1 hv
      exact ⟨rfl, head_of_check (h2 w hw)⟩
    · intro m i _; simp [newEngine, tableFor]
    · intro v hv; simp at hv

end Water
