import Verif.Lemmas.Static
import Verif.Spec.Register
/- Helper lemmas: when patterns are accepted and when a routing tree can be built. -/
namespace Water
open Spec
variable {α : Type}

theorem partternRegexp_iff {p : Str} {n : Nat} (hgt : gt ∈ p) :
    (∃ r, partternRegexp p n = .ok r) ↔ n ≠ 0 ∧ tilde ∈ p.takeWhile (· != gt) ∧
      (lparen ∈ p ∨ rparen ∈ p → (regexText p).count lparen = n ∧ (regexText p).count rparen = n) := by
  obtain ⟨j, hj⟩ := exists_indexByte hgt
  have htw := takeWhile_index hj
  unfold partternRegexp
  by_cases hn : n = 0
  · simp [hn]
  · rw [if_neg hn, hj]
    cases hi : indexByte p tilde with
    | none =>
      have h1 := indexByte_none.1 hi
      simp only [reduceCtorEq, exists_const, false_iff, not_and]
      intro _ h2
      exact absurd (List.takeWhile_subset _ h2) h1
    | some i =>
      simp only []
      have hlt : tilde ∈ p.takeWhile (· != gt) ↔ i + 1 ≤ j := by
        rw [htw]
        constructor
        · intro hm
          obtain ⟨k, hk⟩ := List.getElem?_of_mem hm
          have hk1 := (List.getElem?_eq_some_iff.1 hk).1
          rw [List.length_take] at hk1
          rw [List.getElem?_take_of_lt (by omega)] at hk
          rcases Nat.lt_or_ge k i with h | h
          · refine absurd ?_ (indexByte_eq_some_iff.1 hi).2
            exact List.mem_of_getElem? (i := k) (by rw [List.getElem?_take_of_lt h]; exact hk)
          · omega
        · intro hle
          have h1 := (indexByte_eq_some_iff.1 hi).1
          have : (p.take j)[i]? = some tilde := by rw [List.getElem?_take_of_lt (by omega)]; exact h1
          exact List.mem_of_getElem? this
      rw [hlt]
      by_cases hle : j < i + 1
      · simp only [hle, if_true, reduceCtorEq, exists_const, false_iff]
        omega
      · simp only [hle, if_false]
        have hre : trimSpace ((p.take j).drop (i + 1)) = regexText p := by
          unfold regexText
          rw [htw, dropWhile_index (indexByte_take hi (by omega)), List.drop_drop]
        rw [hre]
        by_cases hp : lparen ∈ p ∨ rparen ∈ p
        · have hc := containsAny_two.2 hp
          rw [hc]
          have e1 : countByte (regexText p) lparen = (regexText p).count lparen := rfl
          have e2 : countByte (regexText p) rparen = (regexText p).count rparen := rfl
          rw [e1, e2]
          by_cases h3 : (regexText p).count lparen = n
          · by_cases h4 : (regexText p).count rparen = n
            · simp [h3, h4, hn]; omega
            · simp [h3, h4, hn, hp]
              have : ¬ n = (regexText p).count rparen := fun h => h4 h.symm
              simp [this]
          · simp [h3, hp]
        · have hc : containsAny p [lparen, rparen] = false := by
            cases h : containsAny p [lparen, rparen] with
            | false => rfl
            | true => exact absurd (containsAny_two.1 h) hp
          simp only [hc, Bool.false_and, Bool.false_eq_true, if_false, Except.ok.injEq, exists_eq', hp, false_implies,
            and_true, true_iff]
          exact ⟨hn, by omega⟩

theorem splitB_length_pos (c : UInt8) (s : Str) : (splitB c s).length ≠ 0 := by
  intro h; exact splitB_ne_nil c s (List.length_eq_zero_iff.1 h)

/-- `analyzePattern` succeeds exactly on well-formed segments -/
theorem analyze_iff {rx : Regex} {p : Str} : (∃ seg, analyzePattern rx p = .ok seg) ↔ WellFormed rx p := by
  unfold WellFormed
  by_cases hsp : trimSpace p = p
  · unfold analyzePattern
    simp only [hsp, ne_eq, not_true, if_false, true_and, bind, Except.bind]
    by_cases hs : p.head? = some star
    · have hg : getparsedPattern p = .ok p := by
        unfold getparsedPattern; rw [if_pos (hasPrefix_one.2 hs)]
      rw [hg]
      simp only [hasPrefix_one.2 hs, if_true, hs, true_or, iff_true]
      exact ⟨_, rfl⟩
    · by_cases hb : lt ∈ p ∨ gt ∈ p
      · have hnb : ¬ (lt ∉ p ∧ gt ∉ p) := by
          rintro ⟨h1, h2⟩; rcases hb with h | h
          · exact h1 h
          · exact h2 h
        have hne : p ≠ [] := by rintro rfl; simp at hb
        by_cases hbr : p.head? = some lt ∧ p.getLast? = some gt
        · have hg : getparsedPattern p = .ok (nameText p) := by
            cases hgp : getparsedPattern p with
            | ok q => rw [(getparsed_bracket hgp hs hb).2.2]
            | error er =>
              exfalso
              unfold getparsedPattern at hgp
              rw [if_neg (fun h' => hs (hasPrefix_one.1 h')), if_neg (by simpa using containsAny_two.2 hb)] at hgp
              have h0 : indexByte p lt = some 0 := by
                rw [indexByte_eq_some_iff]
                exact ⟨by rw [← List.head?_eq_getElem?]; exact hbr.1, by simp⟩
              have h1 := (lastIndexByte_last hne).2 hbr.2
              simp only [h0, h1] at hgp
              simp at hgp
          have hlt : lt ∈ p := List.mem_of_head? hbr.1
          have hgt : gt ∈ p := List.mem_of_getLast? hbr.2
          rw [hg]
          have hls : ¬ (some lt = some star) := by decide
          simp only [hnb, hbr.1, hbr.2, hls, false_or, true_and]
          by_cases hq : (nameText p).head? = some star
          · have hk : kind p ≠ .regexp := by simp [kind, hs, hlt, hq]
            simp only [hasPrefix_one.2 hq, if_true]
            exact ⟨fun _ h => absurd h hk, fun _ => ⟨_, rfl⟩⟩
          · rw [if_neg (fun h' => hq (hasPrefix_one.1 h')), if_pos (containsStr_one.2 hlt)]
            by_cases ht : tilde ∈ p
            · have hk : kind p = .regexp := by simp [kind, hs, hlt, hq, ht]
              rw [if_pos (containsStr_one.2 ht)]
              simp only [hk, true_implies]
              have hw : getWildcards (nameText p) = regexNames p := rfl
              rw [hw]
              have hlen : (regexNames p).length ≠ 0 := by
                unfold regexNames; rw [List.length_map]; exact splitB_length_pos _ _
              have := partternRegexp_iff (p := p) (n := (regexNames p).length) hgt
              cases hpr : partternRegexp p (regexNames p).length with
              | error er =>
                rw [hpr] at this
                refine iff_of_false (by rintro ⟨_, h⟩; cases h) ?_
                rintro ⟨h1, h2, _⟩
                obtain ⟨r, hr⟩ := this.2 ⟨hlen, h1, h2⟩
                cases hr
              | ok r =>
                have hr := partternRegexp_ok hpr
                rw [hpr] at this
                obtain ⟨_, h1, h2⟩ := this.1 ⟨r, rfl⟩
                simp only [h1, true_and, ← hr]
                cases hcomp : rx.compiles r with
                | false => simp
                | true =>
                  refine iff_of_true ?_ ⟨by rw [hr]; exact h2, rfl⟩
                  exact ⟨_, rfl⟩
            · rw [if_neg (fun h' => ht (containsStr_one.1 h'))]
              have hk : kind p ≠ .regexp := by simp [kind, hs, hlt, hq, ht]
              exact ⟨fun _ h => absurd h hk, fun _ => ⟨_, rfl⟩⟩
        · have hg : ∃ er, getparsedPattern p = .error er := by
            cases hgp : getparsedPattern p with
            | error er => exact ⟨er, rfl⟩
            | ok q =>
              have := getparsed_bracket hgp hs hb
              exact absurd ⟨this.1, this.2.1⟩ hbr
          obtain ⟨er, hg⟩ := hg
          rw [hg]
          simp only [hs, hnb, false_or]
          refine iff_of_false (by rintro ⟨_, h⟩; cases h) ?_
          rintro ⟨h1, h2, _⟩
          exact hbr ⟨h1, h2⟩
      · have hnb : lt ∉ p ∧ gt ∉ p := not_or.1 hb
        have hg : getparsedPattern p = .ok p := by
          unfold getparsedPattern
          rw [if_neg (fun h' => hs (hasPrefix_one.1 h')), if_pos (by simpa using fun h' => hb (containsAny_two.1 h'))]
        rw [hg]
        simp only [hnb, not_false_eq_true, and_self, true_or, or_true, iff_true]
        rw [if_neg (fun h' => hs (hasPrefix_one.1 h')), if_neg (fun h' => hnb.1 (containsStr_one.1 h'))]
        exact ⟨_, rfl⟩
  · unfold analyzePattern
    rw [if_pos (fun h => hsp h.symm)]
    simp [hsp]

/-- a registration can be added to a built tree exactly when its segments are well formed -/
theorem addSegs_iff {rx : Regex} {h : List α} {u : Str} {segs : List Str} (hne : segs ≠ [])
    {tbl : List (Entry α)} {n : Node α} (hb : Built rx tbl n) :
    (∃ n', addSegs rx h u segs n = .ok n') ↔ ∀ p ∈ segs, WellFormed rx p := by
  induction segs generalizing tbl n with
  | nil => exact absurd rfl hne
  | cons p rest ih =>
    cases hb with
    | @mk tbl seg subs ends endsOrd endsOk endsAll subsOrd subsOk subsAll subsBuilt =>
    cases rest with
    | nil =>
      simp only [addSegs, addEnd, bind, Except.bind, List.mem_singleton, forall_eq]
      cases hf : ends.findIdx? (fun e => e.seg.pattern == p) with
      | some i =>
        simp only [pure, Except.pure, Except.ok.injEq, exists_eq', true_iff]
        obtain ⟨hi, h1, _⟩ := List.findIdx?_eq_some_iff_getElem.1 hf
        have h2 := (endsOk ends[i] (List.getElem_mem hi)).1
        rw [beq_iff_eq] at h1
        rw [h1] at h2
        exact analyze_iff.1 ⟨_, h2⟩
      | none =>
        simp only []
        rw [← analyze_iff]
        cases ha : analyzePattern rx p with
        | error er => simp
        | ok seg => simp [pure, Except.pure]
    | cons q rest =>
      simp only [addSegs, bind, Except.bind]
      rw [List.forall_mem_cons]
      cases hf : subs.findIdx? (fun n => n.seg.pattern == p) with
      | some i =>
        obtain ⟨hi, h1, _⟩ := List.findIdx?_eq_some_iff_getElem.1 hf
        have h2 := (subsOk subs[i] (List.getElem_mem hi)).1
        rw [beq_iff_eq] at h1
        have h3 := subsBuilt subs[i] (List.getElem_mem hi)
        rw [h1] at h2
        have h4 := ih (by simp) h3
        have h5 := analyze_iff.1 ⟨_, h2⟩
        simp only [List.getElem?_eq_getElem hi, h5, true_and]
        rw [← h4]
        cases addSegs rx h u (q :: rest) subs[i] with
        | error er => simp
        | ok n' => simp [pure, Except.pure]
      | none =>
        simp only []
        rw [← analyze_iff]
        cases ha : analyzePattern rx p with
        | error er => simp
        | ok sseg =>
          simp only [Except.ok.injEq, exists_eq', true_and]
          have h4 := ih (n := Node.mk sseg [] []) (tbl := []) (by simp) (Built.empty rx _)
          rw [← h4]
          cases addSegs rx h u (q :: rest) (Node.mk sseg [] []) with
          | error er => simp
          | ok n' => simp [pure, Except.pure]

theorem buildStep_iff {rx : Regex} {rs : List (Route α)} {e : Engine α} {v : Route α}
    (hv : v.variant = variantUri v.uri) (hh : v.uri.head? = some slash) (hm : v.method ∈ methodNames)
    (hinv : EngineInv rx rs e) :
    (∃ e', buildStep rx e v = .ok e') ↔ ∀ p ∈ routeSegs v.uri, WellFormed rx p := by
  have hmi : ∃ i, methodIndex v.method = some i := by
    simp only [methodNames, List.mem_cons, List.not_mem_nil, or_false] at hm
    rcases hm with h | h | h | h | h | h | h <;> rw [h] <;> exact ⟨_, rfl⟩
  obtain ⟨i, hi⟩ := hmi
  have hb : ∃ tbl, Built rx tbl ((e.trees i).getD newTree) := by
    have := hinv v.method i hi
    cases ht : e.trees i with
    | none => exact ⟨[], Built.empty rx _⟩
    | some t => rw [ht] at this; exact ⟨_, this.1⟩
  obtain ⟨tbl, hb⟩ := hb
  have hseg : addSegments v.variant = routeSegs v.uri := by rw [hv]; exact addSegments_variantUri hh
  rw [← addSegs_iff (h := v.handlers) (u := v.uri) (routeSegs_ne_nil v.uri) hb]
  unfold buildStep
  rw [hi]
  simp only [bind, Except.bind, Node.add]
  rw [hseg]
  cases addSegs rx v.handlers v.uri (routeSegs v.uri) ((e.trees i).getD newTree) with
  | error er => simp
  | ok t' =>
    simp only [pure, Except.pure, Except.ok.injEq, exists_eq', iff_true]
    split <;> exact ⟨_, rfl⟩

theorem buildTree_iff {rx : Regex} {vs rs : List (Route α)} {e : Engine α}
    (hv : ∀ v ∈ vs, v.variant = variantUri v.uri ∧ v.uri.head? = some slash ∧ v.method ∈ methodNames)
    (hinv : EngineInv rx rs e) :
    (∃ e', buildTree rx e vs = .ok e') ↔ ∀ v ∈ vs, ∀ p ∈ routeSegs v.uri, WellFormed rx p := by
  induction vs generalizing rs e with
  | nil => simp [buildTree]
  | cons v vs ih =>
    obtain ⟨h1, h2, h3⟩ := hv v (by simp)
    rw [List.forall_mem_cons, ← buildStep_iff h1 h2 h3 hinv]
    unfold buildTree
    cases hs : buildStep rx e v with
    | error er => simp [bind, Except.bind]
    | ok e' =>
      simp only [bind, Except.bind, Except.ok.injEq, exists_eq', true_and]
      exact ih (fun x hx => hv x (by simp [hx])) (buildStep_inv h1 h2 hinv hs)

theorem pathForm_iff {uri : Str} : (uri = [slash] ∨ checkSplitPattern uri = true) ↔ PathForm uri := by
  unfold PathForm
  have : checkSplitPattern uri = true ↔ uri.head? = some slash ∧ uri.getLast? ≠ some slash := by
    unfold checkSplitPattern
    cases uri with
    | nil => simp
    | cons x xs =>
      cases h : (x :: xs).getLast? with
      | none => simp at h
      | some l => simp
  rw [this]

/-- building the engine succeeds exactly when all paths have the right form and all segments are well formed -/
theorem mkEngine_iff {rx : Regex} {st : Bool} {nf : List α} {rs : List (Route α)}
    (hm : ∀ v ∈ rs, v.method ∈ methodNames) :
    (∃ e, mkEngine rx st nf rs = .ok e) ↔
      ∀ v ∈ rs, PathForm v.uri ∧ ∀ p ∈ routeSegs v.uri, WellFormed rx p := by
  constructor
  · rintro ⟨e, h⟩
    have h1 := (mkEngine_inv h).2.2.2
    unfold mkEngine at h
    cases hc : checkRoutes rs with
    | error er => rw [hc] at h; simp [bind, Except.bind] at h
    | ok rs' =>
      rw [hc] at h
      simp only [bind, Except.bind] at h
      have h2 := (checkRoutes_ok hc).1
      subst h2
      have := (buildTree_iff (rs := []) (e := newEngine st nf) (rx := rx) (vs := rs.map (fun v => { v with variant := variantUri v.uri }))
        (by
          intro v hv
          obtain ⟨w, hw, rfl⟩ := List.mem_map.1 hv
          exact ⟨rfl, head_of_check (h1 w hw), hm w hw⟩)
        (by intro m i _; simp [newEngine, tableFor])).1 ⟨e, h⟩
      intro v hv
      exact ⟨pathForm_iff.1 (h1 v hv), this { v with variant := variantUri v.uri } (List.mem_map.2 ⟨v, hv, rfl⟩)⟩
  · intro hall
    have h1 : ∀ v ∈ rs, v.uri = [slash] ∨ checkSplitPattern v.uri = true := fun v hv => pathForm_iff.2 (hall v hv).1
    have hc : checkRoutes rs = .ok (rs.map (fun v => { v with variant := variantUri v.uri })) := by
      clear hm hall
      induction rs with
      | nil => rfl
      | cons v vs ih =>
        unfold checkRoutes
        have h2 : (v.uri == [slash] || checkSplitPattern v.uri) = true := by
          rcases h1 v (by simp) with h2 | h2 <;> simp [h2]
        rw [h2, ih (fun x hx => h1 x (by simp [hx]))]
        rfl
    unfold mkEngine
    rw [hc]
    simp only [bind, Except.bind]
    refine (buildTree_iff (rs := []) (e := newEngine st nf) (rx := rx) ?_ ?_).2 ?_
    · intro v hv
      obtain ⟨w, hw, rfl⟩ := List.mem_map.1 hv
      exact ⟨rfl, head_of_check (h1 w hw), hm w hw⟩
    · intro m i _; simp [newEngine, tableFor]
    · intro v hv
      obtain ⟨w, hw, rfl⟩ := List.mem_map.1 hv
      exact (hall w hw).2

end Water
