import Verif.Lemmas.Wins
import Verif.Spec.Routes
/- Helper lemmas: the trees of an engine are built from the registrations of each method. -/
namespace Water
open Spec
variable {α : Type}

theorem methodIndex_names {m : Str} {i : Nat} (h : methodIndex m = some i) : methodNames[i]? = some m := by
  unfold methodIndex at h
  repeat' split at h
  all_goals cases h
  all_goals (subst m; rfl)

theorem methodIndex_inj {m m' : Str} {i : Nat} (h : methodIndex m = some i) (h' : methodIndex m' = some i) : m = m' := by
  have h1 := methodIndex_names h
  rw [methodIndex_names h'] at h1
  injection h1 with h1; exact h1.symm

theorem checkRoutes_ok {rs rs' : List (Route α)} (h : checkRoutes rs = .ok rs') :
    rs' = rs.map (fun v => { v with variant := variantUri v.uri }) ∧
      ∀ v ∈ rs, v.uri = [slash] ∨ checkSplitPattern v.uri = true := by
  induction rs generalizing rs' with
  | nil => simp [checkRoutes] at h; subst h; simp
  | cons v vs ih =>
    unfold checkRoutes at h
    split at h
    · cases h
    · rename_i hc
      cases hr : checkRoutes vs with
      | error e => rw [hr] at h; simp [bind, Except.bind] at h
      | ok vs' =>
        rw [hr] at h; simp [bind, Except.bind, pure, Except.pure] at h
        obtain ⟨h1, h2⟩ := ih hr
        refine ⟨by rw [← h, h1]; rfl, ?_⟩
        intro x hx
        rcases List.mem_cons.1 hx with rfl | hx
        · by_cases hx : x.uri = [slash]
          · exact .inl hx
          · right; simp [hx] at hc; exact hc
        · exact h2 x hx

theorem head_of_check {uri : Str} (h : uri = [slash] ∨ checkSplitPattern uri = true) : uri.head? = some slash := by
  rcases h with rfl | h
  · rfl
  · unfold checkSplitPattern at h
    split at h
    · rename_i h1 _
      rw [h1]; simp at h; rw [h.1]
    · cases h

/-- state of the engine while routes are added -/
def EngineInv (rx : Regex) (rs : List (Route α)) (e : Engine α) : Prop :=
  ∀ m i, methodIndex m = some i →
    match e.trees i with
    | none => tableFor m rs = []
    | some t => Built rx (tableFor m rs) t ∧ t.seg.typ = .static

theorem tableFor_append (m : Str) (rs rs' : List (Route α)) :
    tableFor m (rs ++ rs') = tableFor m rs ++ tableFor m rs' := by
  simp [tableFor]

theorem buildStep_inv {rx : Regex} {rs : List (Route α)} {e e' : Engine α} {v : Route α}
    (hv : v.variant = variantUri v.uri) (hh : v.uri.head? = some slash)
    (hinv : EngineInv rx rs e) (h : buildStep rx e v = .ok e') : EngineInv rx (rs ++ [v]) e' := by
  unfold buildStep at h
  cases hm : methodIndex v.method with
  | none => rw [hm] at h; cases h
  | some i =>
    rw [hm] at h
    simp only [bind, Except.bind] at h
    cases ha : Node.add rx ((e.trees i).getD newTree) v.variant v.handlers v.uri with
    | error er => rw [ha] at h; simp at h
    | ok t' =>
      rw [ha] at h
      simp only [pure, Except.pure] at h
      have htrees : e'.trees = setAt e.trees i (some t') := by
        split at h <;> (injection h with h; rw [← h])
      intro m j hj
      rw [htrees]
      unfold setAt
      by_cases hji : j = i
      · subst hji
        have hmm := methodIndex_inj hj hm
        subst hmm
        simp only [if_true]
        have hb : Built rx (tableFor v.method rs) ((e.trees j).getD newTree) ∧
            ((e.trees j).getD newTree).seg.typ = .static := by
          have := hinv v.method j hj
          cases ht : e.trees j with
          | none => rw [ht] at this; simp only at this; rw [this]; exact ⟨Built.empty rx _, rfl⟩
          | some t => rw [ht] at this; exact this
        have hseg : addSegments v.variant = routeSegs v.uri := by rw [hv]; exact addSegments_variantUri hh
        unfold Node.add at ha
        rw [hseg] at ha
        refine ⟨?_, by rw [addSegs_seg ha]; exact hb.2⟩
        rw [tableFor_append]
        have : tableFor v.method [v] = [⟨routeSegs v.uri, v.handlers, v.uri⟩] := by simp [tableFor]
        rw [this]
        exact hb.1.addSegs (routeSegs_ne_nil _) ha
      · simp only [hji, if_false]
        have hmm : v.method ≠ m := by
          rintro rfl; rw [hm] at hj; injection hj with hj; exact hji hj.symm
        have : tableFor m (rs ++ [v]) = tableFor m rs := by
          rw [tableFor_append]; simp [tableFor, hmm]
        rw [this]
        exact hinv m j hj

theorem buildTree_inv {rx : Regex} {vs : List (Route α)} {rs : List (Route α)} {e e' : Engine α}
    (hv : ∀ v ∈ vs, v.variant = variantUri v.uri ∧ v.uri.head? = some slash)
    (hinv : EngineInv rx rs e) (h : buildTree rx e vs = .ok e') : EngineInv rx (rs ++ vs) e' := by
  induction vs generalizing rs e with
  | nil => simp [buildTree] at h; rw [← h]; simpa using hinv
  | cons v vs ih =>
    unfold buildTree at h
    cases hs : buildStep rx e v with
    | error er => rw [hs] at h; simp [bind, Except.bind] at h
    | ok e1 =>
      rw [hs] at h; simp only [bind, Except.bind] at h
      have hv1 := hv v (by simp)
      have := ih (rs := rs ++ [v]) (fun x hx => hv x (by simp [hx])) (buildStep_inv hv1.1 hv1.2 hinv hs) h
      simpa using this

theorem tableFor_variant (m : Str) (rs : List (Route α)) :
    tableFor m (rs.map (fun v => { v with variant := variantUri v.uri })) = tableFor m rs := by
  unfold tableFor
  rw [List.filter_map, List.map_map]
  rfl

theorem buildTree_fields {rx : Regex} {vs : List (Route α)} {e e' : Engine α} (h : buildTree rx e vs = .ok e') :
    e'.enableStatic = e.enableStatic ∧ e'.noFound = e.noFound := by
  induction vs generalizing e with
  | nil => simp [buildTree] at h; rw [← h]; simp
  | cons v vs ih =>
    unfold buildTree at h
    cases hs : buildStep rx e v with
    | error er => rw [hs] at h; simp [bind, Except.bind] at h
    | ok e1 =>
      rw [hs] at h; simp only [bind, Except.bind] at h
      have h2 : e1.enableStatic = e.enableStatic ∧ e1.noFound = e.noFound := by
        unfold buildStep at hs
        split at hs
        · cases hs
        · rename_i i hm
          simp only [] at hs
          cases ha : Node.add rx ((e.trees i).getD newTree) v.variant v.handlers v.uri with
          | error er => rw [ha] at hs; simp [bind, Except.bind] at hs
          | ok t' =>
            rw [ha] at hs
            simp only [bind, Except.bind, pure, Except.pure] at hs
            split at hs <;> (injection hs with hs; rw [← hs]; simp)
      rw [(ih h).1, (ih h).2]; exact h2

/-- Everything about a built engine's trees. -/
theorem mkEngine_inv {rx : Regex} {st : Bool} {nf : List α} {rs : List (Route α)} {e : Engine α}
    (h : mkEngine rx st nf rs = .ok e) :
    EngineInv rx rs e ∧ e.enableStatic = st ∧ e.noFound = nf ∧
      ∀ v ∈ rs, v.uri = [slash] ∨ checkSplitPattern v.uri = true := by
  unfold mkEngine at h
  cases hc : checkRoutes rs with
  | error er => rw [hc] at h; simp [bind, Except.bind] at h
  | ok rs' =>
    rw [hc] at h; simp only [bind, Except.bind] at h
    obtain ⟨h1, h2⟩ := checkRoutes_ok hc
    subst h1
    have hf := buildTree_fields h
    refine ⟨?_, hf.1, hf.2, h2⟩
    have := buildTree_inv (rs := []) (e := newEngine st nf) (rx := rx) (e' := e) ?_ ?_ h
    · intro m i hi
      have h3 := this m i hi
      rw [List.nil_append, tableFor_variant] at h3
      exact h3
    · intro v hv
      obtain ⟨w, hw, rfl⟩ := List.mem_map.1 hv
      exact ⟨rfl, head_of_check (h2 w hw)⟩
    · intro m i _; simp [newEngine, tableFor]

theorem mem_tableFor {m : Str} {rs : List (Route α)} {x : Entry α} :
    x ∈ tableFor m rs ↔ ∃ v ∈ rs, v.method = m ∧ x = ⟨routeSegs v.uri, v.handlers, v.uri⟩ := by
  unfold tableFor
  rw [List.mem_map]
  constructor
  · rintro ⟨v, hv, rfl⟩
    rw [List.mem_filter] at hv
    exact ⟨v, hv.1, by simpa using hv.2, rfl⟩
  · rintro ⟨v, hv, hm, rfl⟩
    exact ⟨v, List.mem_filter.2 ⟨hv, by simpa using hm⟩, rfl⟩

/-- tree lookup through `Match` -/
theorem matchUri_snd (rx : Regex) (t : Node α) (path : Str) :
    (matchUri rx (some t) path).2 = (sel rx t (pathSegs path)).map (·.2) := by
  unfold matchUri
  simp only []
  rw [matchNext_snd, pathSegs_eq]

/-- without the static map, the route for a request is what `sel` selects in the method's tree -/
theorem routeOf_spec {rx : Regex} {nf : List α} {rs : List (Route α)} {e : Engine α}
    (h : mkEngine rx false nf rs = .ok e) {m : Str} (hm : (methodIndex m).isSome) (path : Str) :
    (routeOf rx e m path = none ∧ ∀ x ∈ tableFor m rs, ¬ Accepts rx x.segs (pathSegs path)) ∨
    (∃ t r n, routeOf rx e m path = some n ∧ Built rx (tableFor m rs) t ∧ sel rx t (pathSegs path) = some (r, n)) := by
  obtain ⟨hinv, hst, _, _⟩ := mkEngine_inv h
  cases hi : methodIndex m with
  | none => rw [hi] at hm; cases hm
  | some i =>
    have h1 := hinv m i hi
    unfold routeOf lookup
    rw [hi, hst]
    cases ht : e.trees i with
    | none =>
      rw [ht] at h1
      left
      simp only [] at h1
      simp [h1, ht]
    | some t =>
      rw [ht] at h1
      simp only [Bool.false_eq_true, if_false, ht]
      rw [matchUri_snd]
      cases hs : sel rx t (pathSegs path) with
      | none => exact .inl ⟨rfl, sel_complete h1.1 hs⟩
      | some p =>
        obtain ⟨r, n⟩ := p
        exact .inr ⟨t, r, n, rfl, h1.1, hs⟩

theorem routeOf_unsupported {rx : Regex} {e : Engine α} {m path : Str} (hm : methodIndex m = none) :
    routeOf rx e m path = none := by
  unfold routeOf; rw [hm]

end Water
