import Verif.Model.Cost
import Verif.Lemmas.Engine
import Verif.Lemmas.Literal
import Verif.Spec.Cost
/-
The recorded search: it is the search, and what it examines is a part of the tree in a fixed order.
-/
namespace Water
open Spec
variable {α : Type}

theorem matchEndsT_snd (rx : Regex) (g : Nat) (uri : Str) (es : List (EndNode α)) (ps : Params) :
    (matchEndsT rx g uri es ps).2 = matchEnds rx g uri es ps := by
  induction es generalizing ps with
  | nil => rfl
  | cons e es ih =>
    unfold matchEndsT matchEnds
    dsimp only
    cases e.seg.typ with
    | static => dsimp only; split <;> simp [ih]
    | regexp => dsimp only; split <;> simp [ih]
    | holder => rfl
    | matchAll => rfl

theorem matchFallbackT_snd (g : Nat) (rest : Str) (es : List (EndNode α)) (ps : Params) :
    (matchFallbackT g rest es ps).2 = matchFallback g rest es ps := by
  unfold matchFallbackT matchFallback
  cases es.getLast? <;> rfl

mutual
theorem matchNextT_snd (rx : Regex) : ∀ (n : Node α) (g : Nat) (uri : Str) (ps : Params),
    (matchNextT rx n g uri ps).2 = matchNext rx n g uri ps
  | .mk _ subs ends, g, uri, ps => by
    rw [matchNextT, matchNext]
    cases indexByte uri slash with
    | none => exact matchEndsT_snd rx g uri ends ps
    | some i => exact matchSubsT_snd rx subs ends g _ _ ps

theorem matchSubsT_snd (rx : Regex) : ∀ (ns : List (Node α)) (ends : List (EndNode α)) (g : Nat) (s uri : Str) (ps : Params),
    (matchSubsT rx ns ends g s uri ps).2 = matchSubs rx ns ends g s uri ps
  | [], ends, g, s, uri, ps => by rw [matchSubsT, matchSubs, matchFallbackT_snd]
  | n :: ns, ends, g, s, uri, ps => by
    have hn := matchNextT_snd rx n
    have hs := matchSubsT_snd rx ns ends g s uri
    rw [matchSubsT, matchSubs]
    cases n.seg.typ with
    | static =>
      dsimp only
      split
      · rw [← hn]
        rcases matchNextT rx n g uri ps with ⟨t, ps', _ | e⟩
        · exact hs ps'
        · rfl
      · exact hs ps
    | regexp =>
      dsimp only
      split
      · exact hs ps
      · rw [← hn]
        rcases matchNextT rx n g uri _ with ⟨t, ps', _ | e⟩
        · exact hs ps'
        · rfl
    | holder =>
      dsimp only
      rw [← hn]
      rcases matchNextT rx n g uri ps with ⟨t, ps', _ | e⟩
      · exact hs ps'
      · rfl
    | matchAll =>
      dsimp only
      rw [← hn]
      rcases matchNextT rx n (g + 1) uri ps with ⟨t, ps', _ | e⟩
      · exact hs ps'
      · rfl
end

theorem lookupT_snd (rx : Regex) (e : Engine α) (i : Nat) (path : Str) : (lookupT rx e i path).2 = lookup rx e i path := by
  unfold lookupT lookup
  dsimp only
  generalize (if e.enableStatic = true then _ else _ : Option (EndNode α)) = st
  cases st with
  | some n => rfl
  | none =>
    dsimp only
    cases e.trees i with
    | none => rfl
    | some t =>
      simp only [matchUri]
      rw [← matchNextT_snd]

/-! ### the order of the tree -/

mutual
/-- the nodes below a node, in the order of the search -/
def Node.segsBelow : Node α → List Seg
  | .mk _ subs ends => segsBelowAll subs ++ ends.map (fun e => e.seg)
/-- some nodes, each followed by what is below it -/
def segsBelowAll : List (Node α) → List Seg
  | [] => []
  | n :: ns => n.seg :: (n.segsBelow ++ segsBelowAll ns)
end

theorem matchEndsT_sub (rx : Regex) (g : Nat) (uri : Str) (es : List (EndNode α)) (ps : Params) :
    ((matchEndsT rx g uri es ps).1.map Prod.fst).Sublist (es.map (fun e => e.seg)) ∧
    ∀ t ∈ (matchEndsT rx g uri es ps).1, t.2 = uri := by
  induction es generalizing ps with
  | nil => exact ⟨.slnil, by simp [matchEndsT]⟩
  | cons e es ih =>
    obtain ⟨h1, h2⟩ := ih ps
    have one : ([e.seg] : List Seg).Sublist ((e :: es).map (fun e => e.seg)) := by simp
    have go : ((e.seg :: (matchEndsT rx g uri es ps).1.map Prod.fst)).Sublist ((e :: es).map (fun e => e.seg)) :=
      h1.cons_cons _
    unfold matchEndsT
    dsimp only
    cases e.seg.typ with
    | static =>
      dsimp only
      split
      · exact ⟨by simpa using one, by simp⟩
      · refine ⟨by simpa using go, ?_⟩
        intro t ht
        rcases List.mem_cons.1 ht with rfl | ht
        · rfl
        · exact h2 t ht
    | regexp =>
      dsimp only
      split
      · refine ⟨by simpa using go, ?_⟩
        intro t ht
        rcases List.mem_cons.1 ht with rfl | ht
        · rfl
        · exact h2 t ht
      · exact ⟨by simpa using one, by simp⟩
    | holder => exact ⟨by simpa using one, by simp⟩
    | matchAll => exact ⟨by simpa using one, by simp⟩

theorem matchFallbackT_sub (g : Nat) (rest : Str) (es : List (EndNode α)) (ps : Params) :
    ((matchFallbackT g rest es ps).1.map Prod.fst).Sublist (es.map (fun e => e.seg)) ∧
    ∀ t ∈ (matchFallbackT g rest es ps).1, t.2 = [] := by
  unfold matchFallbackT
  cases h : es.getLast? with
  | none => exact ⟨by simp, by simp⟩
  | some e =>
    refine ⟨?_, by simp⟩
    simp only [List.map_cons, List.map_nil, List.singleton_sublist, List.mem_map]
    exact ⟨e, List.mem_of_getLast? h, rfl⟩

mutual
theorem matchNextT_sub (rx : Regex) : ∀ (n : Node α) (g : Nat) (uri : Str) (ps : Params),
    ((matchNextT rx n g uri ps).1.map Prod.fst).Sublist n.segsBelow
  | .mk _ subs ends, g, uri, ps => by
    rw [matchNextT, Node.segsBelow]
    cases indexByte uri slash with
    | none => exact (matchEndsT_sub rx g uri ends ps).1.trans (List.sublist_append_right _ _)
    | some i => exact matchSubsT_sub rx subs ends g _ _ ps

theorem matchSubsT_sub (rx : Regex) : ∀ (ns : List (Node α)) (ends : List (EndNode α)) (g : Nat) (s uri : Str) (ps : Params),
    ((matchSubsT rx ns ends g s uri ps).1.map Prod.fst).Sublist (segsBelowAll ns ++ ends.map (fun e => e.seg))
  | [], ends, g, s, uri, ps => by
    rw [matchSubsT, segsBelowAll]
    exact (matchFallbackT_sub g _ ends ps).1
  | n :: ns, ends, g, s, uri, ps => by
    have hn := matchNextT_sub rx n
    have hs := matchSubsT_sub rx ns ends g s uri
    have both : ∀ (t t' : Tests), (t.map Prod.fst).Sublist n.segsBelow →
        (t'.map Prod.fst).Sublist (segsBelowAll ns ++ ends.map (fun e => e.seg)) →
        (((n.seg, s) :: t ++ t').map Prod.fst).Sublist (segsBelowAll (n :: ns) ++ ends.map (fun e => e.seg)) := by
      intro t t' h1 h2
      simp only [segsBelowAll, List.map_append, List.map_cons, List.cons_append, List.append_assoc]
      exact (h1.append h2).cons_cons _
    have fst : ∀ (t : Tests), (t.map Prod.fst).Sublist n.segsBelow →
        (((n.seg, s) :: t).map Prod.fst).Sublist (segsBelowAll (n :: ns) ++ ends.map (fun e => e.seg)) := by
      intro t h1
      have := both t [] h1 (by simp)
      simpa using this
    have snd : ∀ (t : Tests), (t.map Prod.fst).Sublist (segsBelowAll ns ++ ends.map (fun e => e.seg)) →
        (((n.seg, s) :: t).map Prod.fst).Sublist (segsBelowAll (n :: ns) ++ ends.map (fun e => e.seg)) := by
      intro t h1
      exact both [] t (by simp) h1
    rw [matchSubsT]
    cases n.seg.typ with
    | static =>
      dsimp only
      split
      · have h1 := hn g uri ps
        rcases hr : matchNextT rx n g uri ps with ⟨t, ps', _ | e⟩ <;> rw [hr] at h1
        · exact both t _ h1 (hs ps')
        · exact fst t h1
      · exact snd _ (hs ps)
    | regexp =>
      dsimp only
      split
      · exact snd _ (hs ps)
      · have h1 := hn g uri (setAll ps n.seg.wildcards ((rx.find n.seg.reg s).drop 1))
        rcases hr : matchNextT rx n g uri (setAll ps n.seg.wildcards ((rx.find n.seg.reg s).drop 1)) with ⟨t, ps', _ | e⟩ <;>
          rw [hr] at h1
        · exact both t _ h1 (hs ps')
        · exact fst t h1
    | holder =>
      dsimp only
      have h1 := hn g uri ps
      rcases hr : matchNextT rx n g uri ps with ⟨t, ps', _ | e⟩ <;> rw [hr] at h1
      · exact both t _ h1 (hs ps')
      · exact fst t h1
    | matchAll =>
      dsimp only
      have h1 := hn (g + 1) uri ps
      rcases hr : matchNextT rx n (g + 1) uri ps with ⟨t, ps', _ | e⟩ <;> rw [hr] at h1
      · exact both t _ h1 (hs ps')
      · exact fst t h1
end

/-! ### the texts compared with -/

mutual
theorem matchNextT_text (rx : Regex) : ∀ (n : Node α) (g : Nat) (uri : Str) (ps : Params),
    ∀ t ∈ (matchNextT rx n g uri ps).1, t.2 = [] ∨ t.2 ∈ splitB slash uri
  | .mk _ subs ends, g, uri, ps => by
    rw [matchNextT]
    cases hi : indexByte uri slash with
    | none =>
      intro t ht
      right
      rw [(matchEndsT_sub rx g uri ends ps).2 t ht, splitB_index_none hi]
      simp
    | some i =>
      intro t ht
      have := matchSubsT_text rx subs ends g _ _ ps t ht
      rw [splitB_index_some hi]
      rcases this with h | h | h
      · exact .inl h
      · exact .inr (by simp [h])
      · exact .inr (List.mem_cons_of_mem _ h)

theorem matchSubsT_text (rx : Regex) : ∀ (ns : List (Node α)) (ends : List (EndNode α)) (g : Nat) (s uri : Str) (ps : Params),
    ∀ t ∈ (matchSubsT rx ns ends g s uri ps).1, t.2 = [] ∨ t.2 = s ∨ t.2 ∈ splitB slash uri
  | [], ends, g, s, uri, ps => by
    rw [matchSubsT]
    intro t ht
    exact .inl ((matchFallbackT_sub g _ ends ps).2 t ht)
  | n :: ns, ends, g, s, uri, ps => by
    have hn := matchNextT_text rx n
    have hs := matchSubsT_text rx ns ends g s uri
    have both : ∀ (t t' : Tests), (∀ x ∈ t, x.2 = [] ∨ x.2 ∈ splitB slash uri) →
        (∀ x ∈ t', x.2 = [] ∨ x.2 = s ∨ x.2 ∈ splitB slash uri) →
        ∀ x ∈ (n.seg, s) :: t ++ t', x.2 = [] ∨ x.2 = s ∨ x.2 ∈ splitB slash uri := by
      intro t t' h1 h2 x hx
      rcases List.mem_append.1 hx with hx | hx
      · rcases List.mem_cons.1 hx with rfl | hx
        · exact .inr (.inl rfl)
        · rcases h1 x hx with h | h
          · exact .inl h
          · exact .inr (.inr h)
      · exact h2 x hx
    have fst : ∀ (t : Tests), (∀ x ∈ t, x.2 = [] ∨ x.2 ∈ splitB slash uri) →
        ∀ x ∈ (n.seg, s) :: t, x.2 = [] ∨ x.2 = s ∨ x.2 ∈ splitB slash uri := by
      intro t h1
      have := both t [] h1 (by simp)
      simpa using this
    have snd : ∀ (t : Tests), (∀ x ∈ t, x.2 = [] ∨ x.2 = s ∨ x.2 ∈ splitB slash uri) →
        ∀ x ∈ (n.seg, s) :: t, x.2 = [] ∨ x.2 = s ∨ x.2 ∈ splitB slash uri := by
      intro t h1
      exact both [] t (by simp) h1
    rw [matchSubsT]
    cases n.seg.typ with
    | static =>
      dsimp only
      split
      · have h1 := hn g uri ps
        rcases hr : matchNextT rx n g uri ps with ⟨t, ps', _ | e⟩ <;> rw [hr] at h1
        · exact both t _ h1 (hs ps')
        · exact fst t h1
      · exact snd _ (hs ps)
    | regexp =>
      dsimp only
      split
      · exact snd _ (hs ps)
      · have h1 := hn g uri (setAll ps n.seg.wildcards ((rx.find n.seg.reg s).drop 1))
        rcases hr : matchNextT rx n g uri (setAll ps n.seg.wildcards ((rx.find n.seg.reg s).drop 1)) with ⟨t, ps', _ | e⟩ <;>
          rw [hr] at h1
        · exact both t _ h1 (hs ps')
        · exact fst t h1
    | holder =>
      dsimp only
      have h1 := hn g uri ps
      rcases hr : matchNextT rx n g uri ps with ⟨t, ps', _ | e⟩ <;> rw [hr] at h1
      · exact both t _ h1 (hs ps')
      · exact fst t h1
    | matchAll =>
      dsimp only
      have h1 := hn (g + 1) uri ps
      rcases hr : matchNextT rx n (g + 1) uri ps with ⟨t, ps', _ | e⟩ <;> rw [hr] at h1
      · exact both t _ h1 (hs ps')
      · exact fst t h1
end

/-! ### the size of the tree -/

theorem length_insertOrd {β : Type} (typ : β → PTyp) (x : β) (l : List β) : (insertOrd typ x l).length = l.length + 1 := by
  induction l with
  | nil => rfl
  | cons y l ih =>
    unfold insertOrd
    split
    · rfl
    · simp [ih]

theorem addEnd_length {rx : Regex} {ends ends' : List (EndNode α)} {p : Str} {hs : List α} {uri : Str}
    (h : addEnd rx ends p hs uri = .ok ends') : ends'.length ≤ ends.length + 1 := by
  unfold addEnd at h
  split at h
  · cases h; simp
  · cases ha : analyzePattern rx p with
    | error e => rw [ha] at h; simp [bind, Except.bind] at h
    | ok seg =>
      rw [ha] at h
      simp only [bind, Except.bind, pure, Except.pure, Except.ok.injEq] at h
      rw [← h, length_insertOrd]
      exact Nat.le_refl _

theorem segsBelowAll_append (a b : List (Node α)) : segsBelowAll (a ++ b) = segsBelowAll a ++ segsBelowAll b := by
  induction a with
  | nil => rfl
  | cons n a ih => simp [segsBelowAll, ih]

theorem segsBelowAll_insert (n : Node α) (l : List (Node α)) :
    (segsBelowAll (insertOrd (fun n => n.seg.typ) n l)).length = (segsBelowAll l).length + (n.segsBelow.length + 1) := by
  induction l with
  | nil => simp [insertOrd, segsBelowAll]
  | cons y l ih =>
    unfold insertOrd
    split
    · simp [segsBelowAll]; omega
    · simp only [segsBelowAll, List.length_cons, List.length_append, ih]; omega

theorem segsBelowAll_set {l : List (Node α)} {i : Nat} {n n' : Node α} {k : Nat} (hi : l[i]? = some n)
    (h : n'.segsBelow.length ≤ n.segsBelow.length + k) : (segsBelowAll (l.set i n')).length ≤ (segsBelowAll l).length + k := by
  induction l generalizing i with
  | nil => simp at hi
  | cons y l ih =>
    cases i with
    | zero =>
      simp at hi; subst hi
      simp only [List.set_cons_zero, segsBelowAll, List.length_cons, List.length_append]; omega
    | succ i =>
      simp at hi
      have := ih hi
      simp only [List.set_cons_succ, segsBelowAll, List.length_cons, List.length_append]; omega

theorem addSegs_below {rx : Regex} {hs : List α} {uri : Str} (segs : List Str) :
    ∀ {n n' : Node α}, addSegs rx hs uri segs n = .ok n' → n'.segsBelow.length ≤ n.segsBelow.length + segs.length := by
  induction segs with
  | nil =>
    intro n n' h
    simp only [addSegs, Except.ok.injEq] at h
    subst h; simp
  | cons p segs ih =>
    intro n n' h
    obtain ⟨seg, subs, ends⟩ := n
    cases segs with
    | nil =>
      simp only [addSegs, bind, Except.bind] at h
      cases ha : addEnd rx ends p hs uri with
      | error e => rw [ha] at h; cases h
      | ok ends' =>
        rw [ha] at h
        simp only [pure, Except.pure, Except.ok.injEq] at h
        subst h
        have := addEnd_length ha
        simp only [Node.segsBelow, List.length_append, List.length_map, List.length_cons, List.length_nil]; omega
    | cons q rest =>
      simp only [addSegs, bind, Except.bind] at h
      split at h
      · rename_i i hi
        split at h
        · simp only [pure, Except.pure, Except.ok.injEq] at h
          subst h
          simp only [List.length_cons]; omega
        · rename_i sub hsub
          cases ha : addSegs rx hs uri (q :: rest) sub with
          | error e => rw [ha] at h; cases h
          | ok sub' =>
            rw [ha] at h
            simp only [pure, Except.pure, Except.ok.injEq] at h
            subst h
            have := segsBelowAll_set hsub (ih ha)
            simp only [Node.segsBelow, List.length_append, List.length_map, List.length_cons] at this ⊢; omega
      · cases hp : analyzePattern rx p with
        | error e => rw [hp] at h; cases h
        | ok sseg =>
          rw [hp] at h
          simp only at h
          cases ha : addSegs rx hs uri (q :: rest) (.mk sseg [] []) with
          | error e => rw [ha] at h; cases h
          | ok sub' =>
            rw [ha] at h
            simp only [pure, Except.pure, Except.ok.injEq] at h
            subst h
            have := ih ha
            have h2 := segsBelowAll_insert sub' subs
            simp only [Node.segsBelow, segsBelowAll, List.length_append, List.length_map, List.length_cons, List.map_nil,
              List.length_nil, Nat.zero_add, Nat.add_zero] at this h2 ⊢
            omega

/-! ### the size of the tree and the slashes of the routes -/

theorem length_splitB (c : UInt8) (s : Str) : (splitB c s).length = s.count c + 1 := by
  induction s with
  | nil => rfl
  | cons x s ih =>
    unfold splitB
    by_cases h : x == c
    · simp only [h, if_true, List.length_cons, ih, List.count_cons]
    · simp only [h, List.count_cons]
      simp only [Bool.false_eq_true, if_false, Nat.add_zero]
      cases hs : splitB c s with
      | nil => exact absurd hs (splitB_ne_nil c s)
      | cons y ys => rw [hs] at ih; simpa using ih

theorem length_skipEmpty_le : ∀ l : List Str, (skipEmpty l).length ≤ l.length
  | [] => by simp [skipEmpty]
  | [s] => by simp [skipEmpty]
  | s :: t :: r => by
    have h1 := length_skipEmpty_le r
    have h2 := length_skipEmpty_le (t :: r)
    simp only [skipEmpty]
    split <;> simp only [List.length_cons] at * <;> omega

theorem length_routeSegs {uri : Str} (h : uri.head? = some slash) : (routeSegs uri).length ≤ uri.count slash := by
  unfold routeSegs
  have key : ∀ u : Str, u.head? = some slash → (skipEmpty ((splitB slash u).map ginSeg)).length ≤ u.count slash := by
    intro u hu
    cases u with
    | nil => simp at hu
    | cons x u =>
      simp at hu; subst hu
      rw [splitB_cons_slash]
      simp only [List.map_cons]
      have hl : ((splitB slash u).map ginSeg).length = u.count slash + 1 := by rw [List.length_map, length_splitB]
      cases hm : (splitB slash u).map ginSeg with
      | nil => rw [hm] at hl; simp at hl
      | cons t r =>
        rw [hm] at hl
        have hg : ginSeg [] = [] := rfl
        have := length_skipEmpty_le r
        simp only [hg, skipEmpty, if_true, List.length_cons, List.count_cons_self] at *
        omega
  dsimp only
  split
  · rename_i hl
    cases uri with
    | nil => simp at h
    | cons x u =>
      simp at h; subst h
      cases u with
      | nil => decide
      | cons y u =>
        have := key ((slash :: y :: u).dropLast) (by simp)
        refine Nat.le_trans this ?_
        exact (List.dropLast_sublist _).count_le _
  · exact key uri h

/-- every tree is no larger than the slashes of the routes of its method -/
def SizeInv (rs : List (Route α)) (e : Engine α) : Prop :=
  ∀ m i, methodIndex m = some i → ∀ t, e.trees i = some t → t.segsBelow.length ≤ slashesOf m rs

theorem slashesOf_append (m : Str) (a b : List (Route α)) : slashesOf m (a ++ b) = slashesOf m a + slashesOf m b := by
  simp [slashesOf]

theorem buildStep_size {rx : Regex} {rs : List (Route α)} {e e' : Engine α} {v : Route α}
    (hv : v.variant = variantUri v.uri) (hh : v.uri.head? = some slash)
    (hinv : SizeInv rs e) (h : buildStep rx e v = .ok e') : SizeInv (rs ++ [v]) e' := by
  unfold buildStep at h
  cases hm : methodIndex v.method with
  | none => rw [hm] at h; cases h
  | some i =>
    rw [hm] at h
    simp only [bind, Except.bind] at h
    cases ha : Node.add rx ((e.trees i).getD newTree) v.variant v.handlers v.uri with
    | error er => rw [ha] at h; simp at h
    | ok t' =>
      rw [ha] at h
      simp only [pure, Except.pure] at h
      have htrees : e'.trees = setAt e.trees i (some t') := by
        split at h <;> (injection h with h; rw [← h])
      intro m j hj t ht
      rw [htrees] at ht
      unfold setAt at ht
      rw [slashesOf_append]
      by_cases hji : j = i
      · subst hji
        have hmm := methodIndex_inj hj hm
        subst hmm
        simp only [if_true, Option.some.injEq] at ht
        subst ht
        have hb : ((e.trees j).getD newTree).segsBelow.length ≤ slashesOf v.method rs := by
          cases ht : e.trees j with
          | none => simp [newTree, Node.segsBelow, segsBelowAll]
          | some t => exact hinv v.method j hj t ht
        have hseg : addSegments v.variant = routeSegs v.uri := by rw [hv]; exact addSegments_variantUri hh
        unfold Node.add at ha
        rw [hseg] at ha
        have h1 := addSegs_below _ ha
        have h2 := length_routeSegs hh
        have h3 : slashesOf v.method [v] = v.uri.count slash := by simp [slashesOf]
        omega
      · simp only [hji, if_false] at ht
        exact Nat.le_trans (hinv m j hj t ht) (Nat.le_add_right _ _)

theorem buildTree_size {rx : Regex} {vs : List (Route α)} {rs : List (Route α)} {e e' : Engine α}
    (hv : ∀ v ∈ vs, v.variant = variantUri v.uri ∧ v.uri.head? = some slash)
    (hinv : SizeInv rs e) (h : buildTree rx e vs = .ok e') : SizeInv (rs ++ vs) e' := by
  induction vs generalizing rs e with
  | nil => simp [buildTree] at h; rw [← h]; simpa using hinv
  | cons v vs ih =>
    unfold buildTree at h
    cases hs : buildStep rx e v with
    | error er => rw [hs] at h; simp [bind, Except.bind] at h
    | ok e1 =>
      rw [hs] at h; simp only [bind, Except.bind] at h
      have hv1 := hv v (by simp)
      have := ih (rs := rs ++ [v]) (fun x hx => hv x (by simp [hx])) (buildStep_size hv1.1 hv1.2 hinv hs) h
      simpa using this

theorem mkEngine_size {rx : Regex} {st : Bool} {nf : List α} {rs : List (Route α)} {e : Engine α}
    (h : mkEngine rx st nf rs = .ok e) : SizeInv rs e := by
  unfold mkEngine at h
  cases hc : checkRoutes rs with
  | error er => rw [hc] at h; simp [bind, Except.bind] at h
  | ok rs' =>
    rw [hc] at h; simp only [bind, Except.bind] at h
    obtain ⟨h1, h2⟩ := checkRoutes_ok hc
    subst h1
    have := buildTree_size (rs := []) (e := newEngine st nf) (rx := rx) (e' := e) ?_ ?_ h
    · intro m i hi t ht
      have h3 := this m i hi t ht
      have h4 : slashesOf m (rs.map (fun v => { v with variant := variantUri v.uri })) = slashesOf m rs := by
        unfold slashesOf
        rw [List.filter_map, List.map_map]
        rfl
      rw [List.nil_append, h4] at h3
      exact h3
    · intro v hv
      obtain ⟨w, hw, rfl⟩ := List.mem_map.1 hv
      exact ⟨rfl, head_of_check (h2 w hw)⟩
    · intro m i _ t ht; simp [newEngine] at ht

end Water
