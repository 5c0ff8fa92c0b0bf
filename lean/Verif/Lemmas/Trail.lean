import Verif.Lemmas.Source
import Verif.Lemmas.Wins
import Verif.Spec.Params
/- Helper lemmas: the beginnings of patterns the search tries, in order, and the parameter map it leaves. -/
namespace Water
open Spec
variable {α : Type}

mutual
/-- the paths to the sub nodes that accept, in the order they are tried -/
def trail (rx : Regex) : Node α → List Str → List (List Str)
  | .mk _ _ _, [] => []
  | .mk _ _ _, [_] => []
  | .mk _ subs _, s :: t :: ss => trailSubs rx subs s (t :: ss)

def trailSubs (rx : Regex) : List (Node α) → Str → List Str → List (List Str)
  | [], _, _ => []
  | n :: ns, s, rest =>
    if segAcc rx n.seg s then
      [n.seg.pattern] :: ((trail rx n rest).map (n.seg.pattern :: ·) ++
        match sel rx n rest with
        | some _ => []
        | none => trailSubs rx ns s rest)
    else trailSubs rx ns s rest
end

theorem trailSubs_mem {rx : Regex} {subs : List (Node α)} {s : Str} {rest d : List Str} :
    d ∈ trailSubs rx subs s rest ↔ ∃ l1 n l2, subs = l1 ++ n :: l2 ∧ segAcc rx n.seg s = true ∧
      (∀ m ∈ l1, segAcc rx m.seg s = true → sel rx m rest = none) ∧
      (d = [n.seg.pattern] ∨ ∃ d' ∈ trail rx n rest, d = n.seg.pattern :: d') := by
  induction subs with
  | nil => simp [trailSubs]
  | cons n ns ih =>
    unfold trailSubs
    have hlater : (∃ l1 m l2, ns = l1 ++ m :: l2 ∧ segAcc rx m.seg s = true ∧
        (∀ m ∈ l1, segAcc rx m.seg s = true → sel rx m rest = none) ∧
        (d = [m.seg.pattern] ∨ ∃ d' ∈ trail rx m rest, d = m.seg.pattern :: d')) →
        (segAcc rx n.seg s = true → sel rx n rest = none) →
        ∃ l1 m l2, n :: ns = l1 ++ m :: l2 ∧ segAcc rx m.seg s = true ∧
          (∀ m ∈ l1, segAcc rx m.seg s = true → sel rx m rest = none) ∧
          (d = [m.seg.pattern] ∨ ∃ d' ∈ trail rx m rest, d = m.seg.pattern :: d') := by
      rintro ⟨l1, m, l2, rfl, h1, h2, h3⟩ h0
      refine ⟨n :: l1, m, l2, rfl, h1, ?_, h3⟩
      intro k hk
      rcases List.mem_cons.1 hk with rfl | hk
      · exact h0
      · exact h2 k hk
    by_cases ha : segAcc rx n.seg s = true
    · rw [if_pos ha]
      constructor
      · intro hd
        rw [List.mem_cons, List.mem_append, List.mem_map] at hd
        rcases hd with hd | ⟨d', h1, h2⟩ | hd
        · exact ⟨[], n, ns, rfl, ha, by simp, .inl hd⟩
        · exact ⟨[], n, ns, rfl, ha, by simp, .inr ⟨d', h1, h2.symm⟩⟩
        · cases hs : sel rx n rest with
          | some _ => rw [hs] at hd; simp at hd
          | none =>
            rw [hs] at hd
            exact hlater (ih.1 hd) (fun _ => hs)
      · rintro ⟨l1, m, l2, h0, h1, h2, h3⟩
        rw [List.mem_cons, List.mem_append, List.mem_map]
        cases l1 with
        | nil =>
          simp only [List.nil_append, List.cons.injEq] at h0
          obtain ⟨rfl, rfl⟩ := h0
          rcases h3 with h3 | ⟨d', h3, h4⟩
          · exact .inl h3
          · exact .inr (.inl ⟨d', h3, h4.symm⟩)
        | cons k ks =>
          simp only [List.cons_append, List.cons.injEq] at h0
          obtain ⟨rfl, rfl⟩ := h0
          have hs := h2 n (by simp) ha
          refine .inr (.inr ?_)
          rw [hs]
          exact ih.2 ⟨ks, m, l2, rfl, h1, fun k hk => h2 k (by simp [hk]), h3⟩
    · rw [if_neg ha]
      constructor
      · intro hd
        exact hlater (ih.1 hd) (fun h => absurd h ha)
      · rintro ⟨l1, m, l2, h0, h1, h2, h3⟩
        cases l1 with
        | nil =>
          simp only [List.nil_append, List.cons.injEq] at h0
          obtain ⟨rfl, rfl⟩ := h0
          exact absurd h1 ha
        | cons k ks =>
          simp only [List.cons_append, List.cons.injEq] at h0
          obtain ⟨rfl, rfl⟩ := h0
          exact ih.2 ⟨ks, m, l2, rfl, h1, fun k hk => h2 k (by simp [hk]), h3⟩

theorem trail_ne_nil {rx : Regex} {n : Node α} {ss d : List Str} (h : d ∈ trail rx n ss) : d ≠ [] := by
  cases n with
  | mk seg subs ends =>
    match ss, h with
    | [], h => simp [trail] at h
    | [_], h => simp [trail] at h
    | s :: t :: ss, h =>
      rw [trail, trailSubs_mem] at h
      obtain ⟨_, n, _, _, _, _, rfl | ⟨d', _, rfl⟩⟩ := h <;> simp

/-! ## the parameter map -/

/-- the capture of `x` by the last of the beginnings that has one -/
def lastCap (rx : Regex) (x : Str) (l : List (List Str)) (ss : List Str) : Option Str :=
  l.reverse.findSome? (fun d => captured rx x d ss)

theorem lastCap_nil (rx : Regex) (x : Str) (ss : List Str) : lastCap rx x [] ss = none := rfl

theorem lastCap_cons (rx : Regex) (x : Str) (d : List Str) (l : List (List Str)) (ss : List Str) :
    lastCap rx x (d :: l) ss = (lastCap rx x l ss).or (captured rx x d ss) := by
  unfold lastCap
  simp [List.findSome?_append]

theorem lastCap_append (rx : Regex) (x : Str) (l l' : List (List Str)) (ss : List Str) :
    lastCap rx x (l ++ l') ss = (lastCap rx x l' ss).or (lastCap rx x l ss) := by
  unfold lastCap
  simp [List.findSome?_append]

theorem captured_cons {rx : Regex} {x p s : Str} {d ss : List Str} (h : d ≠ []) :
    captured rx x (p :: d) (s :: ss) = captured rx x d ss := by
  cases d with
  | nil => exact absurd rfl h
  | cons q d => rfl

theorem lastCap_map {rx : Regex} {x p s : Str} {l : List (List Str)} {ss : List Str} (h : ∀ d ∈ l, d ≠ []) :
    lastCap rx x (l.map (p :: ·)) (s :: ss) = lastCap rx x l ss := by
  induction l with
  | nil => rfl
  | cons d l ih =>
    rw [List.map_cons, lastCap_cons, lastCap_cons, ih (fun d hd => h d (by simp [hd])), captured_cons (h d (by simp))]

theorem setAll_lookup (ps : Params) (ws rs : List Str) (x : Str) :
    setAll ps ws rs x = ((ws.zip rs).reverse.lookup x).or (ps x) := by
  induction ws generalizing ps rs with
  | nil => simp [setAll]
  | cons w ws ih =>
    cases rs with
    | nil => simp [setAll]
    | cons r rs =>
      rw [setAll, ih, List.zip_cons_cons, List.reverse_cons, List.lookup_append, Option.or_assoc]
      congr 1
      by_cases hx : x = w
      · subst hx; simp [List.lookup]
      · rw [Map.set_other _ _ hx]
        have : (x == w) = false := by simpa using hx
        simp [List.lookup, this]

theorem set_lookup (ps : Params) (k v x : Str) : ps.set k v x = (List.lookup x [(k, v)]).or (ps x) := by
  by_cases hx : x = k
  · subst hx; simp [List.lookup]
  · rw [Map.set_other _ _ hx]
    have : (x == k) = false := by simpa using hx
    simp [List.lookup, this]

/-- what an end node writes -/
theorem endWrite_lookup {rx : Regex} {g : Nat} {seg : Seg} (hok : SegOk rx seg) (s rest : Str) (ps : Params) (x : Str) :
    (match seg.typ with
      | .static => ps
      | .regexp => setAll ps seg.wildcards ((rx.find seg.reg s).drop 1)
      | .holder => if seg.parsed ≠ [95] then ps.set seg.parsed s else ps
      | .matchAll => setGlob seg g rest ps) x = ((bindSeg rx g seg.pattern s rest rest).reverse.lookup x).or (ps x) := by
  obtain ⟨_, _, h3, h4, h5, h6⟩ := analyze_spec hok
  unfold bindSeg
  rw [← h3]
  cases ht : seg.typ with
  | static => simp [PTyp.kind]
  | regexp =>
    simp only [PTyp.kind]
    rw [(h4 ht).1, (h4 ht).2]
    exact setAll_lookup _ _ _ _
  | holder =>
    simp only [PTyp.kind]
    rw [h5 ht]
    unfold underscore
    by_cases hu : nameText seg.pattern = [95]
    · simp [hu]
    · simp only [hu, ne_eq, not_false_eq_true, if_true, if_false]
      exact set_lookup _ _ _ _
  | matchAll =>
    simp only [PTyp.kind]
    unfold setGlob globKey
    rw [h6 ht]
    unfold underscore anonKey
    by_cases he : starName seg.pattern = []
    · simp only [he, ne_eq, not_true_eq_false, if_true, if_false]
      exact set_lookup _ _ _ _
    · by_cases hu : starName seg.pattern = [95]
      · simp [hu]
      · simp only [he, hu, ne_eq, not_false_eq_true, if_true, if_false]
        exact set_lookup _ _ _ _

theorem matchEnds_lookup {rx : Regex} (g : Nat) (uri : Str) (ends : List (EndNode α)) (ps : Params)
    (hok : ∀ e ∈ ends, SegOk rx e.seg) (x : Str) :
    (matchEnds rx g uri ends ps).1 x = ((ends.find? (fun e => segAcc rx e.seg uri)).bind
      (fun e => (bindSeg rx g e.seg.pattern uri uri uri).reverse.lookup x)).or (ps x) := by
  induction ends with
  | nil => rfl
  | cons e es ih =>
    have ih := ih (fun e he => hok e (by simp [he]))
    have hw := endWrite_lookup (g := g) (hok e (by simp)) uri uri ps x
    unfold matchEnds
    rw [List.find?_cons]
    cases ht : e.seg.typ with
    | static =>
      rw [ht] at hw
      have hb : segAcc rx e.seg uri = (e.seg.pattern == uri) := by unfold segAcc; rw [ht]
      simp only [hb]
      by_cases h : e.seg.pattern = uri
      · rw [if_pos h, show (e.seg.pattern == uri) = true by simpa using h]
        exact hw
      · rw [if_neg h, ih, show (e.seg.pattern == uri) = false by simpa using h]
    | regexp =>
      rw [ht] at hw
      have hb : segAcc rx e.seg uri =
        (((rx.find e.seg.reg uri).length : Int) - 1 == e.seg.wildcards.length) := by unfold segAcc; rw [ht]
      simp only [hb]
      by_cases h : ((rx.find e.seg.reg uri).length : Int) - 1 = e.seg.wildcards.length
      · rw [if_neg (by simpa using h), show (((rx.find e.seg.reg uri).length : Int) - 1 == e.seg.wildcards.length) = true
          by simpa using h]
        exact hw
      · rw [if_pos h, ih, show (((rx.find e.seg.reg uri).length : Int) - 1 == e.seg.wildcards.length) = false
          by simpa using h]
    | holder =>
      rw [ht] at hw
      have hb : segAcc rx e.seg uri = true := by unfold segAcc; rw [ht]
      rw [hb]
      exact hw
    | matchAll =>
      rw [ht] at hw
      have hb : segAcc rx e.seg uri = true := by unfold segAcc; rw [ht]
      rw [hb]
      exact hw

theorem sel_cons {rx : Regex} {n : Node α} {uri : Str} {r : List Str} {e : EndNode α}
    (h : sel rx n (splitB slash uri) = some (r, e)) : ∃ q rs, r = q :: rs := by
  cases n with
  | mk sg sb en =>
    cases hsp : splitB slash uri with
    | nil => exact absurd hsp (splitB_ne_nil _ _)
    | cons t ss =>
      rw [hsp] at h
      cases ss with
      | nil =>
        simp only [sel, Option.map_eq_some_iff, Prod.mk.injEq] at h
        obtain ⟨_, _, h1, _⟩ := h
        exact ⟨_, _, h1.symm⟩
      | cons t2 ss =>
        simp only [sel, Option.or_eq_some_iff] at h
        rcases h with h | ⟨_, h⟩
        · obtain ⟨_, m, _, r1, _, _, _, h1, _⟩ := selSubs_some h
          exact ⟨_, _, h1⟩
        · obtain ⟨_, _, h1, _⟩ := lastStar_some h
          exact ⟨_, _, h1⟩

/-- what the selection settles -/
def settledBy (rx : Regex) (g : Nat) (ss : List Str) (x : Str) (o : Option (List Str × EndNode α)) : Option Str :=
  o.bind (fun p => (settled rx g p.1 ss).lookup x)

mutual
theorem matchNext_params (rx : Regex) (n : Node α) (g : Nat) (uri : Str) (ps : Params) (hok : TreeOk rx n) (x : Str) :
    (matchNext rx n g uri ps).1 x = (settledBy rx g (splitB slash uri) x (sel rx n (splitB slash uri))).or
      ((lastCap rx x (trail rx n (splitB slash uri)) (splitB slash uri)).or (ps x)) := by
  cases n with
  | mk seg subs ends =>
    unfold matchNext
    cases hi : indexByte uri slash with
    | none =>
      simp only []
      rw [splitB_index_none hi, matchEnds_lookup g uri ends ps (by cases hok with | mk h1 _ _ => exact h1), sel, trail, lastCap_nil]
      unfold settledBy
      cases ends.find? (fun e => segAcc rx e.seg uri) with
      | none => rfl
      | some e => rfl
    | some i =>
      simp only []
      rw [splitB_index_some hi]
      have := matchSubs_params rx subs ends g (uri.take i) (uri.drop (i + 1)) ps seg hok x
      cases hs : splitB slash (uri.drop (i + 1)) with
      | nil => exact absurd hs (splitB_ne_nil _ _)
      | cons t ss =>
        rw [hs] at this
        rw [sel, trail]
        exact this
theorem matchSubs_params (rx : Regex) (subs : List (Node α)) (ends : List (EndNode α)) (g : Nat) (s uri : Str)
    (ps : Params) (seg : Seg) (hok : TreeOk rx (.mk seg subs ends)) (x : Str) :
    (matchSubs rx subs ends g s uri ps).1 x =
      (settledBy rx g (s :: splitB slash uri) x ((selSubs rx subs s (splitB slash uri)).or (lastStar ends))).or
      ((lastCap rx x (trailSubs rx subs s (splitB slash uri)) (s :: splitB slash uri)).or (ps x)) := by
  have hj : s ++ [slash] ++ uri = join [slash] (s :: splitB slash uri) := by
    rw [join_cons_ne (splitB_ne_nil _ _), join_splitB]
  cases subs with
  | nil =>
    unfold matchSubs matchFallback selSubs trailSubs
    rw [Option.none_or, lastCap_nil, Option.none_or]
    unfold lastStar settledBy
    cases hl : ends.getLast? with
    | none => rfl
    | some e =>
      simp only []
      by_cases ht : e.seg.typ = .matchAll
      · rw [if_pos ht, if_pos ht]
        have hseg : SegOk rx e.seg := by cases hok with | mk h1 _ _ => exact h1 e (List.mem_of_getLast? hl)
        have hw := endWrite_lookup (g := g) hseg s (s ++ [slash] ++ uri) ps x
        rw [ht] at hw
        simp only [Option.bind_some, settled, ← hj]
        exact hw
      · rw [if_neg ht, if_neg ht]; rfl
  | cons n ns =>
    have hokn : SegOk rx n.seg ∧ TreeOk rx n := hok.sub (by simp [Node.subs])
    obtain ⟨_, _, hk, hk4, hk5, hk6⟩ := analyze_spec hokn.1
    have ih1 := fun g' ps' => matchNext_params rx n g' uri ps' hokn.2 x
    have ih2 := fun ps' => matchSubs_params rx ns ends g s uri ps' seg hok.tl x
    have hmap := lastCap_map (rx := rx) (x := x) (p := n.seg.pattern) (s := s) (l := trail rx n (splitB slash uri)) (ss := splitB slash uri)
      (fun d hd => trail_ne_nil hd)
    have hcap : n.seg.typ ≠ .regexp → captured rx x [n.seg.pattern] (s :: splitB slash uri) = none := by
      intro ht
      rw [captured, if_neg]
      rw [← hk]
      cases h : n.seg.typ <;> simp [PTyp.kind, h] at ht ⊢
    unfold matchSubs selSubs trailSubs
    -- a branch that accepts but fails below
    have hfail : ∀ (g' : Nat) (ps0 ps1 : Params), matchNext rx n g' uri ps0 = (ps1, none) → sel rx n (splitB slash uri) = none →
        ps0 x = (captured rx x [n.seg.pattern] (s :: splitB slash uri)).or (ps x) →
        (matchSubs rx ns ends g s uri ps1).1 x =
          (settledBy rx g (s :: splitB slash uri) x ((selSubs rx ns s (splitB slash uri)).or (lastStar ends))).or
          ((lastCap rx x ([n.seg.pattern] :: ((trail rx n (splitB slash uri)).map (n.seg.pattern :: ·) ++
            trailSubs rx ns s (splitB slash uri))) (s :: splitB slash uri)).or (ps x)) := by
      intro g' ps0 ps1 hm hs h0
      have h1 := ih1 g' ps0
      rw [hm, hs] at h1
      simp only [settledBy, Option.bind_none, Option.none_or] at h1
      rw [ih2 ps1, h1, h0, lastCap_cons, lastCap_append, hmap]
      simp only [Option.or_assoc]
    -- a branch that succeeds
    have hwin : ∀ (g' : Nat) (ps0 ps1 : Params) (e : EndNode α) (r0 : List Str), matchNext rx n g' uri ps0 = (ps1, some e) →
        sel rx n (splitB slash uri) = some (r0, e) →
        ps0 x = (captured rx x [n.seg.pattern] (s :: splitB slash uri)).or (ps x) →
        ps1 x = ((settled rx g' r0 (splitB slash uri)).lookup x).or
          ((lastCap rx x ([n.seg.pattern] :: ((trail rx n (splitB slash uri)).map (n.seg.pattern :: ·) ++ [])) (s :: splitB slash uri)).or
            (ps x)) := by
      intro g' ps0 ps1 e r0 hm hs h0
      have h1 := ih1 g' ps0
      rw [hm, hs] at h1
      simp only [settledBy, Option.bind_some] at h1
      rw [h1, h0, List.append_nil, lastCap_cons, hmap]
      simp only [Option.or_assoc]
    have hsnd := fun g' ps' => matchNext_snd rx n g' uri ps'
    cases ht : n.seg.typ with
    | static =>
      rw [ht] at hk
      have hkind : kind n.seg.pattern = .literal := hk.symm
      have hc := hcap (by rw [ht]; simp)
      have hb : segAcc rx n.seg s = (n.seg.pattern == s) := by unfold segAcc; rw [ht]
      simp only [hb]
      by_cases h : n.seg.pattern = s
      · rw [if_pos h, show (n.seg.pattern == s) = true by simpa using h]
        simp only [if_true]
        have hsn := hsnd g ps
        rcases hm : matchNext rx n g uri ps with ⟨ps1, _ | e⟩ <;> rw [hm] at hsn <;>
          rcases hs : sel rx n (splitB slash uri) with _ | ⟨r0, e'⟩ <;> rw [hs] at hsn <;> simp at hsn
        · exact hfail g ps ps1 hm hs (by rw [hc]; rfl)
        · subst hsn
          obtain ⟨q, rs, rfl⟩ := sel_cons hs
          simp only [Option.some_or, settledBy, Option.bind_some, settled, hkind, bindSeg, reduceCtorEq, if_false, List.nil_append]
          exact hwin g ps ps1 e _ hm hs (by rw [hc]; rfl)
      · rw [if_neg h, show (n.seg.pattern == s) = false by simpa using h]
        simp only [Bool.false_eq_true, if_false]
        exact ih2 ps
    | regexp =>
      rw [ht] at hk
      have hkind : kind n.seg.pattern = .regexp := hk.symm
      have hc : setAll ps n.seg.wildcards ((rx.find n.seg.reg s).drop 1) x =
          (captured rx x [n.seg.pattern] (s :: splitB slash uri)).or (ps x) := by
        rw [captured, if_pos hkind, (hk4 ht).1, (hk4 ht).2]
        exact setAll_lookup _ _ _ _
      have hb : segAcc rx n.seg s = (((rx.find n.seg.reg s).length : Int) - 1 == n.seg.wildcards.length) := by unfold segAcc; rw [ht]
      simp only [hb]
      by_cases h : ((rx.find n.seg.reg s).length : Int) - 1 = n.seg.wildcards.length
      · rw [if_neg (by simpa using h), show (((rx.find n.seg.reg s).length : Int) - 1 == n.seg.wildcards.length) = true by simpa using h]
        simp only [if_true]
        have hsn := hsnd g (setAll ps n.seg.wildcards ((rx.find n.seg.reg s).drop 1))
        rcases hm : matchNext rx n g uri (setAll ps n.seg.wildcards ((rx.find n.seg.reg s).drop 1)) with ⟨ps1, _ | e⟩ <;> rw [hm] at hsn <;>
          rcases hs : sel rx n (splitB slash uri) with _ | ⟨r0, e'⟩ <;> rw [hs] at hsn <;> simp at hsn
        · exact hfail g _ ps1 hm hs hc
        · subst hsn
          obtain ⟨q, rs, rfl⟩ := sel_cons hs
          simp only [Option.some_or, settledBy, Option.bind_some, settled, hkind, reduceCtorEq, if_true, if_false, List.nil_append]
          exact hwin g _ ps1 e _ hm hs hc
      · rw [if_pos h, show (((rx.find n.seg.reg s).length : Int) - 1 == n.seg.wildcards.length) = false by simpa using h]
        simp only [Bool.false_eq_true, if_false]
        exact ih2 ps
    | holder =>
      rw [ht] at hk
      have hkind : kind n.seg.pattern = .name := hk.symm
      have hc := hcap (by rw [ht]; simp)
      have hb : segAcc rx n.seg s = true := by unfold segAcc; rw [ht]
      rw [hb]
      simp only [if_true]
      have hsn := hsnd g ps
      rcases hm : matchNext rx n g uri ps with ⟨ps1, _ | e⟩ <;> rw [hm] at hsn <;>
        rcases hs : sel rx n (splitB slash uri) with _ | ⟨r0, e'⟩ <;> rw [hs] at hsn <;> simp at hsn
      · exact hfail g ps ps1 hm hs (by rw [hc]; rfl)
      · subst hsn
        obtain ⟨q, rs, rfl⟩ := sel_cons hs
        have hw := hwin g ps ps1 e _ hm hs (by rw [hc]; rfl)
        simp only [Option.some_or, settledBy, Option.bind_some, settled, hkind, bindSeg, reduceCtorEq, if_false]
        rw [List.lookup_append, Option.or_assoc, ← hw, hk5 ht]
        by_cases hu : nameText n.seg.pattern = underscore
        · have hu' : nameText n.seg.pattern = [95] := hu
          rw [if_pos hu, if_neg (by simp [hu'])]
          rfl
        · have hu' : nameText n.seg.pattern ≠ [95] := hu
          rw [if_neg hu, if_pos hu']
          exact set_lookup _ _ _ _
    | matchAll =>
      rw [ht] at hk
      have hkind : kind n.seg.pattern = .star := hk.symm
      have hc := hcap (by rw [ht]; simp)
      have hb : segAcc rx n.seg s = true := by unfold segAcc; rw [ht]
      rw [hb]
      simp only [if_true]
      have hsn := hsnd (g + 1) ps
      rcases hm : matchNext rx n (g + 1) uri ps with ⟨ps1, _ | e⟩ <;> rw [hm] at hsn <;>
        rcases hs : sel rx n (splitB slash uri) with _ | ⟨r0, e'⟩ <;> rw [hs] at hsn <;> simp at hsn
      · exact hfail (g + 1) ps ps1 hm hs (by rw [hc]; rfl)
      · subst hsn
        obtain ⟨q, rs, rfl⟩ := sel_cons hs
        have hw := hwin (g + 1) ps ps1 e _ hm hs (by rw [hc]; rfl)
        simp only [Option.some_or, settledBy, Option.bind_some, settled, hkind, bindSeg, reduceCtorEq, if_false, if_true]
        rw [List.lookup_append, Option.or_assoc, ← hw, hk6 ht, ← hj]
        by_cases he : starName n.seg.pattern = []
        · rw [if_neg (by simp [he]), if_pos he]
          exact set_lookup _ _ _ _
        · rw [if_pos he, if_neg he]
          by_cases hu : starName n.seg.pattern = underscore
          · have hu' : starName n.seg.pattern = [95] := hu
            rw [if_pos hu, if_neg (by simp [hu'])]
            rfl
          · have hu' : starName n.seg.pattern ≠ [95] := hu
            rw [if_neg hu, if_pos hu']
            exact set_lookup _ _ _ _
end

/-! ## the beginnings tried -/

theorem Spec.Before.irrefl {β : Type} {P : β → Prop} {l : List β} (h : Before P P l) : False := h.asymm h

theorem Spec.Through.below {p : Str} {d : List Str} {e e' : Entry α} (he : belowE p e = some e') : Through (p :: d) e ↔ Through d e' := by
  obtain ⟨_, h2, _, _⟩ := belowE_some.1 he
  unfold Through
  rw [h2]
  simp

theorem Spec.Through.belowE {p q : Str} {d : List Str} {e : Entry α} (h : Through (p :: q :: d) e) : ∃ e', belowE p e = some e' := by
  obtain ⟨a, rest, h⟩ := h
  exact ⟨{ e with segs := q :: d ++ a :: rest }, belowE_some.2 ⟨by simp, by simpa using h, rfl, rfl⟩⟩

/-- order of two beginnings, seen through `below` -/
theorem through_below {p a b : Str} {c : List Str} {tbl : List (Entry α)} :
    Before (Through (p :: c ++ [a])) (Through (p :: c ++ [b])) tbl ↔ Before (Through (c ++ [a])) (Through (c ++ [b])) (below p tbl) := by
  have hthrough : ∀ (q : Str) (e : Entry α), Through (p :: c ++ [q]) e → ∃ e', belowE p e = some e' := by
    intro q e h
    cases c with
    | nil => exact Spec.Through.belowE (d := []) h
    | cons z c => exact Spec.Through.belowE h
  constructor
  · rintro ⟨l1, x, l2, rfl, h1, h2, h3⟩
    obtain ⟨x', hx⟩ := hthrough a x h1
    refine ⟨below p l1, x', below p l2, ?_, (Spec.Through.below hx).1 h1, fun h => h2 ((Spec.Through.below hx).2 h), ?_⟩
    · rw [below_append]
      congr 1
      unfold below
      rw [List.filterMap_cons, hx]
    · intro y hy h
      unfold below at hy
      obtain ⟨z, hz, hzy⟩ := List.mem_filterMap.1 hy
      exact h3 z hz ((Spec.Through.below hzy).2 h)
  · intro h
    refine h.of_below (fun e e' he h => (Spec.Through.below he).2 h) (fun e h => ?_)
    obtain ⟨e', he⟩ := hthrough b e h
    exact ⟨e', he, (Spec.Through.below he).1 h⟩

/-- `a` is ahead of `b` as a child -/
def HeadLt (tbl : List (Entry α)) (a b : Str) : Prop :=
  (kind a).rank < (kind b).rank ∨ ((kind a).rank = (kind b).rank ∧ Before (Through [a]) (Through [b]) tbl)

theorem HeadLt.asymm {tbl : List (Entry α)} {a b : Str} (h1 : HeadLt tbl a b) (h2 : HeadLt tbl b a) : False := by
  rcases h1 with h1 | ⟨h1, h1'⟩ <;> rcases h2 with h2 | ⟨h2, h2'⟩
  · omega
  · omega
  · omega
  · exact h1'.asymm h2'

theorem childLt_head {rx : Regex} {tbl : List (Entry α)} {a b : Seg} (ha : analyzePattern rx a.pattern = .ok a)
    (hb : analyzePattern rx b.pattern = .ok b) (h : ChildLt (fun p => Through [p]) tbl a b) : HeadLt tbl a.pattern b.pattern := by
  unfold HeadLt
  rw [← rank_eq ha, ← rank_eq hb]
  exact h

theorem Spec.Ahead.cons_iff {tbl : List (Entry α)} {p q : Str} {d d' : List Str} :
    Ahead tbl (p :: d) (q :: d') ↔ HeadLt tbl p q ∨ (p = q ∧ Ahead (below p tbl) d d') := by
  constructor
  · rintro ⟨c, a, da, b, db, h1, h2, h3⟩
    cases c with
    | nil =>
      simp only [List.nil_append, List.cons.injEq] at h1 h2
      obtain ⟨rfl, rfl⟩ := h1
      obtain ⟨rfl, rfl⟩ := h2
      exact .inl h3
    | cons z c =>
      simp only [List.cons_append, List.cons.injEq] at h1 h2
      obtain ⟨rfl, rfl⟩ := h1
      obtain ⟨rfl, rfl⟩ := h2
      refine .inr ⟨rfl, c, a, da, b, db, rfl, rfl, ?_⟩
      rw [← through_below]
      exact h3
  · rintro (h | ⟨rfl, c, a, da, b, db, rfl, rfl, h⟩)
    · exact ⟨[], p, d, q, d', rfl, rfl, h⟩
    · refine ⟨p :: c, a, da, b, db, rfl, rfl, ?_⟩
      rw [through_below]
      exact h

theorem Spec.TriedBefore.cons_iff {tbl : List (Entry α)} {p q : Str} {d r : List Str} (hr : r ≠ []) :
    TriedBefore tbl (p :: d) (q :: r) ↔ HeadLt tbl p q ∨ (p = q ∧ (d = [] ∨ TriedBefore (below p tbl) d r)) := by
  constructor
  · rintro (⟨a, rest, h⟩ | ⟨c, a, da, b, db, h1, h2, h0, h3⟩ | ⟨c, a, da, b, h1, h2⟩)
    · simp only [List.cons_append, List.cons.injEq] at h
      obtain ⟨rfl, rfl⟩ := h
      exact .inr ⟨rfl, .inr (.inl ⟨a, rest, rfl⟩)⟩
    · cases c with
      | nil =>
        simp only [List.nil_append, List.cons.injEq] at h1 h2
        obtain ⟨rfl, rfl⟩ := h1
        obtain ⟨rfl, rfl⟩ := h2
        exact .inl h3
      | cons z c =>
        simp only [List.cons_append, List.cons.injEq] at h1 h2
        obtain ⟨rfl, rfl⟩ := h1
        obtain ⟨rfl, rfl⟩ := h2
        refine .inr ⟨rfl, .inr (.inr (.inl ⟨c, a, da, b, db, rfl, rfl, h0, ?_⟩))⟩
        rw [← through_below]
        exact h3
    · cases c with
      | nil =>
        simp only [List.nil_append, List.cons.injEq] at h2
        exact absurd h2.2 hr
      | cons z c =>
        simp only [List.cons_append, List.cons.injEq] at h1 h2
        obtain ⟨rfl, rfl⟩ := h1
        obtain ⟨rfl, rfl⟩ := h2
        exact .inr ⟨rfl, .inr (.inr (.inr ⟨c, a, da, b, rfl, rfl⟩))⟩
  · rintro (h | ⟨rfl, rfl | ⟨a, rest, rfl⟩ | ⟨c, a, da, b, db, rfl, rfl, h0, h3⟩ | ⟨c, a, da, b, rfl, rfl⟩⟩)
    · exact .inr (.inl ⟨[], p, d, q, r, rfl, rfl, hr, h⟩)
    · obtain ⟨a, rest, rfl⟩ := List.exists_cons_of_ne_nil hr
      exact .inl ⟨a, rest, rfl⟩
    · exact .inl ⟨a, rest, rfl⟩
    · refine .inr (.inl ⟨p :: c, a, da, b, db, rfl, rfl, h0, ?_⟩)
      rw [through_below]
      exact h3
    · exact .inr (.inr ⟨p :: c, a, da, b, rfl, rfl⟩)

/-- the pattern of the selection -/
def pick (o : Option (List Str × EndNode α)) : Option (List Str) := o.map (·.1)

theorem covers_ne {rx : Regex} {d ss : List Str} (h : Covers rx d ss) : d ≠ [] := by cases h <;> simp

theorem through_head {p : Str} {d : List Str} {e : Entry α} (h : Through (p :: d) e) : Through [p] e := by
  obtain ⟨q, rest, h⟩ := h
  cases d with
  | nil => exact ⟨q, rest, h⟩
  | cons z d => exact ⟨z, d ++ q :: rest, by rw [h]; simp⟩

theorem sel_ne_nil {rx : Regex} {n : Node α} {t : Str} {ss r : List Str} {e : EndNode α} (h : sel rx n (t :: ss) = some (r, e)) : r ≠ [] := by
  cases n with
  | mk sg sb en =>
    cases ss with
    | nil =>
      simp only [sel, Option.map_eq_some_iff, Prod.mk.injEq] at h
      obtain ⟨_, _, h1, _⟩ := h
      rw [← h1]; simp
    | cons t2 ss =>
      simp only [sel, Option.or_eq_some_iff] at h
      rcases h with h | ⟨_, h⟩
      · obtain ⟨_, m, _, r1, _, _, _, h1, _⟩ := selSubs_some h
        rw [h1]; simp
      · obtain ⟨_, _, h1, _⟩ := lastStar_some h
        rw [h1]; simp

theorem selSubs_first {rx : Regex} {as bs : List (Node α)} {n : Node α} {s : Str} {rest r0 : List Str} {e : EndNode α}
    (h1 : ∀ m ∈ as, segAcc rx m.seg s = true → sel rx m rest = none) (h2 : segAcc rx n.seg s = true)
    (h3 : sel rx n rest = some (r0, e)) : selSubs rx (as ++ n :: bs) s rest = some (n.seg.pattern :: r0, e) := by
  induction as with
  | nil =>
    rw [List.nil_append, selSubs, if_pos h2, h3]
  | cons m as ih =>
    rw [List.cons_append, selSubs]
    have ih := ih (fun k hk => h1 k (by simp [hk]))
    by_cases ha : segAcc rx m.seg s = true
    · rw [if_pos ha, h1 m (by simp) ha]
      exact ih
    · rw [if_neg ha]
      exact ih

/-- The trail of the search consists of the beginnings that are tried. -/
theorem trail_iff {rx : Regex} {tbl : List (Entry α)} {n : Node α} (hb : Built rx tbl n) {ss d : List Str} :
    d ∈ trail rx n ss ↔ Tried rx tbl ss (pick (sel rx n ss)) d := by
  induction ss generalizing tbl n d with
  | nil =>
    cases n with
    | mk seg subs ends =>
      simp only [trail, List.not_mem_nil, false_iff]
      rintro ⟨_, h, _⟩
      cases h
  | cons s ss ih =>
    cases n with
    | mk seg subs ends =>
    cases ss with
    | nil =>
      simp only [trail, List.not_mem_nil, false_iff]
      rintro ⟨_, h, _⟩
      cases h with
      | cons _ h => cases h
    | cons t rest =>
    cases hb with
    | mk endsOrd endsOk endsAll subsOrd subsOk subsAll subsBuilt =>
    have hlt : ∀ {l1 l2 : List (Node α)} {n m : Node α}, subs = l1 ++ n :: l2 → m ∈ l1 → HeadLt tbl m.seg.pattern n.seg.pattern := by
      intro l1 l2 n m h0 hm
      have hm' : m ∈ subs := by rw [h0]; simp [hm]
      have hn' : n ∈ subs := by rw [h0]; simp
      refine childLt_head (subsOk m hm').1 (subsOk n hn').1 ?_
      rw [h0, List.map_append, List.map_cons] at subsOrd
      exact (List.pairwise_append.1 subsOrd).2.2 _ (List.mem_map_of_mem hm) _ (by simp)
    rw [trail, trailSubs_mem]
    constructor
    · rintro ⟨l1, n, l2, h0, ha, hl1, hd⟩
      have hn : n ∈ subs := by rw [h0]; simp
      obtain ⟨hok, y, hy, hyt⟩ := subsOk n hn
      -- how the selection relates to the sub node `n`
      have hsel : ∀ r, pick (sel rx (.mk seg subs ends) (s :: t :: rest)) = some r →
          (∃ r0 e, r = n.seg.pattern :: r0 ∧ sel rx n (t :: rest) = some (r0, e)) ∨
          (sel rx n (t :: rest) = none ∧ ((∃ b r0, r = b :: r0 ∧ r0 ≠ [] ∧ HeadLt tbl n.seg.pattern b) ∨ ∃ b, r = [b])) := by
        intro r hr
        unfold pick at hr
        rw [sel] at hr
        simp only [Option.map_eq_some_iff] at hr
        obtain ⟨⟨r', e⟩, hr, rfl⟩ := hr
        rcases hsn : sel rx n (t :: rest) with _ | ⟨r0, e0⟩
        · right
          refine ⟨rfl, ?_⟩
          rw [Option.or_eq_some_iff] at hr
          rcases hr with hr | ⟨_, hr⟩
          · left
            obtain ⟨as, m, bs, r0, h1, h2, h3, h4, h5⟩ := selSubs_some hr
            refine ⟨m.seg.pattern, r0, h4, sel_ne_nil h3, ?_⟩
            rw [h0] at h1
            rw [List.append_eq_append_iff] at h1
            rcases h1 with ⟨k, h6, h7⟩ | ⟨k, h6, h7⟩
            · cases k with
              | nil =>
                simp only [List.nil_append, List.cons.injEq] at h7
                obtain ⟨rfl, rfl⟩ := h7
                rw [hsn] at h3; cases h3
              | cons z k =>
                simp only [List.cons_append, List.cons.injEq] at h7
                obtain ⟨rfl, rfl⟩ := h7
                exact hlt (l1 := as) (l2 := bs) (by rw [h0, h6]; simp) (by rw [h6]; simp)
            · cases k with
              | nil =>
                simp only [List.nil_append, List.cons.injEq] at h7
                obtain ⟨rfl, rfl⟩ := h7
                rw [hsn] at h3; cases h3
              | cons z k =>
                simp only [List.cons_append, List.cons.injEq] at h7
                obtain ⟨rfl, rfl⟩ := h7
                have := hl1 m (by rw [h6]; simp) h2
                rw [this] at h3; cases h3
          · right
            obtain ⟨_, _, h1, _⟩ := lastStar_some hr
            exact ⟨_, h1⟩
        · left
          rw [h0, selSubs_first hl1 ha hsn] at hr
          simp only [Option.some_or, Option.some.injEq, Prod.mk.injEq] at hr
          exact ⟨r0, e0, hr.1.symm, rfl⟩
      have hacc := (segAcc_iff hok s).1 ha
      rcases hd with rfl | ⟨d', hd', rfl⟩
      · refine ⟨⟨y, hy, hyt⟩, .last hacc, fun r hr => ?_⟩
        rcases hsel r hr with ⟨r0, e, rfl, hs⟩ | ⟨_, ⟨b, r0, rfl, hne, hlt⟩ | ⟨b, rfl⟩⟩
        · exact (Spec.TriedBefore.cons_iff (sel_ne_nil hs)).2 (.inr ⟨rfl, .inl rfl⟩)
        · exact (Spec.TriedBefore.cons_iff hne).2 (.inl hlt)
        · exact .inr (.inr ⟨[], _, [], b, rfl, rfl⟩)
      · obtain ⟨⟨e', he', ht'⟩, hcov, hbef⟩ := (ih (subsBuilt n hn)).1 hd'
        refine ⟨?_, .cons hacc hcov, fun r hr => ?_⟩
        · unfold below at he'
          obtain ⟨z, hz, hze⟩ := List.mem_filterMap.1 he'
          exact ⟨z, hz, (Spec.Through.below hze).2 ht'⟩
        · rcases hsel r hr with ⟨r0, e, rfl, hs⟩ | ⟨_, ⟨b, r0, rfl, hne, hlt⟩ | ⟨b, rfl⟩⟩
          · exact (Spec.TriedBefore.cons_iff (sel_ne_nil hs)).2 (.inr ⟨rfl, .inr (hbef r0 (by unfold pick; rw [hs]; rfl))⟩)
          · exact (Spec.TriedBefore.cons_iff hne).2 (.inl hlt)
          · exact .inr (.inr ⟨[], _, d', b, rfl, rfl⟩)
    · rintro ⟨⟨y, hy, hyt⟩, hcov, hbef⟩
      obtain ⟨p, d', rfl⟩ := List.exists_cons_of_ne_nil (covers_ne hcov)
      obtain ⟨n, hn, rfl⟩ := subsAll y hy p (through_head hyt)
      obtain ⟨l1, l2, h0⟩ := List.append_of_mem hn
      obtain ⟨hok, _⟩ := subsOk n hn
      have hacc : segAcc rx n.seg s = true := by
        rw [segAcc_iff hok]
        cases hcov with
        | last h => exact h
        | cons h _ => exact h
      have hl1 : ∀ m ∈ l1, segAcc rx m.seg s = true → sel rx m (t :: rest) = none := by
        intro m hm ham
        rcases hsm : sel rx m (t :: rest) with _ | ⟨r0, e0⟩
        · rfl
        · exfalso
          -- the first sub node of `l1` that succeeds is selected
          have hex : ∃ as k bs r1 e1, l1 = as ++ k :: bs ∧ segAcc rx k.seg s = true ∧ sel rx k (t :: rest) = some (r1, e1) ∧
              selSubs rx subs s (t :: rest) = some (k.seg.pattern :: r1, e1) := by
            have hne : selSubs rx l1 s (t :: rest) ≠ none := by
              intro h
              rw [selSubs_none h m hm ham] at hsm
              cases hsm
            obtain ⟨⟨r1, e1⟩, hr1⟩ := Option.ne_none_iff_exists'.1 hne
            obtain ⟨as, k, bs, r2, h1, h2, h3, h4, h5⟩ := selSubs_some hr1
            refine ⟨as, k, bs, r2, e1, h1, h2, h3, ?_⟩
            rw [h0, h1, List.append_assoc, List.cons_append]
            exact selSubs_first h5 h2 h3
          obtain ⟨as, k, bs, r1, e1, h1, h2, h3, h4⟩ := hex
          have hkn := hlt h0 (m := k) (by rw [h1]; simp)
          have := hbef (k.seg.pattern :: r1) (by unfold pick; rw [sel, h4]; rfl)
          rcases (Spec.TriedBefore.cons_iff (sel_ne_nil h3)).1 this with h5 | ⟨h5, _⟩
          · exact hkn.asymm h5
          · rw [h5] at hkn; exact hkn.asymm hkn
      refine ⟨l1, n, l2, h0, hacc, hl1, ?_⟩
      cases d' with
      | nil => exact .inl rfl
      | cons q d' =>
        refine .inr ⟨q :: d', ?_, rfl⟩
        rw [ih (subsBuilt n hn)]
        obtain ⟨y', hy'⟩ := hyt.belowE
        refine ⟨⟨y', ?_, (Spec.Through.below hy').1 hyt⟩, ?_, ?_⟩
        · unfold below
          exact List.mem_filterMap.2 ⟨y, hy, hy'⟩
        · cases hcov with
          | cons _ h => exact h
        · intro r0 hr0
          unfold pick at hr0
          rw [Option.map_eq_some_iff] at hr0
          obtain ⟨⟨r0, e0⟩, hs, rfl⟩ := hr0
          have := hbef (n.seg.pattern :: r0) (by unfold pick; rw [sel, h0, selSubs_first hl1 hacc hs]; rfl)
          rcases (Spec.TriedBefore.cons_iff (sel_ne_nil hs)).1 this with h5 | ⟨_, h5 | h5⟩
          · exact (h5.asymm h5).elim
          · cases h5
          · exact h5

/-- The trail of the search lists the beginnings in the order of `TriedFirst`. -/
theorem trail_sorted {rx : Regex} {tbl : List (Entry α)} {n : Node α} (hb : Built rx tbl n) (ss : List Str) :
    (trail rx n ss).Pairwise (TriedFirst tbl) := by
  induction ss generalizing tbl n with
  | nil => cases n; simp [trail]
  | cons s ss ih =>
    cases n with
    | mk seg subs ends =>
    cases ss with
    | nil => simp [trail]
    | cons t rest =>
    cases hb with
    | mk endsOrd endsOk endsAll subsOrd subsOk subsAll subsBuilt =>
    rw [trail]
    have hlt : (subs.map Node.seg).Pairwise (fun a b => HeadLt tbl a.pattern b.pattern) := by
      refine subsOrd.imp_of_mem ?_
      intro a b ha hb h
      obtain ⟨n, hn, rfl⟩ := List.mem_map.1 ha
      obtain ⟨m, hm, rfl⟩ := List.mem_map.1 hb
      exact childLt_head (subsOk n hn).1 (subsOk m hm).1 h
    clear endsOrd endsOk endsAll subsOrd subsOk subsAll
    induction subs with
    | nil => simp [trailSubs]
    | cons n ns ihs =>
      rw [List.map_cons, List.pairwise_cons] at hlt
      have ihs := ihs (fun m hm => subsBuilt m (by simp [hm])) hlt.2
      unfold trailSubs
      by_cases ha : segAcc rx n.seg s = true
      · rw [if_pos ha]
        have hlater : ∀ d' ∈ (match sel rx n (t :: rest) with
            | some _ => []
            | none => trailSubs rx ns s (t :: rest)), ∀ d0, TriedFirst tbl (n.seg.pattern :: d0) d' := by
          intro d' hd' d0
          cases hs : sel rx n (t :: rest) with
          | some _ => rw [hs] at hd'; simp at hd'
          | none =>
            rw [hs] at hd'
            obtain ⟨l1, m, l2, h0, _, _, h1⟩ := trailSubs_mem.1 hd'
            have := hlt.1 m.seg (List.mem_map_of_mem (by rw [h0]; simp))
            rcases h1 with rfl | ⟨d1, _, rfl⟩
            · exact .inr (Spec.Ahead.cons_iff.2 (.inl this))
            · exact .inr (Spec.Ahead.cons_iff.2 (.inl this))
        rw [List.pairwise_cons]
        constructor
        · intro d' hd'
          rcases List.mem_append.1 hd' with hd' | hd'
          · obtain ⟨d1, h1, rfl⟩ := List.mem_map.1 hd'
            obtain ⟨q, d2, rfl⟩ := List.exists_cons_of_ne_nil (trail_ne_nil h1)
            exact .inl ⟨q, d2, rfl⟩
          · exact hlater d' hd' []
        · rw [List.pairwise_append]
          refine ⟨?_, ?_, ?_⟩
          · rw [List.pairwise_map]
            refine (ih (subsBuilt n (by simp))).imp ?_
            rintro a b (⟨q, r, rfl⟩ | h)
            · exact .inl ⟨q, r, rfl⟩
            · exact .inr (Spec.Ahead.cons_iff.2 (.inr ⟨rfl, h⟩))
          · cases hs : sel rx n (t :: rest) with
            | some _ => simp
            | none => exact ihs
          · intro a ha' b hb'
            obtain ⟨d1, h1, rfl⟩ := List.mem_map.1 ha'
            exact hlater b hb' d1
      · rw [if_neg ha]
        exact ihs

theorem Spec.TriedFirst.asymm {tbl : List (Entry α)} {d d' : List Str} (h1 : TriedFirst tbl d d') (h2 : TriedFirst tbl d' d) : False := by
  induction d generalizing d' tbl with
  | nil =>
    rcases h2 with ⟨q, r, h⟩ | ⟨c, a, da, b, db, _, h, _⟩ <;> cases d' <;> simp at h
    all_goals (cases c <;> simp at h)
  | cons p d ih =>
    cases d' with
    | nil =>
      rcases h1 with ⟨q, r, h⟩ | ⟨c, a, da, b, db, _, h, _⟩
      · simp at h
      · cases c <;> simp at h
    | cons q d' =>
      have hpre : ∀ {a b : Str} {x y : List Str}, TriedFirst tbl (a :: x) (b :: y) → HeadLt tbl a b ∨ (a = b ∧ TriedFirst (below a tbl) x y) := by
        rintro a b x y (⟨q, r, h⟩ | h)
        · simp only [List.cons_append, List.cons.injEq] at h
          exact .inr ⟨h.1.symm, .inl ⟨q, r, h.2⟩⟩
        · rcases Spec.Ahead.cons_iff.1 h with h | ⟨h, h'⟩
          · exact .inl h
          · exact .inr ⟨h, .inr h'⟩
      rcases hpre h1 with h1 | ⟨rfl, h1'⟩
      · rcases hpre h2 with h2 | ⟨rfl, _⟩
        · exact h1.asymm h2
        · exact h1.asymm h1
      · rcases hpre h2 with h2 | ⟨_, h2'⟩
        · exact h2.asymm h2
        · exact ih h1' h2'

/-- the last capture along the trail is the newest capture -/
theorem lastCap_newest {rx : Regex} {tbl : List (Entry α)} {n : Node α} (hb : Built rx tbl n) {ss : List Str} {x v : Str} :
    lastCap rx x (trail rx n ss) ss = some v ↔ Newest rx tbl ss (pick (sel rx n ss)) x v := by
  have hsort := trail_sorted hb ss
  have hiff := fun d => trail_iff hb (ss := ss) (d := d)
  generalize trail rx n ss = l at hsort hiff
  unfold Newest
  simp only [← hiff]
  clear hiff
  induction l with
  | nil => simp [lastCap_nil]
  | cons d l ih =>
    rw [List.pairwise_cons] at hsort
    have ih := ih hsort.2
    rw [lastCap_cons]
    cases hl : lastCap rx x l ss with
    | some w =>
      rw [hl] at ih
      rw [Option.some_or]
      refine ih.trans ?_
      constructor
      · rintro ⟨d0, h1, h2, h3⟩
        refine ⟨d0, by simp [h1], h2, fun d' hd' hc => ?_⟩
        rcases List.mem_cons.1 hd' with rfl | hd'
        · exact .inr (hsort.1 d0 h1)
        · exact h3 d' hd' hc
      · rintro ⟨d0, h1, h2, h3⟩
        rcases List.mem_cons.1 h1 with rfl | h1
        · exfalso
          have hex : ∃ d' ∈ l, captured rx x d' ss ≠ none := by
            unfold lastCap at hl
            obtain ⟨d', h4, h5⟩ := List.exists_of_findSome?_eq_some hl
            exact ⟨d', by simpa using h4, by rw [h5]; simp⟩
          obtain ⟨d', h4, h5⟩ := hex
          rcases h3 d' (by simp [h4]) h5 with rfl | h6
          · exact (hsort.1 d' h4).asymm (hsort.1 d' h4)
          · exact (hsort.1 d' h4).asymm h6
        · exact ⟨d0, h1, h2, fun d' hd' hc => h3 d' (by simp [hd']) hc⟩
    | none =>
      have hno : ∀ d' ∈ l, captured rx x d' ss = none := by
        intro d' hd'
        unfold lastCap at hl
        rw [List.findSome?_eq_none_iff] at hl
        exact hl d' (by simpa using hd')
      rw [Option.none_or]
      constructor
      · intro h
        refine ⟨d, by simp, h, fun d' hd' hc => ?_⟩
        rcases List.mem_cons.1 hd' with rfl | hd'
        · exact .inl rfl
        · exact absurd (hno d' hd') hc
      · rintro ⟨d0, h1, h2, h3⟩
        rcases List.mem_cons.1 h1 with rfl | h1
        · exact h2
        · rw [hno d0 h1] at h2; cases h2

end Water
