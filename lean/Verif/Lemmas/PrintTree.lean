import Verif.Lemmas.Print
import Verif.Lemmas.Static
import Verif.Lemmas.Order
/- Helper lemmas for the drawn routing tree. -/
namespace Water
open Spec
variable {α : Type}

/-! ### rows -/

/-- a row below a segment -/
def push (p : Str) (x : Row × Nat) : Row × Nat := (⟨p :: x.1.segs, x.1.isRoute⟩, x.2)

mutual
/-- the rows of a node, with the numbers of handlers -/
def rowsN : Node α → List (Row × Nat)
  | .mk _ subs ends => rowsS subs ++ ends.map (fun e => (⟨[e.seg.pattern], true⟩, e.handlers.length))
/-- the rows of a list of nodes -/
def rowsS : List (Node α) → List (Row × Nat)
  | [] => []
  | n :: ns => ((⟨[n.seg.pattern], false⟩, 0) :: (rowsN n).map (push n.seg.pattern)) ++ rowsS ns
end

theorem rowsS_flat (l : List (Node α)) :
    rowsS l = l.flatMap (fun n => (⟨[n.seg.pattern], false⟩, 0) :: (rowsN n).map (push n.seg.pattern)) := by
  induction l with
  | nil => simp [rowsS]
  | cons n l ih => rw [rowsS, ih, List.flatMap_cons]

theorem mem_rowsS {l : List (Node α)} {x : Row × Nat} : x ∈ rowsS l ↔
    ∃ s ∈ l, x = (⟨[s.seg.pattern], false⟩, 0) ∨ ∃ y ∈ rowsN s, x = push s.seg.pattern y := by
  rw [rowsS_flat, List.mem_flatMap]
  simp only [List.mem_cons, List.mem_map, eq_comm]

/-! ### below a segment -/

theorem at_below {p : Str} {e e' : Entry α} (h : belowE p e = some e') {x : Row} : At x e' → At ⟨p :: x.segs, x.isRoute⟩ e := by
  obtain ⟨h1, h2, _⟩ := belowE_some.1 h
  unfold At
  split <;> rename_i hr
  · intro hx; simp [hr, h2, hx]
  · rintro ⟨q, r, hx⟩
    exact ⟨q, r, by rw [h2, hx]; rfl⟩

theorem below_at {p : Str} {e : Entry α} {x : Row} (hx : x.segs ≠ []) (h : At ⟨p :: x.segs, x.isRoute⟩ e) :
    ∃ e', belowE p e = some e' ∧ At x e' := by
  unfold At at h ⊢
  cases hr : x.isRoute <;> simp only [hr, if_true, if_false, Bool.false_eq_true] at h ⊢
  · obtain ⟨q, r, h⟩ := h
    exact ⟨{ e with segs := x.segs ++ q :: r }, belowE_some.2 ⟨by simp, h, rfl, rfl⟩, q, r, rfl⟩
  · exact ⟨{ e with segs := x.segs }, belowE_some.2 ⟨hx, h, rfl, rfl⟩, rfl⟩

theorem shown_below {p : Str} {tbl : List (Entry α)} {x : Row} (hx : x.segs ≠ []) :
    Shown (below p tbl) x ↔ Shown tbl ⟨p :: x.segs, x.isRoute⟩ := by
  unfold Shown below
  constructor
  · rintro ⟨_, e', he', ha⟩
    obtain ⟨e, he, hb⟩ := List.mem_filterMap.1 he'
    exact ⟨by simp, e, he, at_below hb ha⟩
  · rintro ⟨_, e, he, ha⟩
    obtain ⟨e', hb, ha'⟩ := below_at hx ha
    exact ⟨hx, e', List.mem_filterMap.2 ⟨e, he, hb⟩, ha'⟩

theorem before_below {p : Str} {tbl : List (Entry α)} {x y : Row} (hx : x.segs ≠ []) (hy : y.segs ≠ []) :
    Before (At x) (At y) (below p tbl) ↔ Before (At ⟨p :: x.segs, x.isRoute⟩) (At ⟨p :: y.segs, y.isRoute⟩) tbl := by
  constructor
  · intro h
    exact h.of_below (fun e e' he => at_below he) (fun e he => below_at hy he)
  · rintro ⟨l1, e, l2, rfl, h1, h2, h3⟩
    obtain ⟨e', hb, ha⟩ := below_at hx h1
    refine ⟨below p l1, e', below p l2, ?_, ha, fun hq => h2 (at_below hb hq), ?_⟩
    · rw [below_append]
      unfold below
      rw [List.filterMap_cons, hb]
    · intro z hz hq
      obtain ⟨w, hw, hbw⟩ := List.mem_filterMap.1 hz
      exact h3 w hw (at_below hbw hq)

theorem above_below {p : Str} {tbl : List (Entry α)} {c : List Str} {a b : Str} {ra rb : Bool} :
    Above (below p tbl) c a ra b rb ↔ Above tbl (p :: c) a ra b rb := by
  unfold Above
  rw [before_below (by simp) (by simp)]
  rfl

theorem followed_below {p : Str} {tbl : List (Entry α)} {c : List Str} {a : Str} {ra : Bool} :
    Followed (below p tbl) c a ra ↔ Followed tbl (p :: c) a ra := by
  unfold Followed
  simp only [above_below]
  constructor
  · rintro ⟨b, rb, h1, h2⟩
    exact ⟨b, rb, (shown_below (by simp)).1 h1, h2⟩
  · rintro ⟨b, rb, h1, h2⟩
    exact ⟨b, rb, (shown_below (by simp)).2 h1, h2⟩

theorem drawn_below {p : Str} {tbl : List (Entry α)} {r : Bool} {c l : List Str} {t : Str} (h : Drawn (below p tbl) r c l t) :
    Drawn tbl r (p :: c) l t := by
  induction h with
  | branch h => exact .branch (followed_below.1 h)
  | corner h => exact .corner (fun h' => h (followed_below.2 h'))
  | bar h _ ih => exact .bar (followed_below.1 h) ih
  | blank h _ ih => exact .blank (fun h' => h (followed_below.2 h')) ih

theorem rowBefore_below {p : Str} {tbl : List (Entry α)} {x y : Row} (h : RowBefore (below p tbl) x y) :
    RowBefore tbl ⟨p :: x.segs, x.isRoute⟩ ⟨p :: y.segs, y.isRoute⟩ := by
  rcases h with ⟨h, s, hs, h'⟩ | ⟨c, a, as, b, bs, h1, h2, h3⟩
  · exact .inl ⟨h, s, hs, by simp [h']⟩
  · exact .inr ⟨p :: c, a, as, b, bs, by simp [h1], by simp [h2], above_below.1 h3⟩

theorem firstHandlers_below {p : Str} {tbl : List (Entry α)} {r : List Str} {h : List α} (hr : r ≠ []) :
    FirstHandlers (below p tbl) r h ↔ FirstHandlers tbl (p :: r) h := by
  constructor
  · exact fun hf => hf.of_below hr
  · rintro ⟨l1, x, l2, rfl, h1, h2, h3⟩
    have hb : belowE p x = some { x with segs := r } := belowE_some.2 ⟨hr, h1, rfl, rfl⟩
    refine ⟨below p l1, { x with segs := r }, below p l2, ?_, rfl, h2, ?_⟩
    · rw [below_append]
      unfold below
      rw [List.filterMap_cons, hb]
    · intro z hz hq
      obtain ⟨w, hw, hbw⟩ := List.mem_filterMap.1 hz
      obtain ⟨_, h5, _⟩ := belowE_some.1 hbw
      exact h3 w hw (by rw [h5, hq])

/-! ### the rows of a built tree -/

/-- the number belonging to a row -/
def Counts (tbl : List (Entry α)) (x : Row) (k : Nat) : Prop :=
  (x.isRoute = false → k = 0) ∧ (x.isRoute = true → ∃ h, FirstHandlers tbl x.segs h ∧ k = h.length)

theorem firstHandlers_shown {tbl : List (Entry α)} {r : List Str} {h : List α} (hf : FirstHandlers tbl r h) (hr : r ≠ []) :
    Shown tbl ⟨r, true⟩ := by
  obtain ⟨l1, x, l2, rfl, h1, _⟩ := hf
  exact ⟨hr, x, by simp, by simpa [At] using h1⟩

theorem rows_sound {rx : Regex} {tbl : List (Entry α)} {n : Node α} (hb : Built rx tbl n) {x : Row} {k : Nat}
    (h : (x, k) ∈ rowsN n) : Shown tbl x ∧ Counts tbl x k := by
  induction hb generalizing x k with
  | @mk tbl seg subs ends endsOrd endsOk endsAll subsOrd subsOk subsAll subsBuilt ih =>
    rw [rowsN, List.mem_append] at h
    rcases h with h | h
    · obtain ⟨s, hs, h⟩ := mem_rowsS.1 h
      obtain ⟨_, e, he, ht⟩ := subsOk s hs
      rcases h with h | ⟨⟨y, j⟩, hy, h⟩
      · injection h with h1 h2
        subst h1 h2
        exact ⟨⟨by simp, e, he, by simpa [At] using ht⟩, fun _ => rfl, (fun h => by cases h)⟩
      · unfold push at h
        injection h with h1 h2
        simp only at h1 h2
        subst h1 h2
        obtain ⟨g1, g2, g3⟩ := ih s hs hy
        refine ⟨(shown_below g1.1).1 g1, g2, ?_⟩
        intro hr
        obtain ⟨hh, hf, hk⟩ := g3 hr
        exact ⟨hh, hf.of_below g1.1, hk⟩
    · obtain ⟨e, he, h⟩ := List.mem_map.1 h
      injection h with h1 h2
      subst h1 h2
      obtain ⟨_, hf, _⟩ := endsOk e he
      exact ⟨firstHandlers_shown hf (by simp), (fun h => by cases h), fun _ => ⟨_, hf, rfl⟩⟩

theorem rows_complete {rx : Regex} {tbl : List (Entry α)} {n : Node α} (hb : Built rx tbl n) {x : Row} (h : Shown tbl x) :
    ∃ k, (x, k) ∈ rowsN n := by
  induction hb generalizing x with
  | @mk tbl seg subs ends endsOrd endsOk endsAll subsOrd subsOk subsAll subsBuilt ih =>
    obtain ⟨hne, e, he, ha⟩ := h
    obtain ⟨segs, r⟩ := x
    simp only [rowsN, List.mem_append, mem_rowsS]
    cases segs with
    | nil => exact absurd rfl hne
    | cons p rest =>
      cases rest with
      | nil =>
        cases r with
        | false =>
          simp only [At, Bool.false_eq_true, if_false] at ha
          obtain ⟨s, hs, rfl⟩ := subsAll e he p ha
          exact ⟨0, .inl ⟨s, hs, .inl rfl⟩⟩
        | true =>
          simp only [At, if_true] at ha
          obtain ⟨n, hn, rfl⟩ := endsAll e he p ha
          exact ⟨_, .inr (List.mem_map.2 ⟨n, hn, rfl⟩)⟩
      | cons q rest =>
        have hthrough : Through [p] e := by
          cases r with
          | false =>
            simp only [At, Bool.false_eq_true, if_false] at ha
            obtain ⟨u, v, ha⟩ := ha
            exact ⟨q, rest ++ u :: v, by rw [ha]; rfl⟩
          | true =>
            simp only [At, if_true] at ha
            exact ⟨q, rest, by rw [ha]; rfl⟩
        obtain ⟨s, hs, rfl⟩ := subsAll e he p hthrough
        have hsh : Shown (below s.seg.pattern tbl) ⟨q :: rest, r⟩ := (shown_below (by simp)).2 ⟨by simp, e, he, ha⟩
        obtain ⟨k, hk⟩ := ih s hs hsh
        exact ⟨k, .inl ⟨s, hs, .inr ⟨_, hk, rfl⟩⟩⟩

theorem childLt_above {rx : Regex} {tbl : List (Entry α)} {a b : Seg} {r : Bool} {P : Str → Entry α → Prop}
    (ha : analyzePattern rx a.pattern = .ok a) (hb : analyzePattern rx b.pattern = .ok b)
    (hP : ∀ p, P p = At ⟨[p], r⟩) (h : ChildLt P tbl a b) : Above tbl [] a.pattern r b.pattern r := by
  refine .inr ⟨rfl, ?_⟩
  unfold ChildLt at h
  rw [rank_eq ha, rank_eq hb, hP, hP] at h
  exact h

theorem at_route (p : Str) : (IsEnd p : Entry α → Prop) = At ⟨[p], true⟩ := by
  funext e; simp [IsEnd, At]

theorem at_inner (p : Str) : (Through [p] : Entry α → Prop) = At ⟨[p], false⟩ := by
  funext e; simp [At]

theorem rows_sorted {rx : Regex} {tbl : List (Entry α)} {n : Node α} (hb : Built rx tbl n) :
    (rowsN n).Pairwise (fun x y => RowBefore tbl x.1 y.1) := by
  have hsound := @rows_sound α rx
  induction hb with
  | @mk tbl seg subs ends endsOrd endsOk endsAll subsOrd subsOk subsAll subsBuilt ih =>
    rw [rowsN, List.pairwise_append]
    have hhead : ∀ x ∈ rowsS subs, ∃ s ∈ subs, ∃ l, x.1.segs = s.seg.pattern :: l ∧ (l = [] → x.1.isRoute = false) := by
      intro x hx
      obtain ⟨s, hs, rfl | ⟨y, hy, rfl⟩⟩ := mem_rowsS.1 hx
      · exact ⟨s, hs, [], rfl, fun _ => rfl⟩
      · exact ⟨s, hs, y.1.segs, rfl, fun h => absurd h (hsound (subsBuilt s hs) (x := y.1) (k := y.2) hy).1.1⟩
    refine ⟨?_, ?_, ?_⟩
    · rw [rowsS_flat, List.pairwise_flatMap]
      constructor
      · intro s hs
        rw [List.pairwise_cons]
        constructor
        · intro y hy
          obtain ⟨z, hz, rfl⟩ := List.mem_map.1 hy
          exact .inl ⟨rfl, z.1.segs, (hsound (subsBuilt s hs) (x := z.1) (k := z.2) hz).1.1, rfl⟩
        · rw [List.pairwise_map]
          exact (ih s hs).imp (fun h => rowBefore_below h)
      · rw [List.pairwise_map] at subsOrd
        refine subsOrd.imp_of_mem ?_
        intro a b ha hb hab x hx y hy
        have hx' : ∃ l, x.1.segs = a.seg.pattern :: l ∧ (l = [] → x.1.isRoute = false) := by
          rcases List.mem_cons.1 hx with rfl | hx
          · exact ⟨[], rfl, fun _ => rfl⟩
          · obtain ⟨z, hz, rfl⟩ := List.mem_map.1 hx
            exact ⟨z.1.segs, rfl, fun h => absurd h (hsound (subsBuilt a ha) (x := z.1) (k := z.2) hz).1.1⟩
        have hy' : ∃ l, y.1.segs = b.seg.pattern :: l ∧ (l = [] → y.1.isRoute = false) := by
          rcases List.mem_cons.1 hy with rfl | hy
          · exact ⟨[], rfl, fun _ => rfl⟩
          · obtain ⟨z, hz, rfl⟩ := List.mem_map.1 hy
            exact ⟨z.1.segs, rfl, fun h => absurd h (hsound (subsBuilt b hb) (x := z.1) (k := z.2) hz).1.1⟩
        obtain ⟨l, hl, hlr⟩ := hx'
        obtain ⟨m, hm, hmr⟩ := hy'
        refine .inr ⟨[], a.seg.pattern, l, b.seg.pattern, m, hl, hm, ?_⟩
        have e1 : (l.isEmpty && x.1.isRoute) = false := by
          cases l with
          | nil => simp [hlr rfl]
          | cons => rfl
        have e2 : (m.isEmpty && y.1.isRoute) = false := by
          cases m with
          | nil => simp [hmr rfl]
          | cons => rfl
        rw [e1, e2]
        exact childLt_above (subsOk a ha).1 (subsOk b hb).1 at_inner hab
    · rw [List.pairwise_map]
      rw [List.pairwise_map] at endsOrd
      refine endsOrd.imp_of_mem ?_
      intro a b ha hb hab
      exact .inr ⟨[], a.seg.pattern, [], b.seg.pattern, [], rfl, rfl, childLt_above (endsOk a ha).1 (endsOk b hb).1 at_route hab⟩
    · intro x hx y hy
      obtain ⟨s, hs, l, hl, hlr⟩ := hhead x hx
      obtain ⟨e, he, rfl⟩ := List.mem_map.1 hy
      refine .inr ⟨[], s.seg.pattern, l, e.seg.pattern, [], hl, rfl, .inl ⟨?_, rfl⟩⟩
      cases l with
      | nil => simp [hlr rfl]
      | cons => rfl

/-! ### the lines -/

theorem above_asymm {tbl : List (Entry α)} {c : List Str} {a b : Str} {ra rb : Bool} (h : Above tbl c a ra b rb)
    (h' : Above tbl c b rb a ra) : False := by
  rcases h with ⟨h1, h2⟩ | ⟨h1, h2⟩
  · rcases h' with ⟨h3, _⟩ | ⟨h3, _⟩
    · rw [h2] at h3; cases h3
    · rw [h1, h2] at h3; cases h3
  · rcases h' with ⟨h3, h4⟩ | ⟨_, h4⟩
    · rw [h3, h4] at h1; cases h1
    · rcases h2 with h2 | ⟨h2, h2'⟩
      · rcases h4 with h4 | ⟨h4, _⟩ <;> omega
      · rcases h4 with h4 | ⟨_, h4'⟩
        · omega
        · exact before_asymm h2' h4'

theorem followed_route {rx : Regex} {tbl : List (Entry α)} {seg : Seg} {subs : List (Node α)} {as bs : List (EndNode α)}
    {n : EndNode α} (hb : Built rx tbl (.mk seg subs (as ++ n :: bs))) : Followed tbl [] n.seg.pattern true ↔ bs ≠ [] := by
  cases hb with
  | mk endsOrd endsOk endsAll subsOrd subsOk subsAll subsBuilt =>
    rw [List.pairwise_map] at endsOrd
    obtain ⟨_, ho2, ho3⟩ := List.pairwise_append.1 endsOrd
    have ho2 := (List.pairwise_cons.1 ho2).1
    have hn := endsOk n (by simp)
    constructor
    · rintro ⟨b, rb, ⟨_, e, he, ha⟩, hab⟩ hnil
      subst hnil
      rcases hab with ⟨h, _⟩ | ⟨h, hab'⟩
      · cases h
      · subst h
        simp only [At, if_true] at ha
        obtain ⟨m, hm, rfl⟩ := endsAll e he b ha
        rcases List.mem_append.1 hm with hm | hm
        · exact above_asymm (childLt_above (endsOk m (by simp [hm])).1 hn.1 at_route (ho3 m hm n (by simp))) (.inr ⟨rfl, hab'⟩)
        · simp only [List.mem_cons, List.not_mem_nil, or_false] at hm
          subst hm
          exact above_asymm (.inr ⟨rfl, hab'⟩) (.inr ⟨rfl, hab'⟩)
    · intro hne
      obtain ⟨m, bs', rfl⟩ := List.exists_cons_of_ne_nil hne
      have hm := endsOk m (by simp)
      exact ⟨m.seg.pattern, true, firstHandlers_shown hm.2.1 (by simp),
        childLt_above hn.1 hm.1 at_route (ho2 m (by simp))⟩

theorem followed_inner {rx : Regex} {tbl : List (Entry α)} {seg : Seg} {ends : List (EndNode α)} {as bs : List (Node α)}
    {n : Node α} (hb : Built rx tbl (.mk seg (as ++ n :: bs) ends)) :
    Followed tbl [] n.seg.pattern false ↔ bs ≠ [] ∨ ends ≠ [] := by
  cases hb with
  | mk endsOrd endsOk endsAll subsOrd subsOk subsAll subsBuilt =>
    rw [List.pairwise_map] at subsOrd
    obtain ⟨_, ho2, ho3⟩ := List.pairwise_append.1 subsOrd
    have ho2 := (List.pairwise_cons.1 ho2).1
    have hn := subsOk n (by simp)
    constructor
    · rintro ⟨b, rb, ⟨_, e, he, ha⟩, hab⟩
      cases rb with
      | true =>
        simp only [At, if_true] at ha
        obtain ⟨m, hm, _⟩ := endsAll e he b ha
        exact .inr (List.ne_nil_of_mem hm)
      | false =>
        simp only [At, Bool.false_eq_true, if_false] at ha
        obtain ⟨m, hm, rfl⟩ := subsAll e he b ha
        rcases List.mem_append.1 hm with hm | hm
        · exact absurd hab (fun hab => above_asymm
            (childLt_above (subsOk m (by simp [hm])).1 hn.1 at_inner (ho3 m hm n (by simp))) hab)
        · rcases List.mem_cons.1 hm with rfl | hm
          · exact absurd hab (fun hab => above_asymm hab hab)
          · exact .inl (List.ne_nil_of_mem hm)
    · intro hne
      by_cases h : bs = []
      · have hne := hne.resolve_left (fun h' => h' h)
        obtain ⟨m, bs', rfl⟩ := List.exists_cons_of_ne_nil hne
        have hm := endsOk m (by simp)
        exact ⟨m.seg.pattern, true, firstHandlers_shown hm.2.1 (by simp), .inl ⟨rfl, rfl⟩⟩
      · obtain ⟨m, bs', rfl⟩ := List.exists_cons_of_ne_nil h
        obtain ⟨hm, e, he, ht⟩ := subsOk m (by simp)
        exact ⟨m.seg.pattern, false, ⟨by simp, e, he, by simpa [At] using ht⟩, childLt_above hn.1 hm at_inner (ho2 m (by simp))⟩

theorem indent_bars {s : Str} (hs : Bars s) : indent s = s := by
  unfold indent
  split
  · have := replace_bars hs 0 []
    simpa [replaceAll] using this
  · rfl

/-- the text of a row behind a drawing -/
def rowText (t : Str) (x : Row × Nat) : Str :=
  t ++ b!" " ++ x.1.segs.getLastD [] ++ (if x.1.isRoute then b!" [" ++ number3 x.2 ++ b!"]" else [])

/-- the rows that are drawn -/
def keep (isRoot : Bool) (x : Row × Nat) : Bool := !(isRoot && x.1 == topRow)

/-- lines for rows, behind a common prefix -/
inductive Lines (tbl : List (Entry α)) (pre : Str) : List (Row × Nat) → List Str → Prop where
  | nil : Lines tbl pre [] []
  | cons {x : Row × Nat} {xs : List (Row × Nat)} {t : Str} {ls : List Str} :
      Drawn tbl x.1.isRoute [] x.1.segs t → Lines tbl pre xs ls → Lines tbl pre (x :: xs) ((pre ++ rowText t x) :: ls)

theorem Lines.append {tbl : List (Entry α)} {pre : Str} {xs ys : List (Row × Nat)} {ls ms : List Str} (h : Lines tbl pre xs ls)
    (h' : Lines tbl pre ys ms) : Lines tbl pre (xs ++ ys) (ls ++ ms) := by
  induction h with
  | nil => exact h'
  | cons h _ ih => exact .cons h ih

/-- lines below a segment -/
theorem lines_push {p : Str} {tbl : List (Entry α)} {pre mid : Str} {xs : List (Row × Nat)} {ls : List Str}
    (hm : (Followed tbl [] p false ∧ mid = pTrunk) ∨ (¬ Followed tbl [] p false ∧ mid = pEmp))
    (hx : ∀ x ∈ xs, x.1.segs ≠ [])
    (h : Lines (below p tbl) (pre ++ mid) xs ls) : Lines tbl pre (xs.map (push p)) ls := by
  induction h with
  | nil => exact .nil
  | @cons x xs t ls hd hrest ih =>
    have hx := hx
    have h1 : pre ++ mid ++ rowText t x = pre ++ rowText (mid ++ t) (push p x) := by
      have hne := hx x (by simp)
      obtain ⟨a, l, hl⟩ := List.exists_cons_of_ne_nil hne
      simp [rowText, push, hl]
    rw [List.map_cons, h1]
    refine .cons ?_ (ih (fun y hy => hx y (by simp [hy])))
    have hne := hx x (by simp)
    have hd := drawn_below hd
    obtain ⟨a, l, hl⟩ := List.exists_cons_of_ne_nil hne
    unfold push
    simp only [hl] at hd ⊢
    rcases hm with ⟨h, rfl⟩ | ⟨h, rfl⟩
    · exact .bar h hd
    · exact .blank h hd

theorem printEnd_text (pre t : Str) (n : EndNode α) :
    printEnd (pre ++ t) n = pre ++ rowText t (⟨[n.seg.pattern], true⟩, n.handlers.length) := by
  simp [printEnd, rowText, number3, padLeft]

theorem printEnds_cons (isRoot : Bool) (pre : Str) (n : EndNode α) (bs : List (EndNode α)) :
    printEnds isRoot pre (n :: bs) =
      (if isRoot && n.seg.pattern == [] then [] else [printEnd (pre ++ (if bs = [] then pLeaf else pBranch)) n]) ++
        printEnds isRoot pre bs := by
  cases bs with
  | nil => simp [printEnds]
  | cons => simp [printEnds]

theorem lines_ends {rx : Regex} {tbl : List (Entry α)} {seg : Seg} {subs : List (Node α)} {ends : List (EndNode α)}
    (hb : Built rx tbl (.mk seg subs ends)) (isRoot : Bool) (pre : Str) (as bs : List (EndNode α)) (h : ends = as ++ bs) :
    Lines tbl pre ((bs.map (fun e => ((⟨[e.seg.pattern], true⟩, e.handlers.length) : Row × Nat))).filter (keep isRoot))
      (printEnds isRoot pre bs) := by
  induction bs generalizing as with
  | nil => exact .nil
  | cons n bs ih =>
    have ih := ih (as ++ [n]) (by simp [h])
    have hf : Followed tbl [] n.seg.pattern true ↔ bs ≠ [] := by
      rw [h] at hb; exact followed_route hb
    clear h
    rw [printEnds_cons, List.map_cons]
    have hk : keep isRoot ((⟨[n.seg.pattern], true⟩, n.handlers.length) : Row × Nat) = !(isRoot && n.seg.pattern == []) := by
      have e1 : ((⟨[n.seg.pattern], true⟩ : Row) == topRow) = (n.seg.pattern == []) := by
        rw [Bool.eq_iff_iff]
        simp [topRow]
      unfold keep
      rw [e1]
    cases hc : (isRoot && n.seg.pattern == []) with
    | true =>
      rw [List.filter_cons_of_neg (by rw [hk, hc]; simp)]
      simpa using ih
    | false =>
      rw [List.filter_cons_of_pos (by rw [hk, hc]; rfl)]
      simp only [Bool.false_eq_true, if_false, List.singleton_append]
      rw [printEnd_text]
      refine .cons ?_ ih
      by_cases hbs : bs = []
      · rw [if_pos hbs]
        exact .corner (fun h => hf.1 h hbs)
      · rw [if_neg hbs]
        exact .branch (hf.2 hbs)

theorem keep_deep {isRoot : Bool} {x : Row × Nat} (h : x.1 ≠ topRow) : keep isRoot x = true := by
  unfold keep
  rw [show (x.1 == topRow) = false by simpa using h]
  simp

theorem keep_false (l : List (Row × Nat)) : l.filter (keep false) = l := by
  rw [List.filter_eq_self]; intro x _; simp [keep]

theorem keep_rowsS {rx : Regex} {tbl : List (Entry α)} {seg : Seg} {subs : List (Node α)} {ends : List (EndNode α)}
    (hb : Built rx tbl (.mk seg subs ends)) (isRoot : Bool) : (rowsS subs).filter (keep isRoot) = rowsS subs := by
  rw [List.filter_eq_self]
  intro x hx
  apply keep_deep
  obtain ⟨s, hs, rfl | ⟨y, hy, rfl⟩⟩ := mem_rowsS.1 hx
  · simp [topRow]
  · cases hb with
    | mk _ _ _ _ _ _ subsBuilt =>
      have := (rows_sound (subsBuilt s hs) (x := y.1) (k := y.2) hy).1.1
      simp [topRow, push, this]

theorem lines_node {rx : Regex} {tbl : List (Entry α)} {n : Node α} (hb : Built rx tbl n) (isRoot : Bool) {pre : Str} (hp : Bars pre) :
    Lines tbl pre ((rowsN n).filter (keep isRoot)) (printTreeNode isRoot pre n) := by
  induction hb generalizing isRoot pre with
  | @mk tbl seg subs ends endsOrd endsOk endsAll subsOrd subsOk subsAll subsBuilt ih =>
    have hb : Built rx tbl (.mk seg subs ends) := .mk endsOrd endsOk endsAll subsOrd subsOk subsAll subsBuilt
    rw [rowsN, List.filter_append, keep_rowsS hb, printTreeNode, indent_bars hp]
    refine Lines.append ?_ (lines_ends hb isRoot pre [] ends rfl)
    have key : ∀ as bs, subs = as ++ bs → Lines tbl pre (rowsS bs) (printSubs (decide (ends.length > 0)) pre bs) := by
      intro as bs
      induction bs generalizing as with
      | nil => intro _; simp only [rowsS, printSubs]; exact .nil
      | cons s bs ihb =>
        intro hsub
        have hrest := ihb (as ++ [s]) (by simp [hsub])
        have hs : s ∈ subs := by simp [hsub]
        have hf : Followed tbl [] s.seg.pattern false ↔ bs ≠ [] ∨ ends ≠ [] := by
          rw [hsub] at hb; exact followed_inner hb
        have hne : ∀ x ∈ rowsN s, x.1.segs ≠ [] := fun x hx => (rows_sound (subsBuilt s hs) (x := x.1) (k := x.2) hx).1.1
        have hcond : (bs.isEmpty && !decide (ends.length > 0)) = true ↔ ¬ Followed tbl [] s.seg.pattern false := by
          rw [hf]
          cases bs <;> cases ends <;> simp
        rw [rowsS, printSubs]
        cases hc : (bs.isEmpty && !decide (ends.length > 0)) with
        | true =>
          have hnf := hcond.1 hc
          have hsubl := ih s hs false (hp.append (.emp .nil))
          rw [keep_false] at hsubl
          simp only [if_true]
          have := Lines.cons (pre := pre) (x := (⟨[s.seg.pattern], false⟩, 0)) (.corner hnf) ((lines_push (.inr ⟨hnf, rfl⟩) hne hsubl).append hrest)
          simpa [rowText, pLeaf] using this
        | false =>
          have hnf : Followed tbl [] s.seg.pattern false := by
            apply Classical.byContradiction
            intro h
            rw [hcond.2 h] at hc; cases hc
          have hsubl := ih s hs false (hp.append (.trunk .nil))
          rw [keep_false] at hsubl
          simp only [Bool.false_eq_true, if_false]
          have := Lines.cons (pre := pre) (x := (⟨[s.seg.pattern], false⟩, 0)) (.branch hnf) ((lines_push (.inl ⟨hnf, rfl⟩) hne hsubl).append hrest)
          simpa [rowText, pBranch] using this
    exact key [] subs rfl

theorem Lines.pairs {tbl : List (Entry α)} {xs : List (Row × Nat)} {ls : List Str} (h : Lines tbl [] xs ls)
    (hc : ∀ x ∈ xs, Counts tbl x.1 x.2) :
    ∃ out : List (Row × Str), out.map Prod.fst = xs.map Prod.fst ∧ out.map Prod.snd = ls ∧ ∀ p ∈ out, RowLine tbl p.1 p.2 := by
  induction h with
  | nil => exact ⟨[], rfl, rfl, by simp⟩
  | @cons x xs t ls hd _ ih =>
    obtain ⟨out, h1, h2, h3⟩ := ih (fun y hy => hc y (by simp [hy]))
    refine ⟨(x.1, [] ++ rowText t x) :: out, by simp [h1], by simp [h2], ?_⟩
    intro p hp
    rcases List.mem_cons.1 hp with rfl | hp
    · obtain ⟨c1, c2⟩ := hc x (by simp)
      refine ⟨t, hd, ?_, ?_⟩
      · intro hr
        simp only at hr
        simp [rowText, hr]
      · intro hr
        simp only at hr
        obtain ⟨h, hf, hk⟩ := c2 hr
        exact ⟨h, hf, by simp [rowText, hr, hk]⟩
    · exact h3 p hp

/-- a method has a tree only if it has a route -/
theorem buildTree_nonempty {rx : Regex} {vs : List (Route α)} {e e' : Engine α} (h : buildTree rx e vs = .ok e')
    {m : Str} {i : Nat} (hm : methodIndex m = some i) (ht : (e'.trees i).isSome) :
    (e.trees i).isSome ∨ ∃ v ∈ vs, v.method = m := by
  induction vs generalizing e with
  | nil =>
    unfold buildTree at h
    injection h with h
    subst h
    exact .inl ht
  | cons v vs ih =>
    unfold buildTree at h
    simp only [bind, Except.bind] at h
    cases hs : buildStep rx e v with
    | error p => rw [hs] at h; cases h
    | ok e1 =>
      rw [hs] at h
      rcases ih h with h1 | ⟨w, hw, hwm⟩
      · unfold buildStep at hs
        cases hj : methodIndex v.method with
        | none => rw [hj] at hs; cases hs
        | some j =>
          rw [hj] at hs
          simp only [bind, Except.bind] at hs
          cases ha : Node.add rx ((e.trees j).getD newTree) v.variant v.handlers v.uri with
          | error p => rw [ha] at hs; cases hs
          | ok t' =>
            rw [ha] at hs
            simp only [pure, Except.pure] at hs
            have htrees : e1.trees = setAt e.trees j (some t') := by
              split at hs <;> (injection hs with hs; subst hs; rfl)
            rw [htrees] at h1
            unfold setAt at h1
            by_cases hij : i = j
            · subst hij
              exact .inr ⟨v, by simp, methodIndex_inj hj hm⟩
            · rw [if_neg hij] at h1
              exact .inl h1
      · exact .inr ⟨w, by simp [hw], hwm⟩

end Water
