import Verif.Spec.Memory
import Verif.Lemmas.Engine
/-
The trees in memory and the trees as values.
-/
namespace Water
open Spec
variable {α : Type}

/-! ### forests -/

theorem IsAbove.trans {h : THeap α} {a b c : Nat} (h1 : IsAbove h a b) (h2 : IsAbove h b c) : IsAbove h a c := by
  induction h2 with
  | refl => exact h1
  | up h3 h4 _ ih => exact .up h3 h4 ih

theorem IsAbove.le {h : THeap α} (hf : Forest h) {a b : Nat} (h1 : IsAbove h a b) : a ≤ b := by
  induction h1 with
  | refl => exact Nat.le_refl _
  | up h3 h4 _ ih => exact Nat.le_trans ih (Nat.le_of_lt (hf.up _ _ h3 _ h4))

theorem IsAbove.total {h : THeap α} {a b k : Nat} (h1 : IsAbove h a k) (h2 : IsAbove h b k) : IsAbove h a b ∨ IsAbove h b a := by
  induction h1 with
  | refl => exact .inr h2
  | up h3 h4 h5 ih =>
    cases h2 with
    | refl => exact .inl (.up h3 h4 h5)
    | up h6 h7 h8 =>
      rw [h3] at h6
      injection h6 with h6
      subst h6
      rw [h4] at h7
      injection h7 with h7
      subst h7
      exact ih h8

theorem IsAbove.child {h : THeap α} (hf : Forest h) {a c k : Nat} {n : PNode α} (ha : h[a]? = some n) (hc : c ∈ n.subNodes ++ n.endNodes)
    (hk : IsAbove h c k) : IsAbove h a k := by
  obtain ⟨x, h1, h2⟩ := hf.down a n ha c hc
  exact Water.IsAbove.trans (.up h1 h2 .refl) hk

/-- what is below one child is not below another -/
theorem IsAbove.siblings {h : THeap α} (hf : Forest h) {a c d k : Nat} {n : PNode α} (ha : h[a]? = some n)
    (hc : c ∈ n.subNodes ++ n.endNodes) (hd : d ∈ n.subNodes ++ n.endNodes) (h1 : IsAbove h c k) (h2 : IsAbove h d k) : c = d := by
  have key : ∀ {c d : Nat}, c ∈ n.subNodes ++ n.endNodes → d ∈ n.subNodes ++ n.endNodes → IsAbove h c d → c = d := by
    intro c d hc hd h3
    obtain ⟨x, hx1, hx2⟩ := hf.down a n ha c hc
    obtain ⟨y, hy1, hy2⟩ := hf.down a n ha d hd
    cases h3 with
    | refl => rfl
    | up h4 h5 h6 =>
      rw [hy1] at h4
      injection h4 with h4
      subst h4
      rw [hy2] at h5
      injection h5 with h5
      subst h5
      have h7 := IsAbove.le hf h6
      have h8 := hf.up _ _ hx1 _ hx2
      omega
  rcases IsAbove.total h1 h2 with h3 | h3
  · exact key hc hd h3
  · exact (key hd hc h3).symm

theorem lt_of_get {h : THeap α} {a : Nat} {n : PNode α} (ha : h[a]? = some n) : a < h.length :=
  (List.getElem?_eq_some_iff.1 ha).1

/-! ### representation -/

/-- the end node at `a` is `e` -/
def RepEnd (h : THeap α) (a : Nat) (e : EndNode α) : Prop :=
  ∃ p : PNode α, h[a]? = some p ∧ p.seg = e.seg ∧ p.handlers = e.handlers ∧ p.matchNode = some e.uri

def RepEnds (h : THeap α) : List (EndNode α) → List Nat → Prop
  | [], [] => True
  | e :: es, a :: as => RepEnd h a e ∧ RepEnds h es as
  | _, _ => False

mutual
/-- the tree at `a` is the given one -/
def Rep (h : THeap α) : Node α → Nat → Prop
  | .mk seg subs ends, a => ∃ p : PNode α, h[a]? = some p ∧ p.seg = seg ∧ Reps h subs p.subNodes ∧ RepEnds h ends p.endNodes

def Reps (h : THeap α) : List (Node α) → List Nat → Prop
  | [], [] => True
  | n :: ns, a :: as => Rep h n a ∧ Reps h ns as
  | _, _ => False
end

theorem repEnds_same {h h' : THeap α} {es : List (EndNode α)} {l : List Nat} (hs : ∀ b ∈ l, h'[b]? = h[b]?) (hr : RepEnds h es l) :
    RepEnds h' es l := by
  induction es generalizing l with
  | nil => cases l with | nil => trivial | cons a as => exact hr
  | cons e es ih =>
    cases l with
    | nil => exact hr
    | cons a as =>
      obtain ⟨⟨p, h1, h2⟩, h3⟩ := hr
      exact ⟨⟨p, by rw [hs a List.mem_cons_self]; exact h1, h2⟩, ih (fun b hb => hs b (List.mem_cons_of_mem _ hb)) h3⟩

mutual
/-- a tree whose nodes did not change is the same tree -/
theorem rep_same {h h' : THeap α} {P : Nat → Prop} (hc : ∀ (a : Nat) (n : PNode α), P a → h[a]? = some n → ∀ c ∈ n.subNodes ++ n.endNodes, P c)
    (hs : ∀ a, P a → h'[a]? = h[a]?) : ∀ (t : Node α) (a : Nat), P a → Rep h t a → Rep h' t a
  | .mk seg subs ends, a, ha, hr => by
    obtain ⟨p, h1, h2, h3, h4⟩ := hr
    have hcl := hc a p ha h1
    refine ⟨p, by rw [hs a ha]; exact h1, h2, ?_, ?_⟩
    · exact reps_same hc hs subs p.subNodes (fun c hc => hcl c (List.mem_append_left _ hc)) h3
    · exact repEnds_same (fun b hb => hs b (hcl b (List.mem_append_right _ hb))) h4

theorem reps_same {h h' : THeap α} {P : Nat → Prop} (hc : ∀ (a : Nat) (n : PNode α), P a → h[a]? = some n → ∀ c ∈ n.subNodes ++ n.endNodes, P c)
    (hs : ∀ a, P a → h'[a]? = h[a]?) : ∀ (ts : List (Node α)) (l : List Nat), (∀ a ∈ l, P a) → Reps h ts l → Reps h' ts l
  | [], [], _, _ => trivial
  | [], _ :: _, _, hr => hr
  | _ :: _, [], _, hr => hr
  | t :: ts, a :: as, hP, hr => ⟨rep_same hc hs t a (hP a List.mem_cons_self) hr.1,
      reps_same hc hs ts as (fun b hb => hP b (List.mem_cons_of_mem _ hb)) hr.2⟩
end

/-- in particular if all that changed is not below `a` -/
theorem rep_frame {h h' : THeap α} (hf : Forest h) {t : Node α} {a : Nat} (hr : Rep h t a)
    (hs : ∀ (b : Nat) (n : PNode α), h[b]? = some n → IsAbove h a b → h'[b]? = some n) : Rep h' t a := by
  refine rep_same (h := h) (P := fun b => IsAbove h a b ∧ ∃ n : PNode α, h[b]? = some n) ?_ ?_ t a ⟨.refl, ?_⟩ hr
  · intro b n hb hn c hc
    obtain ⟨x, h1, h2⟩ := hf.down b n hn c hc
    exact ⟨.up h1 h2 hb.1, x, h1⟩
  · intro b hb
    obtain ⟨n, hn⟩ := hb.2
    rw [hs b n hn hb.1, hn]
  · cases t
    obtain ⟨p, h1, _⟩ := hr
    exact ⟨p, h1⟩

theorem reps_length {h : THeap α} : ∀ {ts : List (Node α)} {l : List Nat}, Reps h ts l → ts.length = l.length
  | [], [], _ => rfl
  | [], _ :: _, hr => hr.elim
  | _ :: _, [], hr => hr.elim
  | _ :: _, _ :: _, hr => congrArg (· + 1) (reps_length hr.2)

theorem rep_seg {h : THeap α} {t : Node α} {a : Nat} (hr : Rep h t a) : ∃ p : PNode α, h[a]? = some p ∧ p.seg = t.seg := by
  cases t
  obtain ⟨p, h1, h2, _⟩ := hr
  exact ⟨p, h1, h2⟩

/-! ### growing -/

/-- What becomes of memory when nodes are added: old nodes keep their parent, segment and handlers. -/
def Grows (h h' : THeap α) : Prop :=
  ∀ (a : Nat) (n : PNode α), h[a]? = some n → ∃ n' : PNode α, h'[a]? = some n' ∧ n'.parent = n.parent ∧ n'.seg = n.seg ∧ n'.handlers = n.handlers

theorem Grows.refl (h : THeap α) : Grows h h := fun _ n hn => ⟨n, hn, rfl, rfl, rfl⟩

theorem Grows.trans {h h' h'' : THeap α} (h1 : Grows h h') (h2 : Grows h' h'') : Grows h h'' := by
  intro a n hn
  obtain ⟨n', g1, g2, g3, g4⟩ := h1 a n hn
  obtain ⟨n'', k1, k2, k3, k4⟩ := h2 a n' g1
  exact ⟨n'', k1, k2.trans g2, k3.trans g3, k4.trans g4⟩

theorem Grows.above {h h' : THeap α} (hg : Grows h h') {a b : Nat} (h1 : IsAbove h a b) : IsAbove h' a b := by
  induction h1 with
  | refl => exact .refl
  | up h2 h3 _ ih =>
    obtain ⟨n', g1, g2, _⟩ := hg _ _ h2
    exact .up g1 (g2.trans h3) ih

/-- nothing old gets a new ancestor -/
theorem Grows.above_old {h h' : THeap α} (hg : Grows h h') {a b : Nat} (hf : Forest h) {n : PNode α} (hb : h[b]? = some n)
    (h1 : IsAbove h' a b) : IsAbove h a b := by
  induction h1 generalizing n with
  | refl => exact .refl
  | @up b q n1 h2 h3 _ ih =>
    obtain ⟨n', g1, g2, _⟩ := hg _ _ hb
    rw [h2] at g1
    injection g1 with g1
    subst g1
    rw [h3] at g2
    obtain ⟨x, hx, _⟩ := hf.listed b n q hb g2.symm
    exact .up hb g2.symm (ih hx)

/-- memory after a new node `x` was put into the list of `n` -/
theorem attach_get {h : THeap α} {a : Nat} {p x : PNode α} (ha : h[a]? = some p) (f : PNode α → PNode α) (b : Nat) :
    ((h ++ [x]).modify a f)[b]? = if b = h.length then some x else if b = a then some (f p) else h[b]? := by
  have hlt := lt_of_get ha
  rw [List.getElem?_modify]
  by_cases h1 : b = h.length
  · subst h1
    have : ¬ a = h.length := by omega
    simp [this]
  · simp only [h1, if_false]
    by_cases h2 : b = a
    · subst h2
      rw [List.getElem?_append_left hlt, ha]
      simp
    · simp only [h2, if_false]
      have : ¬ a = b := fun h => h2 h.symm
      simp only [this, if_false]
      by_cases h3 : b < h.length
      · rw [List.getElem?_append_left h3]; simp
      · rw [List.getElem?_eq_none (by simp; omega), List.getElem?_eq_none (by omega)]; rfl

theorem attach_length {h : THeap α} {a : Nat} {x : PNode α} (f : PNode α → PNode α) : ((h ++ [x]).modify a f).length = h.length + 1 := by
  simp

theorem insertP_perm (l : List Nat) (i a : Nat) : (insertP l i a).Perm (a :: l) := by
  unfold insertP
  split
  · exact List.perm_append_singleton a l
  · have : (l.take i ++ ([a] ++ l.drop i)).Perm (a :: (l.take i ++ l.drop i)) := List.perm_middle
    rwa [List.take_append_drop] at this

/-- a node with no list of its own, made for `a` and put into one of the lists of `a` -/
structure Attach (h : THeap α) (a : Nat) (p x : PNode α) (f : PNode α → PNode α) : Prop where
  at_ : h[a]? = some p
  parent : x.parent = some a
  bare : x.subNodes ++ x.endNodes = []
  keeps : (f p).parent = p.parent ∧ (f p).seg = p.seg ∧ (f p).handlers = p.handlers ∧ (f p).matchNode = p.matchNode
  lists : ((f p).subNodes ++ (f p).endNodes).Perm (h.length :: (p.subNodes ++ p.endNodes))

theorem Attach.grows {h : THeap α} {a : Nat} {p x : PNode α} {f : PNode α → PNode α} (ht : Attach h a p x f) :
    Grows h ((h ++ [x]).modify a f) := by
  intro b n hn
  have hb := lt_of_get hn
  rw [attach_get ht.at_, if_neg (by omega)]
  by_cases h1 : b = a
  · subst h1
    rw [ht.at_] at hn
    injection hn with hn
    subst hn
    exact ⟨f p, by simp, ht.keeps.1, ht.keeps.2.1, ht.keeps.2.2.1⟩
  · exact ⟨n, by simp [h1, hn], rfl, rfl, rfl⟩

theorem Attach.forest {h : THeap α} {a : Nat} {p x : PNode α} {f : PNode α → PNode α} (hf : Forest h) (ht : Attach h a p x f) :
    Forest ((h ++ [x]).modify a f) := by
  have hlt := lt_of_get ht.at_
  have hget := attach_get (x := x) ht.at_ f
  have hin : ∀ c, c ∈ (f p).subNodes ++ (f p).endNodes ↔ c = h.length ∨ c ∈ p.subNodes ++ p.endNodes := by
    intro c
    rw [ht.lists.mem_iff, List.mem_cons]
  have hnew : ∀ (b : Nat) (n : PNode α), h[b]? = some n → b ≠ h.length := fun b n hn => Nat.ne_of_lt (lt_of_get hn)
  constructor
  · intro b n hn q hq
    rw [hget] at hn
    split at hn
    · injection hn with hn
      subst hn
      rw [ht.parent] at hq
      injection hq with hq
      omega
    · split at hn
      · rename_i h1 h2
        injection hn with hn
        subst hn
        rw [ht.keeps.1] at hq
        rw [h2]
        exact hf.up a p ht.at_ q hq
      · exact hf.up b n hn q hq
  · intro b n hn c hc
    rw [hget] at hn
    split at hn
    · injection hn with hn
      subst hn
      rw [ht.bare] at hc
      cases hc
    · split at hn
      · rename_i h1 h2
        injection hn with hn
        subst hn
        rcases (hin c).1 hc with rfl | hc
        · exact ⟨x, by rw [hget, if_pos rfl], by rw [ht.parent, h2]⟩
        · obtain ⟨y, h3, h4⟩ := hf.down a p ht.at_ c hc
          obtain ⟨y', k1, k2, _⟩ := ht.grows c y h3
          exact ⟨y', k1, by rw [k2, h4, h2]⟩
      · obtain ⟨y, h3, h4⟩ := hf.down b n hn c hc
        obtain ⟨y', k1, k2, _⟩ := ht.grows c y h3
        exact ⟨y', k1, k2.trans h4⟩
  · intro b n hn
    rw [hget] at hn
    split at hn
    · injection hn with hn
      subst hn
      rw [ht.bare]
      exact List.nodup_nil
    · split at hn
      · injection hn with hn
        subst hn
        refine ht.lists.nodup_iff.2 (List.nodup_cons.2 ⟨fun hm => ?_, hf.once a p ht.at_⟩)
        obtain ⟨y, h3, _⟩ := hf.down a p ht.at_ _ hm
        exact hnew _ _ h3 rfl
      · exact hf.once b n hn
  · intro c y b hc hb
    rw [hget] at hc
    have hold : ∀ (b : Nat) (n : PNode α), h[b]? = some n → ∀ c, c ∈ n.subNodes ++ n.endNodes →
        ∃ n' : PNode α, ((h ++ [x]).modify a f)[b]? = some n' ∧ c ∈ n'.subNodes ++ n'.endNodes := by
      intro b n hn c hc
      rw [hget, if_neg (hnew b n hn)]
      by_cases h1 : b = a
      · subst h1
        rw [ht.at_] at hn
        injection hn with hn
        subst hn
        exact ⟨f p, by simp, (hin c).2 (.inr hc)⟩
      · exact ⟨n, by simp [h1, hn], hc⟩
    split at hc
    · rename_i h1
      injection hc with hc
      subst hc
      rw [ht.parent] at hb
      injection hb with hb
      subst hb
      exact ⟨f p, by rw [hget, if_neg (hnew _ _ ht.at_), if_pos rfl], (hin c).2 (.inl h1)⟩
    · split at hc
      · rename_i h1 h2
        injection hc with hc
        subst hc
        rw [ht.keeps.1] at hb
        obtain ⟨n, h3, h4⟩ := hf.listed a p b ht.at_ hb
        rw [h2]
        exact hold b n h3 a h4
      · obtain ⟨n, h3, h4⟩ := hf.listed c y b hc hb
        exact hold b n h3 c h4

/-- a change of `matchNode` only -/
theorem setMatch_get (h : THeap α) (e : Nat) (u : Str) (b : Nat) :
    (h.modify e (fun n => { n with matchNode := some u }))[b]? =
      if b = e then (h[b]?).map (fun n => { n with matchNode := some u }) else h[b]? := by
  rw [List.getElem?_modify]
  by_cases h1 : b = e
  · simp [h1]
  · have : ¬ e = b := fun h => h1 h.symm
    simp [h1, this]

theorem setMatch_back {h : THeap α} {e : Nat} {u : Str} {b : Nat} {n : PNode α}
    (hn : (h.modify e (fun n => { n with matchNode := some u }))[b]? = some n) :
    ∃ n' : PNode α, h[b]? = some n' ∧ n'.parent = n.parent ∧ n'.seg = n.seg ∧ n'.subNodes = n.subNodes ∧ n'.endNodes = n.endNodes := by
  rw [setMatch_get] at hn
  split at hn
  · cases hb : h[b]? with
    | none => rw [hb] at hn; cases hn
    | some x => rw [hb] at hn; injection hn with hn; subst hn; exact ⟨x, rfl, rfl, rfl, rfl, rfl⟩
  · exact ⟨n, hn, rfl, rfl, rfl, rfl⟩

theorem setMatch_to {h : THeap α} (e : Nat) (u : Str) {b : Nat} {n : PNode α} (hn : h[b]? = some n) :
    ∃ n' : PNode α, (h.modify e (fun n => { n with matchNode := some u }))[b]? = some n' ∧ n'.parent = n.parent ∧ n'.seg = n.seg ∧
      n'.subNodes = n.subNodes ∧ n'.endNodes = n.endNodes ∧ n'.handlers = n.handlers := by
  rw [setMatch_get, hn]
  split
  · exact ⟨_, rfl, rfl, rfl, rfl, rfl, rfl⟩
  · exact ⟨_, rfl, rfl, rfl, rfl, rfl, rfl⟩

theorem setMatch_grows (h : THeap α) (e : Nat) (u : Str) : Grows h (h.modify e (fun n => { n with matchNode := some u })) := by
  intro b n hn
  obtain ⟨n', h1, h2, h3, _, _, h6⟩ := setMatch_to e u hn
  exact ⟨n', h1, h2, h3, h6⟩

theorem setMatch_forest {h : THeap α} (hf : Forest h) (e : Nat) (u : Str) :
    Forest (h.modify e (fun n => { n with matchNode := some u })) := by
  constructor
  · intro a n hn q hq
    obtain ⟨n', h1, h2, _⟩ := setMatch_back hn
    exact hf.up a n' h1 q (h2.trans hq)
  · intro a n hn c hc
    obtain ⟨n', h1, _, _, h4, h5⟩ := setMatch_back hn
    rw [← h4, ← h5] at hc
    obtain ⟨x, k1, k2⟩ := hf.down a n' h1 c hc
    obtain ⟨x', g1, g2, _⟩ := setMatch_to e u k1
    exact ⟨x', g1, g2.trans k2⟩
  · intro a n hn
    obtain ⟨n', h1, _, _, h4, h5⟩ := setMatch_back hn
    rw [← h4, ← h5]
    exact hf.once a n' h1
  · intro c x a hc hp
    obtain ⟨n', h1, h2, _⟩ := setMatch_back hc
    obtain ⟨n, k1, k2⟩ := hf.listed c n' a h1 (h2.trans hp)
    obtain ⟨n2, g1, _, _, g4, g5, _⟩ := setMatch_to e u k1
    exact ⟨n2, g1, by rw [g4, g5]; exact k2⟩

/-! ### walking along a pattern -/

/-- the end node that the segments of a pattern lead to -/
def walkP (h : THeap α) : List Str → Nat → Option Nat
  | [], _ => none
  | [s], a =>
    match h[a]? with
    | none => none
    | some n => findP h s n.endNodes
  | s :: t :: rest, a =>
    match h[a]? with
    | none => none
    | some n =>
      match findP h s n.subNodes with
      | none => none
      | some b => walkP h (t :: rest) b

/-- the test of `findP` -/
def hasPat (h : THeap α) (s : Str) (a : Nat) : Bool := match h[a]? with | some n => n.seg.pattern == s | none => false

theorem findP_eq (h : THeap α) (s : Str) (l : List Nat) : findP h s l = l.find? (hasPat h s) := rfl

theorem hasPat_eq {h : THeap α} {s : Str} {a : Nat} {n : PNode α} (ha : h[a]? = some n) : hasPat h s a = (n.seg.pattern == s) := by
  unfold hasPat
  rw [ha]

theorem findP_same {h h' : THeap α} {l : List Nat} {s : Str}
    (hs : ∀ b ∈ l, ∃ n n' : PNode α, h[b]? = some n ∧ h'[b]? = some n' ∧ n'.seg = n.seg) : findP h' s l = findP h s l := by
  rw [findP_eq, findP_eq]
  induction l with
  | nil => rfl
  | cons b l ih =>
    obtain ⟨n, n', h1, h2, h3⟩ := hs b List.mem_cons_self
    rw [List.find?_cons, List.find?_cons, ih (fun c hc => hs c (List.mem_cons_of_mem _ hc)), hasPat_eq h1, hasPat_eq h2, h3]

theorem findP_mem {h : THeap α} {l : List Nat} {s : Str} {b : Nat} (hb : findP h s l = some b) :
    b ∈ l ∧ ∃ n : PNode α, h[b]? = some n ∧ n.seg.pattern = s := by
  rw [findP_eq] at hb
  refine ⟨List.mem_of_find?_eq_some hb, ?_⟩
  have := List.find?_some hb
  unfold hasPat at this
  split at this
  · rename_i n hn
    exact ⟨n, hn, eq_of_beq this⟩
  · cases this

theorem find_insert_not {q : Nat → Bool} {l : List Nat} {i x : Nat} (hx : q x = false) : (insertP l i x).find? q = l.find? q := by
  unfold insertP
  split
  · rw [List.find?_append, List.find?_cons, hx]
    simp
  · conv => rhs; rw [← List.take_append_drop i l]
    rw [List.find?_append, List.find?_append, List.find?_append, List.find?_cons, hx]
    simp

theorem find_insert {q : Nat → Bool} {l : List Nat} {i x : Nat} (hx : q x = true) (hno : l.find? q = none) :
    (insertP l i x).find? q = some x := by
  unfold insertP
  split
  · rw [List.find?_append, hno, List.find?_cons, hx]
    rfl
  · rw [← List.take_append_drop i l, List.find?_append] at hno
    rw [List.find?_append, List.find?_append, List.find?_cons, hx]
    cases h1 : List.find? q (l.take i) with
    | none => rfl
    | some y => rw [h1] at hno; cases hno

/-- a node with another pattern does not come in between -/
theorem findP_insert {h : THeap α} {l : List Nat} {s : Str} {i x : Nat} {n : PNode α} (hx : h[x]? = some n) (hn : n.seg.pattern ≠ s) :
    findP h s (insertP l i x) = findP h s l :=
  find_insert_not (q := hasPat h s) (by rw [hasPat_eq hx]; simp [hn])

/-- and it is found itself -/
theorem findP_new {h : THeap α} {l : List Nat} {i x : Nat} {n : PNode α} (hx : h[x]? = some n)
    (hno : findP h n.seg.pattern l = none) : findP h n.seg.pattern (insertP l i x) = some x :=
  find_insert (q := hasPat h n.seg.pattern) (by rw [hasPat_eq hx]; simp) hno

end Water
