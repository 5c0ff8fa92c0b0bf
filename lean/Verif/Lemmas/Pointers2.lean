import Verif.Lemmas.Pointers
import Verif.Lemmas.Built
/-
Adding a route to a tree in memory is adding it to the tree as a value.
-/
namespace Water
open Spec
variable {α : Type}

/-- set `matchNode` -/
abbrev setMatch (h : THeap α) (e : Nat) (u : Str) : THeap α := h.modify e (fun n => { n with matchNode := some u })

/-- old nodes keep their parent, segment, handlers, and what can be found from them -/
def Keeps (h h' : THeap α) : Prop :=
  ∀ (a : Nat) (n : PNode α), h[a]? = some n → ∃ n' : PNode α, h'[a]? = some n' ∧ n'.parent = n.parent ∧ n'.seg = n.seg ∧
    n'.handlers = n.handlers ∧ (∀ s b, findP h s n.subNodes = some b → findP h' s n'.subNodes = some b) ∧
    ∀ s b, findP h s n.endNodes = some b → findP h' s n'.endNodes = some b

theorem Keeps.refl (h : THeap α) : Keeps h h := fun _ n hn => ⟨n, hn, rfl, rfl, rfl, fun _ _ h => h, fun _ _ h => h⟩

theorem Keeps.trans {h h' h'' : THeap α} (h1 : Keeps h h') (h2 : Keeps h' h'') : Keeps h h'' := by
  intro a n hn
  obtain ⟨n', g1, g2, g3, g4, g5, g6⟩ := h1 a n hn
  obtain ⟨n'', k1, k2, k3, k4, k5, k6⟩ := h2 a n' g1
  exact ⟨n'', k1, k2.trans g2, k3.trans g3, k4.trans g4, fun s b hb => k5 s b (g5 s b hb), fun s b hb => k6 s b (g6 s b hb)⟩

theorem Keeps.grows {h h' : THeap α} (hk : Keeps h h') : Grows h h' := by
  intro a n hn
  obtain ⟨n', g1, g2, g3, g4, _⟩ := hk a n hn
  exact ⟨n', g1, g2, g3, g4⟩

theorem Keeps.walk {h h' : THeap α} (hk : Keeps h h') {segs : List Str} {a e : Nat} (hw : walkP h segs a = some e) :
    walkP h' segs a = some e := by
  induction segs generalizing a with
  | nil => cases hw
  | cons s rest ih =>
    cases ha : h[a]? with
    | none => cases rest <;> simp [walkP, ha] at hw
    | some n =>
      obtain ⟨n', g1, _, _, _, g5, g6⟩ := hk a n ha
      cases rest with
      | nil =>
        simp only [walkP, ha] at hw
        simp only [walkP, g1]
        exact g6 s e hw
      | cons t rest =>
        simp only [walkP, ha] at hw
        simp only [walkP, g1]
        cases hb : findP h s n.subNodes with
        | none => rw [hb] at hw; cases hw
        | some b =>
          rw [hb] at hw
          rw [g5 s b hb]
          exact ih hw

/-- finding in lists whose nodes keep their segments -/
theorem find_grows {h h' : THeap α} (hf : Forest h) (hg : Grows h h') {a : Nat} {n : PNode α} (ha : h[a]? = some n) {l : List Nat}
    (hl : ∀ b ∈ l, b ∈ n.subNodes ++ n.endNodes) (s : Str) : findP h' s l = findP h s l := by
  refine findP_same (fun b hb => ?_)
  obtain ⟨x, h1, _⟩ := hf.down a n ha b (hl b hb)
  obtain ⟨x', h2, _, h3, _⟩ := hg b x h1
  exact ⟨x, x', h1, h2, h3⟩

theorem keeps_of_same {h h' : THeap α} (hf : Forest h) (hg : Grows h h')
    (hs : ∀ (a : Nat) (n n' : PNode α), h[a]? = some n → h'[a]? = some n' →
      (n'.subNodes = n.subNodes ∧ n'.endNodes = n.endNodes) ∨
      ((∀ s b, findP h s n.subNodes = some b → findP h' s n'.subNodes = some b) ∧
       ∀ s b, findP h s n.endNodes = some b → findP h' s n'.endNodes = some b)) : Keeps h h' := by
  intro a n hn
  obtain ⟨n', g1, g2, g3, g4⟩ := hg a n hn
  refine ⟨n', g1, g2, g3, g4, ?_⟩
  rcases hs a n n' hn g1 with ⟨h1, h2⟩ | h1
  · rw [h1, h2]
    refine ⟨fun s b hb => ?_, fun s b hb => ?_⟩
    · rw [find_grows hf hg hn (fun b hb => List.mem_append_left _ hb)]; exact hb
    · rw [find_grows hf hg hn (fun b hb => List.mem_append_right _ hb)]; exact hb
  · exact h1

theorem setMatch_keeps {h : THeap α} (hf : Forest h) (e : Nat) (u : Str) : Keeps h (setMatch h e u) := by
  refine keeps_of_same hf (setMatch_grows h e u) (fun a n n' h1 h2 => .inl ?_)
  obtain ⟨m, k1, _, _, k4, k5, _⟩ := setMatch_to e u h1
  rw [show (setMatch h e u)[a]? = some m from k1] at h2
  injection h2 with h2
  subst h2
  exact ⟨k4, k5⟩

/-! ### attaching a node -/

/-- a new node with nothing below it -/
abbrev bareNode (a : Nat) (seg : Seg) (hs : List α) : PNode α :=
  { parent := some a, subNodes := [], endNodes := [], seg, handlers := hs, matchNode := none }

theorem attachSub {h : THeap α} {a : Nat} {p : PNode α} (ha : h[a]? = some p) (seg : Seg) (hs : List α) (k : Nat) :
    Attach h a p (bareNode a seg hs) (fun p => { p with subNodes := insertP p.subNodes k h.length }) where
  at_ := ha
  parent := rfl
  bare := rfl
  keeps := ⟨rfl, rfl, rfl, rfl⟩
  lists := (insertP_perm p.subNodes k h.length).append_right p.endNodes

theorem attachEnd {h : THeap α} {a : Nat} {p : PNode α} (ha : h[a]? = some p) (seg : Seg) (hs : List α) (k : Nat) :
    Attach h a p (bareNode a seg hs) (fun p => { p with endNodes := insertP p.endNodes k h.length }) where
  at_ := ha
  parent := rfl
  bare := rfl
  keeps := ⟨rfl, rfl, rfl, rfl⟩
  lists := ((insertP_perm p.endNodes k h.length).append_left p.subNodes).trans List.perm_middle

theorem attachSub_keeps {h : THeap α} (hf : Forest h) {a : Nat} {p : PNode α} (ha : h[a]? = some p) (seg : Seg) (hs : List α) (k : Nat)
    (hno : findP h seg.pattern p.subNodes = none) :
    Keeps h ((h ++ [bareNode a seg hs]).modify a (fun p => { p with subNodes := insertP p.subNodes k h.length })) := by
  have ht := attachSub ha seg hs k
  have hget := attach_get (x := bareNode a seg hs) ha (fun p => { p with subNodes := insertP p.subNodes k h.length })
  refine keeps_of_same hf ht.grows (fun b n n' h1 h2 => ?_)
  rw [hget, if_neg (Nat.ne_of_lt (lt_of_get h1))] at h2
  split at h2
  · rename_i h3
    subst h3
    rw [ha] at h1
    injection h1 with h1
    subst h1
    injection h2 with h2
    subst h2
    refine .inr ⟨fun s b hb => ?_, fun s b hb => ?_⟩
    · have hne : seg.pattern ≠ s := by
        intro h3
        rw [← h3, hno] at hb
        cases hb
      rw [findP_insert (n := bareNode _ seg hs) (by rw [hget, if_pos rfl]) hne,
        find_grows hf ht.grows ha (fun b hb => List.mem_append_left _ hb)]
      exact hb
    · rw [find_grows hf ht.grows ha (fun b hb => List.mem_append_right _ hb)]; exact hb
  · rw [h1] at h2
    injection h2 with h2
    subst h2
    exact .inl ⟨rfl, rfl⟩

theorem attachEnd_keeps {h : THeap α} (hf : Forest h) {a : Nat} {p : PNode α} (ha : h[a]? = some p) (seg : Seg) (hs : List α) (k : Nat)
    (hno : findP h seg.pattern p.endNodes = none) :
    Keeps h ((h ++ [bareNode a seg hs]).modify a (fun p => { p with endNodes := insertP p.endNodes k h.length })) := by
  have ht := attachEnd ha seg hs k
  have hget := attach_get (x := bareNode a seg hs) ha (fun p => { p with endNodes := insertP p.endNodes k h.length })
  refine keeps_of_same hf ht.grows (fun b n n' h1 h2 => ?_)
  rw [hget, if_neg (Nat.ne_of_lt (lt_of_get h1))] at h2
  split at h2
  · rename_i h3
    subst h3
    rw [ha] at h1
    injection h1 with h1
    subst h1
    injection h2 with h2
    subst h2
    refine .inr ⟨fun s b hb => ?_, fun s b hb => ?_⟩
    · rw [find_grows hf ht.grows ha (fun b hb => List.mem_append_left _ hb)]; exact hb
    · have hne : seg.pattern ≠ s := by
        intro h3
        rw [← h3, hno] at hb
        cases hb
      rw [findP_insert (n := bareNode _ seg hs) (by rw [hget, if_pos rfl]) hne,
        find_grows hf ht.grows ha (fun b hb => List.mem_append_right _ hb)]
      exact hb
  · rw [h1] at h2
    injection h2 with h2
    subst h2
    exact .inl ⟨rfl, rfl⟩

/-! ### the lists -/

theorem insertP_zero (l : List Nat) (x : Nat) : insertP l 0 x = x :: l := by
  cases l <;> simp [insertP]

theorem insertP_succ (b : Nat) (l : List Nat) (k x : Nat) : insertP (b :: l) (k + 1) x = b :: insertP l k x := by
  unfold insertP
  by_cases h : k = l.length <;> simp [h]

theorem ends_none {h : THeap α} {s : Str} : ∀ {es : List (EndNode α)} {l : List Nat}, RepEnds h es l → findP h s l = none →
    es.findIdx? (fun e => e.seg.pattern == s) = none
  | [], [], _, _ => rfl
  | [], _ :: _, hr, _ => hr.elim
  | _ :: _, [], hr, _ => hr.elim
  | e :: es, b :: l, hr, hn => by
    obtain ⟨⟨p, h1, h2, _⟩, h3⟩ := hr
    rw [findP_eq, List.find?_cons, hasPat_eq h1, h2] at hn
    rw [List.findIdx?_cons]
    cases h4 : e.seg.pattern == s with
    | true => rw [h4] at hn; cases hn
    | false =>
      rw [h4] at hn
      rw [ends_none h3 hn]
      rfl

theorem ends_found {h : THeap α} {s : Str} {x : Nat} (u : Str) : ∀ {es : List (EndNode α)} {l : List Nat}, RepEnds h es l → l.Nodup →
    findP h s l = some x → ∃ i, es.findIdx? (fun e => e.seg.pattern == s) = some i ∧
      RepEnds (setMatch h x u) (es.modify i (fun e => { e with uri := u })) l
  | [], [], _, _, hx => by cases hx
  | [], _ :: _, hr, _, _ => hr.elim
  | _ :: _, [], hr, _, _ => hr.elim
  | e :: es, b :: l, hr, hd, hx => by
    obtain ⟨⟨p, h1, h2, h2b, h2c⟩, h3⟩ := hr
    obtain ⟨hd1, hd2⟩ := List.nodup_cons.1 hd
    rw [findP_eq, List.find?_cons, hasPat_eq h1, h2] at hx
    rw [List.findIdx?_cons]
    cases h4 : e.seg.pattern == s with
    | true =>
      rw [h4] at hx
      injection hx with hx
      subst hx
      refine ⟨0, rfl, ⟨{ p with matchNode := some u }, ?_, h2, h2b, rfl⟩, ?_⟩
      · rw [setMatch_get, if_pos rfl, h1]; rfl
      · exact repEnds_same (fun c hc => by rw [setMatch_get, if_neg (fun hcb : c = b => hd1 (hcb ▸ hc))]) h3
    | false =>
      rw [h4] at hx
      obtain ⟨i, k1, k2⟩ := ends_found u h3 hd2 hx
      have hne : b ≠ x := fun hbx => hd1 (hbx ▸ (findP_mem (h := h) (s := s) hx).1)
      refine ⟨i + 1, by rw [k1]; rfl, ⟨p, ?_, h2, h2b, h2c⟩, k2⟩
      rw [setMatch_get, if_neg hne]
      exact h1

theorem ends_insert {h h1 h' : THeap α} {x : Nat} {e : EndNode α} (hx : RepEnd h' x e) : ∀ {es : List (EndNode α)} {l : List Nat},
    RepEnds h es l → (∀ b ∈ l, h1[b]? = h[b]? ∧ h'[b]? = h[b]?) →
    RepEnds h' (insertOrd (fun e => e.seg.typ) e es) (insertP l (placeP h1 e.seg.typ l) x)
  | [], [], _, _ => ⟨hx, trivial⟩
  | [], _ :: _, hr, _ => hr.elim
  | _ :: _, [], hr, _ => hr.elim
  | y :: es, b :: l, hr, hs => by
    have hr0 := hr
    obtain ⟨⟨p, k1, k2, k3⟩, k4⟩ := hr
    have hb := hs b List.mem_cons_self
    have hrest := fun c hc => hs c (List.mem_cons_of_mem b hc)
    unfold insertOrd placeP
    rw [hb.1, k1]
    simp only [k2]
    by_cases hlt : e.seg.typ.ord < y.seg.typ.ord
    · simp only [if_pos hlt, insertP_zero]
      exact ⟨hx, repEnds_same (fun c hc => (hs c hc).2) hr0⟩
    · simp only [if_neg hlt, insertP_succ]
      exact ⟨⟨p, by rw [hb.2]; exact k1, k2, k3⟩, ends_insert hx k4 hrest⟩

theorem subs_none {h : THeap α} {s : Str} : ∀ {ts : List (Node α)} {l : List Nat}, Reps h ts l → findP h s l = none →
    ts.findIdx? (fun n => n.seg.pattern == s) = none
  | [], [], _, _ => rfl
  | [], _ :: _, hr, _ => hr.elim
  | _ :: _, [], hr, _ => hr.elim
  | t :: ts, b :: l, hr, hn => by
    obtain ⟨h0, h3⟩ := hr
    obtain ⟨p, h1, h2⟩ := rep_seg h0
    rw [findP_eq, List.find?_cons, hasPat_eq h1, h2] at hn
    rw [List.findIdx?_cons]
    cases h4 : t.seg.pattern == s with
    | true => rw [h4] at hn; cases hn
    | false =>
      rw [h4] at hn
      rw [subs_none h3 hn]
      rfl

theorem subs_found {h : THeap α} {s : Str} {x : Nat} : ∀ {ts : List (Node α)} {l : List Nat}, Reps h ts l → l.Nodup →
    findP h s l = some x → ∃ i t, ts.findIdx? (fun n => n.seg.pattern == s) = some i ∧ ts[i]? = some t ∧ Rep h t x ∧
      ∀ (h' : THeap α) (t' : Node α), (∀ b ∈ l, b ≠ x → ∀ t, Rep h t b → Rep h' t b) → Rep h' t' x → Reps h' (ts.set i t') l
  | [], [], _, _, hx => by cases hx
  | [], _ :: _, hr, _, _ => hr.elim
  | _ :: _, [], hr, _, _ => hr.elim
  | t :: ts, b :: l, hr, hd, hx => by
    obtain ⟨h0, h3⟩ := hr
    obtain ⟨p, h1, h2⟩ := rep_seg h0
    obtain ⟨hd1, hd2⟩ := List.nodup_cons.1 hd
    rw [findP_eq, List.find?_cons, hasPat_eq h1, h2] at hx
    rw [List.findIdx?_cons]
    cases h4 : t.seg.pattern == s with
    | true =>
      rw [h4] at hx
      injection hx with hx
      subst hx
      refine ⟨0, t, rfl, rfl, h0, fun h' t' hs ht => ⟨ht, ?_⟩⟩
      have : ∀ (ts : List (Node α)) (l : List Nat), (∀ c ∈ l, ∀ t, Rep h t c → Rep h' t c) → Reps h ts l → Reps h' ts l := by
        intro ts
        induction ts with
        | nil => intro l _ hr; cases l with | nil => trivial | cons _ _ => exact hr
        | cons t ts ih =>
          intro l hl hr
          cases l with
          | nil => exact hr
          | cons c l => exact ⟨hl c List.mem_cons_self t hr.1, ih l (fun d hd => hl d (List.mem_cons_of_mem _ hd)) hr.2⟩
      exact this ts l (fun c hc t => hs c (List.mem_cons_of_mem _ hc) (fun h => hd1 (h ▸ hc)) t) h3
    | false =>
      rw [h4] at hx
      obtain ⟨i, t1, k1, k2, k3, k4⟩ := subs_found h3 hd2 hx
      have hne : b ≠ x := fun hbx => hd1 (hbx ▸ (findP_mem (h := h) (s := s) hx).1)
      refine ⟨i + 1, t1, by rw [k1]; rfl, by simpa using k2, k3, fun h' t' hs ht => ?_⟩
      exact ⟨hs b List.mem_cons_self hne t h0, k4 h' t' (fun c hc => hs c (List.mem_cons_of_mem _ hc)) ht⟩

theorem subs_insert {h h1 h' : THeap α} {x : Nat} {t' : Node α} (hx : Rep h' t' x) : ∀ {ts : List (Node α)} {l : List Nat},
    Reps h ts l → (∀ b ∈ l, h1[b]? = h[b]? ∧ ∀ t, Rep h t b → Rep h' t b) →
    Reps h' (insertOrd (fun n => n.seg.typ) t' ts) (insertP l (placeP h1 t'.seg.typ l) x)
  | [], [], _, _ => ⟨hx, trivial⟩
  | [], _ :: _, hr, _ => hr.elim
  | _ :: _, [], hr, _ => hr.elim
  | y :: ts, b :: l, hr, hs => by
    obtain ⟨k0, k4⟩ := hr
    obtain ⟨p, k1, k2⟩ := rep_seg k0
    have hb := hs b List.mem_cons_self
    have hrest := fun c hc => hs c (List.mem_cons_of_mem b hc)
    unfold insertOrd placeP
    rw [hb.1, k1]
    simp only [k2]
    by_cases hlt : t'.seg.typ.ord < y.seg.typ.ord
    · simp only [if_pos hlt, insertP_zero]
      refine ⟨hx, hb.2 y k0, ?_⟩
      have : ∀ (ts : List (Node α)) (l : List Nat), (∀ c ∈ l, ∀ t, Rep h t c → Rep h' t c) → Reps h ts l → Reps h' ts l := by
        intro ts
        induction ts with
        | nil => intro l _ hr; cases l with | nil => trivial | cons _ _ => exact hr
        | cons t ts ih =>
          intro l hl hr
          cases l with
          | nil => exact hr
          | cons c l => exact ⟨hl c List.mem_cons_self t hr.1, ih l (fun d hd => hl d (List.mem_cons_of_mem _ hd)) hr.2⟩
      exact this ts l (fun c hc => (hrest c hc).2) k4
    · simp only [if_neg hlt, insertP_succ]
      exact ⟨hb.2 y k0, subs_insert hx k4 hrest⟩

end Water
