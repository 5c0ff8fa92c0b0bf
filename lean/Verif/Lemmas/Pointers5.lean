import Verif.Lemmas.Pointers4
/-
Engines with trees in memory.
-/
namespace Water
open Spec
variable {α : Type}

/-- the root of a tree in memory that is the given tree -/
def SameTree (h : THeap α) : Option Nat → Option (Node α) → Prop
  | none, none => True
  | some a, some t => Rep h t a ∧ ∃ n : PNode α, h[a]? = some n ∧ n.parent = none
  | _, _ => False

/-- the static entry is the end node that the segments lead to -/
def SameStatic (h : THeap α) (root : Option Nat) : Option Nat → Option (List Str) → Prop
  | none, none => True
  | some e, some segs => ∃ r, root = some r ∧ walkP h segs r = some e
  | _, _ => False

structure SameEngine (p : PEngine α) (e : Engine α) : Prop where
  enable : p.enableStatic = e.enableStatic
  noFound : p.noFound = e.noFound
  forest : Forest p.mem
  trees : ∀ i, SameTree p.mem (p.routers i) (e.trees i)
  apart : ∀ i j a, p.routers i = some a → p.routers j = some a → i = j
  statics : ∀ i path, SameStatic p.mem (p.routers i) (p.routersStatic i path) (e.statics i path)
  rooted : ∀ (b : Nat) (n : PNode α), p.mem[b]? = some n → n.parent = none → ∃ i, p.routers i = some b

theorem same_new (st : Bool) (nf : List α) : SameEngine (newEngineP st nf) (newEngine st nf) where
  enable := rfl
  noFound := rfl
  forest := ⟨fun _ _ h => by simp [newEngineP] at h, fun _ _ h => by simp [newEngineP] at h, fun _ _ h => by simp [newEngineP] at h,
    fun _ _ _ h => by simp [newEngineP] at h⟩
  trees := fun _ => trivial
  apart := fun i j a h => by simp [newEngineP] at h
  statics := fun _ _ => trivial
  rooted := fun _ _ h => by simp [newEngineP] at h

/-- a new root -/
theorem append_get {h : THeap α} {x : PNode α} (b : Nat) : (h ++ [x])[b]? = if b = h.length then some x else h[b]? := by
  by_cases h1 : b = h.length
  · subst h1; simp
  · rw [if_neg h1]
    by_cases h2 : b < h.length
    · exact List.getElem?_append_left h2
    · rw [List.getElem?_eq_none (by simp; omega), List.getElem?_eq_none (by omega)]

theorem append_old {h : THeap α} {x n : PNode α} {b : Nat} (hb : h[b]? = some n) : (h ++ [x])[b]? = some n := by
  rw [List.getElem?_append_left (lt_of_get hb)]
  exact hb

theorem root_forest {h : THeap α} (hf : Forest h) {x : PNode α} (hp : x.parent = none) (hl : x.subNodes ++ x.endNodes = []) :
    Forest (h ++ [x]) := by
  constructor
  · intro a n hn q hq
    rw [append_get] at hn
    split at hn
    · injection hn with hn
      subst hn
      rw [hp] at hq
      cases hq
    · exact hf.up a n hn q hq
  · intro a n hn c hc
    rw [append_get] at hn
    split at hn
    · injection hn with hn
      subst hn
      rw [hl] at hc
      cases hc
    · obtain ⟨y, h1, h2⟩ := hf.down a n hn c hc
      exact ⟨y, append_old h1, h2⟩
  · intro a n hn
    rw [append_get] at hn
    split at hn
    · injection hn with hn
      subst hn
      rw [hl]
      exact List.nodup_nil
    · exact hf.once a n hn
  · intro c y a hc hpa
    rw [append_get] at hc
    split at hc
    · injection hc with hc
      subst hc
      rw [hp] at hpa
      cases hpa
    · obtain ⟨n, h1, h2⟩ := hf.listed c y a hc hpa
      exact ⟨n, append_old h1, h2⟩

theorem root_keeps {h : THeap α} (hf : Forest h) (x : PNode α) : Keeps h (h ++ [x]) := by
  refine keeps_of_same hf (fun a n hn => ⟨n, append_old hn, rfl, rfl, rfl⟩) (fun a n n' h1 h2 => .inl ?_)
  rw [append_old h1] at h2
  injection h2 with h2
  subst h2
  exact ⟨rfl, rfl⟩

theorem statics_keeps {h h' : THeap α} (hk : Keeps h h') {r : Option Nat} {x : Option Nat} {y : Option (List Str)}
    (hs : SameStatic h r x y) : SameStatic h' r x y := by
  cases x <;> cases y
  · trivial
  · exact hs.elim
  · exact hs.elim
  · obtain ⟨r, h1, h2⟩ := hs
    exact ⟨r, h1, hk.walk h2⟩

/-- the tree of the method, made if there is none -/
theorem root_same {rx : Regex} {p : PEngine α} {e : Engine α} (hs : SameEngine p e) (i : Nat) :
    ∃ r p1, rootP rx p i = .ok (r, p1) ∧ p1.routers i = some r ∧ Keeps p.mem p1.mem ∧ p1.routersStatic = p.routersStatic ∧
      SameEngine p1 { e with trees := setAt e.trees i (some ((e.trees i).getD newTree)) } := by
  have hti := hs.trees i
  unfold rootP
  cases hr : p.routers i with
  | some r =>
    rw [hr] at hti
    cases ht : e.trees i with
    | none => rw [ht] at hti; exact hti.elim
    | some t =>
      refine ⟨r, p, rfl, hr, Keeps.refl _, rfl, hs.enable, hs.noFound, hs.forest, ?_, hs.apart, hs.statics, hs.rooted⟩
      intro j
      have hj := hs.trees j
      by_cases hji : j = i
      · subst hji
        simpa [setAt, ht] using hj
      · simpa [setAt, hji] using hj
  | none =>
    rw [hr] at hti
    have ht : e.trees i = none := by
      cases ht : e.trees i with
      | none => rfl
      | some t => rw [ht] at hti; exact hti.elim
    have han : analyzePattern rx [] = .ok (newTree (α := α)).seg := rfl
    simp only [newNodeP, han, bind, Except.bind, pure, Except.pure]
    refine ⟨_, _, rfl, by simp [setAt], root_keeps hs.forest _, rfl, hs.enable, hs.noFound, root_forest hs.forest rfl rfl, ?_, ?_, ?_, ?_⟩
    · intro j
      have hj := hs.trees j
      by_cases hji : j = i
      · subst hji
        simp only [setAt, if_true, ht, Option.getD_none]
        have hget := append_get (h := p.mem)
          (x := { parent := none, subNodes := [], endNodes := [], seg := (newTree (α := α)).seg, handlers := [], matchNode := none })
          p.mem.length
        rw [if_pos rfl] at hget
        exact ⟨⟨_, hget, rfl, trivial, trivial⟩, _, hget, rfl⟩
      · simp only [setAt, hji, if_false]
        cases hrj : p.routers j with
        | none =>
          cases htj : e.trees j with
          | none => trivial
          | some t => rw [hrj, htj] at hj; exact hj.elim
        | some r =>
          cases htj : e.trees j with
          | none => rw [hrj, htj] at hj; exact hj.elim
          | some t =>
            rw [hrj, htj] at hj
            obtain ⟨h1, n, h2, h3⟩ := hj
            exact ⟨rep_frame hs.forest h1 (fun b n hb _ => append_old hb), n, append_old h2, h3⟩
    · have hfresh : ∀ j, p.routers j ≠ some p.mem.length := by
        intro j hj
        have := hs.trees j
        rw [hj] at this
        cases htj : e.trees j with
        | none => rw [htj] at this; exact this.elim
        | some t =>
          rw [htj] at this
          obtain ⟨_, n, h2, _⟩ := this
          have := lt_of_get h2
          omega
      intro j k a hj hk
      by_cases hji : j = i <;> by_cases hki : k = i
      · omega
      · simp only [setAt, hji, hki, if_true, if_false] at hj hk
        injection hj with hj
        subst hj
        exact absurd hk (hfresh k)
      · simp only [setAt, hji, hki, if_true, if_false] at hj hk
        injection hk with hk
        subst hk
        exact absurd hj (hfresh j)
      · simp only [setAt, hji, hki, if_false] at hj hk
        exact hs.apart j k a hj hk
    · intro j path
      have hj := statics_keeps (root_keeps hs.forest
        { parent := none, subNodes := [], endNodes := [], seg := (newTree (α := α)).seg, handlers := [], matchNode := none })
        (hs.statics j path)
      by_cases hji : j = i
      · subst hji
        rw [hr] at hj
        simp only [setAt, if_true]
        cases hx : p.routersStatic j path with
        | none =>
          cases hy : e.statics j path with
          | none => trivial
          | some y => rw [hx, hy] at hj; exact hj.elim
        | some x =>
          cases hy : e.statics j path with
          | none => rw [hx, hy] at hj; exact hj.elim
          | some y =>
            rw [hx, hy] at hj
            obtain ⟨r, h1, _⟩ := hj
            cases h1
      · simpa [setAt, hji] using hj
    · intro b n hb hp
      rw [append_get] at hb
      split at hb
      · rename_i hbl
        exact ⟨i, by simp [setAt, hbl]⟩
      · obtain ⟨j, hj⟩ := hs.rooted b n hb hp
        refine ⟨j, ?_⟩
        have hji : j ≠ i := by
          rintro rfl
          rw [hr] at hj
          cases hj
        simpa [setAt, hji] using hj

theorem addSegments_ne (p : Str) : addSegments p ≠ [] := by
  unfold addSegments
  simp only []
  obtain ⟨q, rest, h⟩ := addSegmentsF_cons ((trimSuffix p [slash]).length + 1) (trimSuffix p [slash])
  rw [h]
  simp

/-- different trees share no node -/
theorem roots_apart {h : THeap α} {r r' b : Nat} {n n' : PNode α} (hr : h[r]? = some n) (hp : n.parent = none) (hr' : h[r']? = some n')
    (hp' : n'.parent = none) (h1 : IsAbove h r b) (h2 : IsAbove h r' b) : r = r' := by
  rcases IsAbove.total h1 h2 with m | m
  · cases m with
    | refl => rfl
    | up m1 m2 _ =>
      rw [hr'] at m1
      injection m1 with m1
      subst m1
      rw [hp'] at m2
      cases m2
  · cases m with
    | refl => rfl
    | up m1 m2 _ =>
      rw [hr] at m1
      injection m1 with m1
      subst m1
      rw [hp] at m2
      cases m2

theorem buildStep_same {rx : Regex} {p : PEngine α} {e : Engine α} (hs : SameEngine p e) (v : Route α) :
    match buildStep rx e v with
    | .error x => buildStepP rx p v = .error x
    | .ok e' => ∃ p', buildStepP rx p v = .ok p' ∧ SameEngine p' e' := by
  unfold buildStep buildStepP
  cases hm : methodIndex v.method with
  | none => rfl
  | some i =>
    obtain ⟨r, p1, h1, h2, h3, h4, h5⟩ := root_same (rx := rx) hs i
    have hti := h5.trees i
    simp only [setAt, if_true] at hti
    rw [h2] at hti
    obtain ⟨hrep, nr, hnr, hnp⟩ := hti
    simp only [h1, bind, Except.bind, addP_segs, Node.add]
    have hadd := added_spec (rx := rx) (hs := v.handlers) (u := v.uri) (addSegments_ne v.variant) h5.forest hrep
    cases hok : addSegs rx v.handlers v.uri (addSegments v.variant) ((e.trees i).getD newTree) with
    | error x =>
      rw [hok] at hadd
      simp only [hadd]
    | ok t' =>
      rw [hok] at hadd
      obtain ⟨en, h', g1, g2⟩ := hadd
      simp only [g1, pure, Except.pure]
      obtain ⟨nr', k1, k2, _⟩ := g2.keeps r nr hnr
      have hstat : isStaticP h' (h'.length + 1) (some en) = staticPath (addSegments v.variant) t' := by
        rw [← isStaticP_setMatch h' en v.uri]
        exact static_same g2.forest g2.rep k1 (k2.trans hnp) g2.walk _ (by simp [setMatch])
      have htrees : ∀ j, SameTree (setMatch h' en v.uri) (p1.routers j) (setAt e.trees i (some t') j) := by
        intro j
        have hj := h5.trees j
        by_cases hji : j = i
        · subst hji
          rw [h2]
          simp only [setAt, if_true]
          exact ⟨g2.rep, nr', k1, k2.trans hnp⟩
        · simp only [setAt, hji, if_false] at hj ⊢
          cases hrj : p1.routers j with
          | none =>
            cases htj : e.trees j with
            | none => trivial
            | some t => rw [hrj, htj] at hj; exact hj.elim
          | some r' =>
            cases htj : e.trees j with
            | none => rw [hrj, htj] at hj; exact hj.elim
            | some t =>
              rw [hrj, htj] at hj
              obtain ⟨m1, n, m2, m3⟩ := hj
              have hap : ∀ b, IsAbove p1.mem r' b → ¬ IsAbove p1.mem r b := by
                intro b hb hb'
                have := roots_apart m2 m3 hnr hnp hb hb'
                subst this
                exact hji (h5.apart j i r' hrj h2)
              exact ⟨rep_frame h5.forest m1 (fun b m hb hab => g2.frame b m hb (hap b hab)), n, g2.frame r' n m2 (hap r' .refl), m3⟩
      have hstatics : ∀ j path, SameStatic (setMatch h' en v.uri) (p1.routers j) (p1.routersStatic j path) (e.statics j path) :=
        fun j path => statics_keeps g2.keeps (h5.statics j path)
      have hroot : ∀ (b : Nat) (n : PNode α), (setMatch h' en v.uri)[b]? = some n → n.parent = none → ∃ i, p1.routers i = some b := by
        intro b n hb hp
        obtain ⟨m0, q1⟩ := g2.rooted b n hb hp
        obtain ⟨m1, q2, q3, _⟩ := g2.keeps b m0 q1
        rw [hb] at q2
        injection q2 with q2
        rw [q2, q3] at hp
        exact h5.rooted b m0 q1 hp
      have hen : p1.enableStatic = e.enableStatic := h5.enable
      rw [hen, hstat]
      cases hc : (e.enableStatic && staticPath (addSegments v.variant) t') with
      | false =>
        simp only [Bool.false_eq_true, if_false]
        exact ⟨_, rfl, rfl, h5.noFound, g2.forest, htrees, h5.apart, hstatics, hroot⟩
      | true =>
        simp only [if_true]
        refine ⟨_, rfl, rfl, h5.noFound, g2.forest, htrees, h5.apart, ?_, hroot⟩
        intro j path
        have hj := hstatics j path
        by_cases hji : j = i
        · subst hji
          simp only [setAt, if_true, Map.set]
          by_cases hpv : path = v.variant
          · simp only [hpv, if_true]
            exact ⟨r, h2, g2.walk⟩
          · simp only [hpv, if_false]
            exact hj
        · simp only [setAt, hji, if_false]
          exact hj

theorem buildTree_same {rx : Regex} (vs : List (Route α)) : ∀ {p : PEngine α} {e : Engine α} (_ : SameEngine p e),
    match buildTree rx e vs with
    | .error x => buildTreeP rx p vs = .error x
    | .ok e' => ∃ p', buildTreeP rx p vs = .ok p' ∧ SameEngine p' e' := by
  induction vs with
  | nil => intro p e hs; exact ⟨p, rfl, hs⟩
  | cons v vs ih =>
    intro p e hs
    have h1 := buildStep_same (rx := rx) hs v
    unfold buildTree buildTreeP
    cases hb : buildStep rx e v with
    | error x =>
      rw [hb] at h1
      simp only [h1, bind, Except.bind]
    | ok e1 =>
      rw [hb] at h1
      obtain ⟨p1, g1, g2⟩ := h1
      simp only [g1, bind, Except.bind]
      exact ih g2

theorem mkEngine_same (rx : Regex) (st : Bool) (nf : List α) (rs : List (Route α)) :
    match mkEngine rx st nf rs with
    | .error x => mkEngineP rx st nf rs = .error x
    | .ok e => ∃ p, mkEngineP rx st nf rs = .ok p ∧ SameEngine p e := by
  unfold mkEngine mkEngineP
  cases hc : checkRoutes rs with
  | error x => rfl
  | ok rs' =>
    simp only [bind, Except.bind]
    exact buildTree_same rs' (same_new st nf)

/-- lookup -/
theorem lookup_same {rx : Regex} {p : PEngine α} {e : Engine α} (hs : SameEngine p e) (i : Nat) (path : Str) :
    (lookupP rx p i path).2 = (lookup rx e i path).2 ∧ SameEnd p.mem (lookupP rx p i path).1 (lookup rx e i path).1 := by
  unfold lookupP lookup
  have hst := hs.statics i path
  have htr := hs.trees i
  simp only [hs.enable]
  have hmatch : ((match p.routers i with
        | none => (none, some none)
        | some t => let (ps, n) := matchUriP rx p.mem t path; (n, some (some ps))) : Option Nat × Option (Option Params)).2 =
      ((match e.trees i with
        | none => (none, some none)
        | some t => let (ps, n) := matchUri rx (some t) path; (n, some (some ps))) : Option (EndNode α) × Option (Option Params)).2 ∧
      SameEnd p.mem ((match p.routers i with
        | none => (none, some none)
        | some t => let (ps, n) := matchUriP rx p.mem t path; (n, some (some ps))) : Option Nat × Option (Option Params)).1
      ((match e.trees i with
        | none => (none, some none)
        | some t => let (ps, n) := matchUri rx (some t) path; (n, some (some ps))) : Option (EndNode α) × Option (Option Params)).1 := by
    cases hr : p.routers i with
    | none =>
      cases ht : e.trees i with
      | none => exact ⟨rfl, trivial⟩
      | some t => rw [hr, ht] at htr; exact htr.elim
    | some r =>
      cases ht : e.trees i with
      | none => rw [hr, ht] at htr; exact htr.elim
      | some t =>
        rw [hr, ht] at htr
        have := matchUri_same (rx := rx) htr.1 path
        exact ⟨congrArg (fun x => some (some x)) this.1, this.2⟩
  cases he : e.enableStatic with
  | false =>
    simp only [Bool.false_eq_true, if_false]
    exact hmatch
  | true =>
    simp only [if_true]
    cases hx : p.routersStatic i path with
    | none =>
      have hy : e.statics i path = none := by
        cases hy : e.statics i path with
        | none => rfl
        | some y => rw [hx, hy] at hst; exact hst.elim
      rw [hy]
      exact hmatch
    | some x =>
      cases hy : e.statics i path with
      | none => rw [hx, hy] at hst; exact hst.elim
      | some segs =>
        rw [hx, hy] at hst
        obtain ⟨r, h1, h2⟩ := hst
        rw [h1] at htr
        cases ht : e.trees i with
        | none => rw [ht] at htr; exact htr.elim
        | some t =>
          rw [ht] at htr
          have hse := walk_same (segs := segs) htr.1
          rw [h2] at hse
          simp only []
          cases hea : endAt segs t with
          | none => rw [hea] at hse; exact hse.elim
          | some en =>
            rw [hea] at hse
            exact ⟨rfl, hse⟩

theorem read_same {p : PEngine α} {x : Option Nat} {y : Option (EndNode α)} (hs : SameEnd p.mem x y) : x.bind p.read = y := by
  cases x with
  | none => cases y with | none => rfl | some e => exact hs.elim
  | some a =>
    cases y with
    | none => exact hs.elim
    | some e =>
      obtain ⟨n, h1, h2, h3, h4⟩ := hs
      show p.read a = some e
      unfold PEngine.read
      rw [h1]
      simp only [h2, h3, h4, Option.getD_some]

/-! ### what is found is in the tree -/

theorem matchEndsP_mem {rx : Regex} {h : THeap α} {g : Nat} {uri : Str} {l : List Nat} {ps : Params} {a : Nat}
    (hm : (matchEndsP rx h g uri l ps).2 = some a) : a ∈ l := by
  induction l generalizing ps with
  | nil => cases hm
  | cons b l ih =>
    unfold matchEndsP at hm
    simp only [] at hm
    have hself : ∀ {q : Params}, ((q, some b) : Params × Option Nat).2 = some a → a ∈ b :: l := by
      intro q hq
      injection hq with hq
      exact hq ▸ List.mem_cons_self
    repeat' split at hm
    all_goals first
      | exact List.mem_cons_of_mem _ (ih hm)
      | exact hself hm

theorem matchFallbackP_mem {h : THeap α} {g : Nat} {rest : Str} {l : List Nat} {ps : Params} {a : Nat}
    (hm : (matchFallbackP h g rest l ps).2 = some a) : a ∈ l := by
  unfold matchFallbackP at hm
  split at hm
  · cases hm
  · rename_i b hb
    split at hm
    · cases hm
    · split at hm
      · injection hm with hm
        exact hm ▸ List.mem_of_getLast? hb
      · cases hm

theorem matchSubsP_mem {rx : Regex} {h : THeap α} {next : Nat → Nat → Str → Params → Params × Option Nat} {P : Nat → Prop}
    {ends : List Nat} {g : Nat} {segment uri : Str} {l : List Nat} (hn : ∀ b ∈ l, ∀ g ps a, (next b g uri ps).2 = some a → P a)
    (he : ∀ b ∈ ends, P b) {ps : Params} {a : Nat} (hm : (matchSubsP rx h next ends g segment uri l ps).2 = some a) : P a := by
  induction l generalizing ps with
  | nil => exact he a (matchFallbackP_mem hm)
  | cons b l ih =>
    have ih := fun ps hm => ih (fun c hc => hn c (List.mem_cons_of_mem _ hc)) (ps := ps) hm
    have hb := hn b List.mem_cons_self
    have hone : ∀ {g ps q x}, next b g uri ps = (q, some x) → ∀ {r : Params}, ((r, some x) : Params × Option Nat).2 = some a → P a := by
      intro g ps q x hx r hr
      injection hr with hr
      exact hb g ps a (by rw [hx, ← hr])
    unfold matchSubsP at hm
    simp only [] at hm
    repeat' split at hm
    all_goals first
      | exact ih _ hm
      | exact hone (by assumption) hm

theorem matchNextP_above {rx : Regex} {h : THeap α} (hf : Forest h) (f : Nat) : ∀ (b g : Nat) (uri : Str) (ps : Params) (a : Nat),
    (matchNextP rx h f b g uri ps).2 = some a → IsAbove h b a := by
  induction f with
  | zero => intro b g uri ps a hm; cases hm
  | succ f ih =>
    intro b g uri ps a hm
    unfold matchNextP at hm
    split at hm
    · cases hm
    · rename_i n hn
      split at hm
      · exact IsAbove.child hf hn (List.mem_append_right _ (matchEndsP_mem hm)) .refl
      · exact matchSubsP_mem (P := fun a => IsAbove h b a)
          (fun c hc g ps a ha => IsAbove.child hf hn (List.mem_append_left _ hc) (ih c g _ ps a ha))
          (fun c hc => IsAbove.child hf hn (List.mem_append_right _ hc) .refl) hm

theorem lookupP_above {rx : Regex} {p : PEngine α} {e : Engine α} (hs : SameEngine p e) {i : Nat} {path : Str} {a : Nat}
    (ha : (lookupP rx p i path).1 = some a) : ∃ r, p.routers i = some r ∧ IsAbove p.mem r a := by
  unfold lookupP at ha
  simp only [] at ha
  split at ha
  · rename_i x hx
    injection ha with ha
    subst ha
    split at hx
    · have := hs.statics i path
      rw [hx] at this
      cases hy : e.statics i path with
      | none => rw [hy] at this; exact this.elim
      | some segs =>
        rw [hy] at this
        obtain ⟨r, h1, h2⟩ := this
        exact ⟨r, h1, walk_above hs.forest h2⟩
    · cases hx
  · split at ha
    · cases ha
    · rename_i r hr
      exact ⟨r, hr, matchNextP_above hs.forest _ r 0 _ _ a ha⟩

/-- every node is below a node without a parent -/
theorem has_root {h : THeap α} (hf : Forest h) (k : Nat) : ∀ (b : Nat) (n : PNode α), b < k → h[b]? = some n →
    ∃ (r : Nat) (m : PNode α), h[r]? = some m ∧ m.parent = none ∧ IsAbove h r b := by
  induction k with
  | zero => intro b n hb; omega
  | succ k ih =>
    intro b n hb hn
    cases hp : n.parent with
    | none => exact ⟨b, n, hn, hp, .refl⟩
    | some q =>
      have hq := hf.up b n hn q hp
      obtain ⟨x, hx, _⟩ := hf.listed b n q hn hp
      obtain ⟨r, m, h1, h2, h3⟩ := ih q x (by omega) hx
      exact ⟨r, m, h1, h2, .up hn hp h3⟩

end Water
