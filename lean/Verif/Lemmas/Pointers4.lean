import Verif.Lemmas.Pointers3
/-
Matching in memory, static routes, and whole engines.
-/
namespace Water
open Spec
variable {α : Type}

/-- both found nothing, or the same end node -/
def SameEnd (h : THeap α) : Option Nat → Option (EndNode α) → Prop
  | none, none => True
  | some a, some e => RepEnd h a e
  | _, _ => False

/-- same parameters and same end node -/
def SameMatch (h : THeap α) (x : Params × Option Nat) (y : Params × Option (EndNode α)) : Prop := x.1 = y.1 ∧ SameEnd h x.2 y.2

theorem matchEnds_same {rx : Regex} {h : THeap α} {g : Nat} {uri : Str} : ∀ {es : List (EndNode α)} {l : List Nat}, RepEnds h es l →
    ∀ ps, SameMatch h (matchEndsP rx h g uri l ps) (matchEnds rx g uri es ps)
  | [], [], _, _ => ⟨rfl, trivial⟩
  | [], _ :: _, hr, _ => hr.elim
  | _ :: _, [], hr, _ => hr.elim
  | e :: es, b :: l, hr, ps => by
    have hrest := matchEnds_same (rx := rx) (g := g) (uri := uri) hr.2
    have hre := hr.1
    obtain ⟨⟨p, h1, h2, _⟩, _⟩ := hr
    unfold matchEndsP matchEnds
    simp only [h1, h2]
    cases e.seg.typ with
    | static =>
      simp only []
      split
      · exact ⟨rfl, hre⟩
      · exact hrest ps
    | regexp =>
      simp only []
      split
      · exact hrest ps
      · exact ⟨rfl, hre⟩
    | holder => exact ⟨rfl, hre⟩
    | matchAll => exact ⟨rfl, hre⟩

theorem ends_last {h : THeap α} : ∀ {es : List (EndNode α)} {l : List Nat}, RepEnds h es l → SameEnd h l.getLast? es.getLast?
  | [], [], _ => trivial
  | [], _ :: _, hr => hr.elim
  | _ :: _, [], hr => hr.elim
  | [_], [_], hr => hr.1
  | [_], _ :: _ :: _, hr => hr.2.elim
  | _ :: _ :: _, [_], hr => hr.2.elim
  | _ :: e :: es, _ :: b :: l, hr => by
    rw [List.getLast?_cons_cons, List.getLast?_cons_cons]
    exact ends_last hr.2

theorem fallback_same {h : THeap α} {g : Nat} {rest : Str} {es : List (EndNode α)} {l : List Nat} (hr : RepEnds h es l) (ps : Params) :
    SameMatch h (matchFallbackP h g rest l ps) (matchFallback g rest es ps) := by
  have hl := ends_last hr
  unfold matchFallbackP matchFallback
  cases h1 : l.getLast? with
  | none =>
    cases h2 : es.getLast? with
    | none => exact ⟨rfl, trivial⟩
    | some e => rw [h1, h2] at hl; exact hl.elim
  | some a =>
    cases h2 : es.getLast? with
    | none => rw [h1, h2] at hl; exact hl.elim
    | some e =>
      rw [h1, h2] at hl
      have hl0 := hl
      obtain ⟨p, k1, k2, _⟩ := hl
      simp only [k1, k2]
      split
      · exact ⟨rfl, hl0⟩
      · exact ⟨rfl, trivial⟩

theorem matchSubs_same {rx : Regex} {h : THeap α} {next : Nat → Nat → Str → Params → Params × Option Nat} {ends : List (EndNode α)}
    {le : List Nat} (hre : RepEnds h ends le) {segment uri : Str}
    (hn : ∀ t a g ps, Rep h t a → SameMatch h (next a g uri ps) (matchNext rx t g uri ps)) {g : Nat} :
    ∀ {ts : List (Node α)} {l : List Nat}, Reps h ts l →
    ∀ ps, SameMatch h (matchSubsP rx h next le g segment uri l ps) (matchSubs rx ts ends g segment uri ps)
  | [], [], _, ps => by
    unfold matchSubsP matchSubs
    exact fallback_same hre ps
  | [], _ :: _, hr, _ => hr.elim
  | _ :: _, [], hr, _ => hr.elim
  | t :: ts, b :: l, hr, ps => by
    have hrest := matchSubs_same (segment := segment) hre hn (g := g) hr.2
    obtain ⟨p, h1, h2⟩ := rep_seg hr.1
    have hone := fun g ps => hn t b g ps hr.1
    unfold matchSubsP matchSubs
    simp only [h1, h2]
    cases t.seg.typ with
    | static =>
      simp only []
      split
      · have := hone g ps
        rcases hx : next b g uri ps with ⟨ps1, o1⟩
        rcases hy : matchNext rx t g uri ps with ⟨ps2, o2⟩
        rw [hx, hy] at this
        obtain ⟨k1, k2⟩ := this
        simp only at k1 k2
        subst k1
        cases o1 <;> cases o2
        · exact hrest ps1
        · exact k2.elim
        · exact k2.elim
        · exact ⟨rfl, k2⟩
      · exact hrest ps
    | regexp =>
      simp only []
      split
      · exact hrest ps
      · have := hone g (setAll ps t.seg.wildcards ((rx.find t.seg.reg segment).drop 1))
        rcases hx : next b g uri (setAll ps t.seg.wildcards ((rx.find t.seg.reg segment).drop 1)) with ⟨ps1, o1⟩
        rcases hy : matchNext rx t g uri (setAll ps t.seg.wildcards ((rx.find t.seg.reg segment).drop 1)) with ⟨ps2, o2⟩
        rw [hx, hy] at this
        obtain ⟨k1, k2⟩ := this
        simp only at k1 k2
        subst k1
        cases o1 <;> cases o2
        · exact hrest ps1
        · exact k2.elim
        · exact k2.elim
        · exact ⟨rfl, k2⟩
    | holder =>
      simp only []
      have := hone g ps
      rcases hx : next b g uri ps with ⟨ps1, o1⟩
      rcases hy : matchNext rx t g uri ps with ⟨ps2, o2⟩
      rw [hx, hy] at this
      obtain ⟨k1, k2⟩ := this
      simp only at k1 k2
      subst k1
      cases o1 <;> cases o2
      · exact hrest ps1
      · exact k2.elim
      · exact k2.elim
      · exact ⟨rfl, k2⟩
    | matchAll =>
      simp only []
      have := hone (g + 1) ps
      rcases hx : next b (g + 1) uri ps with ⟨ps1, o1⟩
      rcases hy : matchNext rx t (g + 1) uri ps with ⟨ps2, o2⟩
      rw [hx, hy] at this
      obtain ⟨k1, k2⟩ := this
      simp only at k1 k2
      subst k1
      cases o1 <;> cases o2
      · exact hrest ps1
      · exact k2.elim
      · exact k2.elim
      · exact ⟨rfl, k2⟩

theorem matchNext_same {rx : Regex} {h : THeap α} (f : Nat) : ∀ (t : Node α) (a g : Nat) (uri : Str) (ps : Params), uri.length < f →
    Rep h t a → SameMatch h (matchNextP rx h f a g uri ps) (matchNext rx t g uri ps) := by
  induction f with
  | zero => intro t a g uri ps hlt; omega
  | succ f ih =>
    intro t a g uri ps hlt hr
    obtain ⟨seg, subs, ends⟩ := t
    obtain ⟨p, h1, _, h3, h4⟩ := hr
    unfold matchNextP matchNext
    simp only [h1]
    cases hi : indexByte uri slash with
    | none => exact matchEnds_same h4 ps
    | some i =>
      have hil := (indexByte_some hi).1
      refine matchSubs_same h4 (fun t a g ps hr => ih t a g _ ps ?_ hr) h3 ps
      rw [List.length_drop]
      omega

theorem matchUri_same {rx : Regex} {h : THeap α} {t : Node α} {a : Nat} (hr : Rep h t a) (uri : Str) :
    SameMatch h (matchUriP rx h a uri) (matchUri rx (some t) uri) := by
  unfold matchUriP matchUri
  exact matchNext_same _ t a 0 _ _ (by omega) hr

/-! ### walking -/

theorem ends_find {h : THeap α} {s : Str} : ∀ {es : List (EndNode α)} {l : List Nat}, RepEnds h es l →
    SameEnd h (findP h s l) (es.find? (fun e => e.seg.pattern == s))
  | [], [], _ => trivial
  | [], _ :: _, hr => hr.elim
  | _ :: _, [], hr => hr.elim
  | e :: es, b :: l, hr => by
    have hre := hr.1
    have hrest := ends_find (s := s) hr.2
    obtain ⟨⟨p, h1, h2, _⟩, _⟩ := hr
    rw [findP_eq] at hrest ⊢
    rw [List.find?_cons, List.find?_cons, hasPat_eq h1, h2]
    cases e.seg.pattern == s with
    | true => exact hre
    | false => exact hrest

theorem subs_find {h : THeap α} {s : Str} : ∀ {ts : List (Node α)} {l : List Nat}, Reps h ts l →
    (findP h s l = none ∧ ts.find? (fun e => e.seg.pattern == s) = none) ∨
    ∃ c t, findP h s l = some c ∧ ts.find? (fun e => e.seg.pattern == s) = some t ∧ Rep h t c
  | [], [], _ => .inl ⟨rfl, rfl⟩
  | [], _ :: _, hr => hr.elim
  | _ :: _, [], hr => hr.elim
  | t :: ts, b :: l, hr => by
    have hrest := subs_find (s := s) hr.2
    obtain ⟨p, h1, h2⟩ := rep_seg hr.1
    rw [findP_eq] at hrest ⊢
    rw [List.find?_cons, List.find?_cons, hasPat_eq h1, h2]
    cases t.seg.pattern == s with
    | true => exact .inr ⟨b, t, rfl, rfl, hr.1⟩
    | false => exact hrest

theorem walk_same {h : THeap α} {segs : List Str} : ∀ {t : Node α} {a : Nat}, Rep h t a → SameEnd h (walkP h segs a) (endAt segs t) := by
  induction segs with
  | nil => intro t a _; trivial
  | cons s rest ih =>
    intro t a hr
    obtain ⟨seg, subs, ends⟩ := t
    obtain ⟨p, h1, _, h3, h4⟩ := hr
    cases rest with
    | nil =>
      simp only [walkP, endAt, h1]
      exact ends_find h4
    | cons q rest =>
      simp only [walkP, endAt, h1]
      rcases subs_find (s := s) h3 with ⟨k1, k2⟩ | ⟨c, t, k1, k2, k3⟩
      · rw [k1, k2]; trivial
      · rw [k1, k2]
        exact ih k3

theorem walk_above {h : THeap α} (hf : Forest h) {segs : List Str} {a e : Nat} (hw : walkP h segs a = some e) : IsAbove h a e := by
  induction segs generalizing a with
  | nil => cases hw
  | cons s rest ih =>
    cases ha : h[a]? with
    | none => cases rest <;> simp [walkP, ha] at hw
    | some n =>
      cases rest with
      | nil =>
        simp only [walkP, ha] at hw
        exact IsAbove.child hf ha (List.mem_append_right _ (findP_mem hw).1) .refl
      | cons t rest =>
        simp only [walkP, ha] at hw
        cases hb : findP h s n.subNodes with
        | none => rw [hb] at hw; cases hw
        | some b =>
          rw [hb] at hw
          exact IsAbove.child hf ha (List.mem_append_left _ (findP_mem hb).1) (ih hw)

/-! ### static routes -/

/-- the node at `a` is static -/
def StaticNode (h : THeap α) (a : Nat) : Prop := ∃ n : PNode α, h[a]? = some n ∧ n.seg.typ = .static

theorem isStaticP_iff {h : THeap α} (hf : Forest h) (f : Nat) : ∀ a, a + 2 ≤ f → (∃ n : PNode α, h[a]? = some n) →
    (isStaticP h f (some a) = true ↔ ∀ b, IsAbove h b a → StaticNode h b) := by
  induction f with
  | zero => intro a ha; omega
  | succ f ih =>
    intro a hle ⟨n, ha⟩
    simp only [isStaticP, ha]
    constructor
    · intro h1 b hb
      split at h1
      · cases h1
      · rename_i hst
        have hst : n.seg.typ = .static := by simpa using hst
        cases hb with
        | refl => exact ⟨n, ha, hst⟩
        | @up _ q n' h2 h3 h4 =>
          rw [ha] at h2
          injection h2 with h2
          subst h2
          rw [h3] at h1
          have hq := hf.up a n ha q h3
          obtain ⟨x, hx, _⟩ := hf.listed a n q ha h3
          exact (ih q (by omega) ⟨x, hx⟩).1 h1 b h4
    · intro h1
      obtain ⟨n', h2, h3⟩ := h1 a .refl
      rw [ha] at h2
      injection h2 with h2
      subst h2
      rw [if_neg (by simp [h3])]
      cases hp : n.parent with
      | none => cases f with
        | zero => omega
        | succ f => rfl
      | some q =>
        have hq := hf.up a n ha q hp
        obtain ⟨x, hx, _⟩ := hf.listed a n q ha hp
        exact (ih q (by omega) ⟨x, hx⟩).2 (fun b hb => h1 b (.up ha hp hb))

theorem isStaticP_setMatch (h : THeap α) (e : Nat) (u : Str) (f : Nat) (x : Option Nat) :
    isStaticP (setMatch h e u) f x = isStaticP h f x := by
  induction f generalizing x with
  | zero => rfl
  | succ f ih =>
    cases x with
    | none => rfl
    | some a =>
      simp only [isStaticP]
      cases ha : h[a]? with
      | none =>
        have : (setMatch h e u)[a]? = none := by
          rw [setMatch_get, ha]
          split <;> rfl
        rw [this]
      | some n =>
        obtain ⟨n', h1, h2, h3, _⟩ := setMatch_to e u ha
        rw [show (setMatch h e u)[a]? = some n' from h1]
        simp only [h2, h3, ih]

theorem staticPath_iff {h : THeap α} (hf : Forest h) {segs : List Str} : ∀ {t : Node α} {a e : Nat}, Rep h t a →
    walkP h segs a = some e → (staticPath segs t = true ↔ ∀ b, IsAbove h a b → IsAbove h b e → StaticNode h b) := by
  induction segs with
  | nil => intro t a e _ hw; cases hw
  | cons s rest ih =>
    intro t a e hr hw
    obtain ⟨seg, subs, ends⟩ := t
    obtain ⟨p, ha, hseg, h3, h4⟩ := hr
    have hself : StaticNode h a ↔ seg.typ = .static := by
      constructor
      · rintro ⟨n, k1, k2⟩
        rw [ha] at k1
        injection k1 with k1
        subst k1
        rw [← hseg]; exact k2
      · intro k
        exact ⟨p, ha, by rw [hseg]; exact k⟩
    cases rest with
    | nil =>
      simp only [walkP, ha] at hw
      have hse := ends_find (s := s) h4
      rw [hw] at hse
      simp only [staticPath]
      cases hx : ends.find? (fun e => e.seg.pattern == s) with
      | none => rw [hx] at hse; exact hse.elim
      | some x =>
        rw [hx] at hse
        obtain ⟨pe, k1, k2, _⟩ := hse
        have hmem : e ∈ p.subNodes ++ p.endNodes := List.mem_append_right _ (findP_mem hw).1
        have hae : IsAbove h a e := IsAbove.child hf ha hmem .refl
        have hgt := child_gt hf ha hmem
        simp only [Bool.and_eq_true, beq_iff_eq]
        constructor
        · rintro ⟨g1, g2⟩ b hb1 hb2
          cases hb2 with
          | refl => exact ⟨pe, k1, by rw [k2]; exact g2⟩
          | up m1 m2 m3 =>
            obtain ⟨y, y1, y2⟩ := hf.down a p ha e hmem
            rw [y1] at m1
            injection m1 with m1
            subst m1
            rw [y2] at m2
            injection m2 with m2
            subst m2
            have := IsAbove.le hf hb1
            have := IsAbove.le hf m3
            have : a = b := by omega
            subst this
            exact hself.2 g1
        · intro hall
          refine ⟨hself.1 (hall a .refl hae), ?_⟩
          obtain ⟨n, n1, n2⟩ := hall e hae .refl
          rw [k1] at n1
          injection n1 with n1
          subst n1
          rw [← k2]; exact n2
    | cons q rest =>
      simp only [walkP, ha] at hw
      simp only [staticPath]
      rcases subs_find (s := s) h3 with ⟨k1, k2⟩ | ⟨c, t, k1, k2, k3⟩
      · rw [k1] at hw; cases hw
      · rw [k1] at hw
        rw [k2]
        simp only at hw
        have hmem : c ∈ p.subNodes ++ p.endNodes := List.mem_append_left _ (findP_mem k1).1
        have hgt := child_gt hf ha hmem
        have hce := walk_above hf hw
        have hac : IsAbove h a c := IsAbove.child hf ha hmem .refl
        simp only [Bool.and_eq_true, beq_iff_eq]
        rw [ih k3 hw]
        constructor
        · rintro ⟨g1, g2⟩ b hb1 hb2
          rcases IsAbove.total hb2 hce with m | m
          · cases m with
            | refl => exact g2 _ .refl hb2
            | up m1 m2 m3 =>
              obtain ⟨y, y1, y2⟩ := hf.down a p ha c hmem
              rw [y1] at m1
              injection m1 with m1
              subst m1
              rw [y2] at m2
              injection m2 with m2
              subst m2
              have := IsAbove.le hf hb1
              have := IsAbove.le hf m3
              have : a = b := by omega
              subst this
              exact hself.2 g1
          · exact g2 b m hb2
        · intro hall
          exact ⟨hself.1 (hall a .refl (IsAbove.trans hac hce)), fun b hb1 hb2 => hall b (IsAbove.trans hac hb1) hb2⟩

/-- at a root -/
theorem static_same {h : THeap α} (hf : Forest h) {segs : List Str} {t : Node α} {a e : Nat} (hr : Rep h t a) {n : PNode α}
    (ha : h[a]? = some n) (hp : n.parent = none) (hw : walkP h segs a = some e) (f : Nat) (hle : h.length + 1 ≤ f) :
    isStaticP h f (some e) = staticPath segs t := by
  have hae := walk_above hf hw
  have hex : ∃ m : PNode α, h[e]? = some m := by
    cases hae with
    | refl => exact ⟨n, ha⟩
    | up h1 _ _ => exact ⟨_, h1⟩
  have hlt : e < h.length := by
    obtain ⟨m, hm⟩ := hex
    exact lt_of_get hm
  apply Bool.eq_iff_iff.2
  rw [isStaticP_iff hf f e (by omega) hex, staticPath_iff hf hr hw]
  constructor
  · exact fun hall b _ hb => hall b hb
  · intro hall b hb
    rcases IsAbove.total hb hae with m | m
    · cases m with
      | refl => exact hall _ .refl hb
      | up m1 m2 _ =>
        rw [ha] at m1
        injection m1 with m1
        subst m1
        rw [hp] at m2
        cases m2
    · exact hall b m hb

end Water
