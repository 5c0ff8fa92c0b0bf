import Verif.Lemmas.RegexpRead
import Verif.Props.Link
import Verif.Lemmas.Accept
/-
C127: a segment with an expression accepts exactly the segments that the expression describes.
-/
namespace Water
open Spec Demo
variable {α : Type}

/-! The segment -/

theorem linkName_more {x : Str} (h : LinkName x) : comma ∉ x ∧ lparen ∉ x ∧ rparen ∉ x := by
  have key : ∀ c : UInt8, c ∈ smallLetters ++ capitalLetters ++ decimals ++ b!"_-" → c ≠ comma ∧ c ≠ lparen ∧ c ≠ rparen := by
    refine all_bytes ?_
    decide +kernel
  exact ⟨fun hm => (key _ (h.2.2 _ hm)).1 rfl, fun hm => (key _ (h.2.2 _ hm)).2.1 rfl, fun hm => (key _ (h.2.2 _ hm)).2.2 rfl⟩

theorem mem_joinComma {c : UInt8} {l : List Str} (h : c ∈ join [comma] l) : c = comma ∨ ∃ x ∈ l, c ∈ x := by
  induction l with
  | nil => cases h
  | cons a l ih =>
    cases l with
    | nil => exact .inr ⟨a, List.mem_cons_self .., h⟩
    | cons b l =>
      rw [join_cons_ne (by simp)] at h
      simp only [List.mem_append, List.mem_singleton] at h
      rcases h with (h | h) | h
      · exact .inr ⟨a, List.mem_cons_self .., h⟩
      · exact .inl h
      · rcases ih h with h | ⟨x, hx, h⟩
        · exact .inl h
        · exact .inr ⟨x, List.mem_cons_of_mem _ hx, h⟩

theorem names_bytes {names : List Str} (h : ∀ x ∈ names, LinkName x) : ∀ c ∈ join [comma] names,
    c ≠ slash ∧ c ≠ lt ∧ c ≠ gt ∧ c ≠ colon ∧ c ≠ tilde ∧ c ≠ star ∧ NonSpace c ∧ c ≠ lparen ∧ c ≠ rparen := by
  intro c hc
  rcases mem_joinComma hc with rfl | ⟨x, hx, hc⟩
  · unfold NonSpace; decide
  · have h1 := linkName_byte (h x hx) c hc
    obtain ⟨_, h2, h3⟩ := linkName_more (h x hx)
    exact ⟨h1.1, h1.2.1, h1.2.2.1, h1.2.2.2.1, h1.2.2.2.2.1, h1.2.2.2.2.2.1, h1.2.2.2.2.2.2, fun e => h2 (e ▸ hc), fun e => h3 (e ▸ hc)⟩

theorem typed_nonSpace : ∀ c : UInt8, typedByte c = true → c ≠ 32 → NonSpace c := by
  refine all_bytes ?_
  unfold NonSpace
  decide +kernel

theorem join_names_ne {names : List Str} (hne : names ≠ []) (h : ∀ x ∈ names, LinkName x) : join [comma] names ≠ [] := by
  cases names with
  | nil => exact absurd rfl hne
  | cons a l =>
    cases l with
    | nil => exact (h a (List.mem_cons_self ..)).1
    | cons b l => rw [join_cons_ne (by simp)]; simp

theorem takeWhile_upto {p : UInt8 → Bool} {a b : Str} {c : UInt8} (h : ∀ x ∈ a, p x = true) (hc : p c = false) :
    (a ++ c :: b).takeWhile p = a ∧ (a ++ c :: b).dropWhile p = c :: b := by
  induction a with
  | nil => simp [hc]
  | cons x a ih =>
    have hx := h x (List.mem_cons_self ..)
    obtain ⟨h1, h2⟩ := ih (fun y hy => h y (List.mem_cons_of_mem _ hy))
    simp [hx, h1, h2]

/-- a blank in front and one behind do not matter -/
theorem trim_blanks {a b u : Str} (ha : a = [] ∨ a = [32]) (hb : b = [] ∨ b = [32]) (h1 : ∀ c, u.head? = some c → NonSpace c)
    (h2 : ∀ c, u.getLast? = some c → NonSpace c) : trimSpace (a ++ u ++ b) = u := by
  have h0 := trimSpace_trimmed u
  rw [trimSpace_ends h1 h2] at h0
  obtain ⟨_, _, _, _, _, hn⟩ := h0
  have hbl : ∀ {x : Str}, x = [] ∨ x = [32] → Blanks x := by
    rintro x (rfl | rfl)
    · exact .nil
    · exact .cons (e := [32]) (s := []) (by decide) .nil
  exact (trimmed_unique ⟨a, b, hbl ha, hbl hb, rfl, hn⟩).symm

/-- what the router reads in a segment with an expression -/
theorem reSeg_read {names : List Str} {r : Re} (hs : ReSegment names r) (hr : r.ok = true) :
    kind (reSeg names r) = .regexp ∧ regexText (reSeg names r) = r.text ∧ regexNames (reSeg names r) = names := by
  have hb := names_bytes hs.name
  have hne := join_names_ne hs.some_name hs.name
  have e1 : reSeg names r = lt :: (join [comma] names ++ [32]) ++ tilde :: (32 :: r.text ++ [gt]) := by
    unfold reSeg
    simp [lt, tilde, comma, gt]
  have hcolon : colon ∉ reSeg names r := by
    rw [e1]
    simp only [List.mem_append, List.mem_cons, List.mem_singleton, not_or, List.not_mem_nil]
    refine ⟨⟨by decide, fun h => (hb _ h).2.2.2.1 rfl, by decide, by decide⟩, by decide, ⟨by decide, fun h => (hs.text _ h).2.2 rfl⟩, by decide, by decide⟩
  have htilde : tilde ∈ reSeg names r := by rw [e1]; simp
  have hlt : lt ∈ reSeg names r := by rw [e1]; simp
  have hname : nameText (reSeg names r) = join [comma] names := by
    unfold nameText
    rw [if_neg hcolon, if_pos htilde, e1]
    have : (lt :: (join [comma] names ++ [32]) ++ tilde :: (32 :: r.text ++ [gt])).drop 1 =
        (join [comma] names ++ [32]) ++ tilde :: (32 :: r.text ++ [gt]) := rfl
    rw [this, (takeWhile_upto (p := (· != tilde)) (fun x hx => ?_) (by decide)).1]
    · exact trim_blanks (a := []) (b := [32]) (.inl rfl) (.inr rfl) (fun c hc => (hb c (List.mem_of_mem_head? hc)).2.2.2.2.2.2.1)
        (fun c hc => (hb c (List.mem_of_mem_getLast? hc)).2.2.2.2.2.2.1)
    · simp only [List.mem_append, List.mem_singleton] at hx
      rcases hx with hx | rfl
      · simpa using (hb x hx).2.2.2.2.1
      · decide
  refine ⟨?_, ?_, ?_⟩
  · unfold kind
    rw [if_neg (by rw [e1]; simp [lt, star]), if_neg (by simpa using hlt), hname, if_neg, if_pos htilde]
    intro h
    exact (hb _ (List.mem_of_mem_head? h)).2.2.2.2.2.1 rfl
  · unfold regexText
    have e2 : reSeg names r = (lt :: (join [comma] names ++ [32]) ++ tilde :: (32 :: r.text)) ++ gt :: [] := by
      rw [e1]; simp
    rw [e2, (takeWhile_upto (p := (· != gt)) (fun x hx => ?_) (by decide)).1]
    · rw [(takeWhile_upto (p := (· != tilde)) (fun x hx => ?_) (by decide)).2]
      · show trimSpace (32 :: r.text) = r.text
        have := trim_blanks (a := [32]) (b := []) (u := r.text) (.inr rfl) (.inl rfl)
          (fun c hc => typed_nonSpace c (typed_text hr c (List.mem_of_mem_head? hc)) (fun e => hs.front (e ▸ hc)))
          (fun c hc => typed_nonSpace c (typed_text hr c (List.mem_of_mem_getLast? hc)) (fun e => hs.back (e ▸ hc)))
        simpa using this
      · simp only [List.mem_cons, List.mem_append, List.not_mem_nil, or_false] at hx
        rcases hx with rfl | hx | rfl
        · decide
        · simpa using (hb x hx).2.2.2.2.1
        · decide
    · simp only [List.mem_cons, List.mem_append, List.not_mem_nil, or_false] at hx
      rcases hx with (rfl | hx | rfl) | rfl | rfl | hx
      · decide
      · simpa using (hb x hx).2.2.1
      · decide
      · decide
      · decide
      · simpa using (hs.text x hx).1
  · unfold regexNames
    rw [hname, splitB_join hs.some_name (fun x hx => (linkName_more (hs.name x hx)).1)]
    have : names.map trimSpace = names.map id := List.map_congr_left (fun x hx => linkName_trim (hs.name x hx))
    rw [this, List.map_id]

/-- C127, as far as it holds: a segment with an expression accepts what the expression describes a part of, if it has as many groups as there
are names, and nothing otherwise. What is missing: the whole segment should be described, and an expression need not have groups. -/
theorem C127_accepts_partial {rx : Regex} {names : List Str} {r : Re} (hs : ReSegment names r) (hd : Does rx r) (s : Str) :
    acceptsSeg rx (reSeg names r) s ↔ r.groups = names.length ∧ DescribesPart r s := by
  obtain ⟨h1, h2, h3⟩ := reSeg_read hs hd.ok
  unfold acceptsSeg
  rw [h1, h2, h3]
  dsimp only
  rw [hd.find]
  rcases find_length hd.ok s with ⟨h4, h5⟩ | ⟨h4, h5⟩
  · rw [h4]
    constructor
    · exact fun h => ⟨by omega, h5⟩
    · exact fun h => by omega
  · rw [h4]
    constructor
    · intro h; simp at h
    · exact fun h => absurd h.2 h5

/-- C127: such a segment can be registered exactly if it has no parenthesis at all, or if both kinds of parentheses are as many as the names;
parentheses count also where they make no group. -/
theorem C127_built {rx : Regex} {names : List Str} {r : Re} (hs : ReSegment names r) (hd : Does rx r) :
    WellFormed rx (reSeg names r) ↔
      (r.groups + falseParens lparen r = 0 ∧ r.groups + falseParens rparen r = 0) ∨
      (r.groups + falseParens lparen r = names.length ∧ r.groups + falseParens rparen r = names.length) := by
  obtain ⟨h1, h2, h3⟩ := reSeg_read hs hd.ok
  have hb := names_bytes hs.name
  obtain ⟨c1, c2⟩ := count_text r
  have hhead : (reSeg names r).head? = some lt := rfl
  have hlast : (reSeg names r).getLast? = some gt := List.getLast?_concat ..
  have htrim : trimSpace (reSeg names r) = reSeg names r := by
    refine trimSpace_ends (fun c hc => ?_) (fun c hc => ?_)
    · rw [hhead] at hc; cases hc; unfold NonSpace; decide
    · rw [hlast] at hc; cases hc; unfold NonSpace; decide
  have htil : tilde ∈ (reSeg names r).takeWhile (· != gt) := by
    have e2 : reSeg names r = (lt :: (join [comma] names ++ [32]) ++ tilde :: (32 :: r.text)) ++ gt :: [] := by
      unfold reSeg; simp [lt, tilde, comma, gt]
    rw [e2, (takeWhile_upto (p := (· != gt)) (fun x hx => ?_) (by decide)).1]
    · simp
    · simp only [List.mem_cons, List.mem_append, List.not_mem_nil, or_false] at hx
      rcases hx with (rfl | hx | rfl) | rfl | rfl | hx
      · decide
      · simpa using (hb x hx).2.2.1
      · decide
      · decide
      · decide
      · simpa using (hs.text x hx).1
  have hmem : ∀ b : UInt8, b = lparen ∨ b = rparen → (b ∈ reSeg names r ↔ b ∈ r.text) := by
    intro b hb'
    unfold reSeg
    simp only [List.mem_append, List.mem_singleton]
    constructor
    · rintro ((((h | h) | h) | h) | h)
      · rcases hb' with rfl | rfl <;> exact absurd h (by decide)
      · rcases hb' with rfl | rfl
        · exact absurd rfl (hb _ h).2.2.2.2.2.2.2.1
        · exact absurd rfl (hb _ h).2.2.2.2.2.2.2.2
      · rcases hb' with rfl | rfl <;> exact absurd h (by decide)
      · exact h
      · rcases hb' with rfl | rfl <;> exact absurd h (by decide)
    · exact fun h => .inl (.inr h)
  unfold WellFormed
  have m1 : lparen ∈ r.text ↔ 0 < r.groups + falseParens lparen r := by rw [← c1]; exact List.count_pos_iff.symm
  have m2 : rparen ∈ r.text ↔ 0 < r.groups + falseParens rparen r := by rw [← c2]; exact List.count_pos_iff.symm
  rw [h1, h2, h3, hmem _ (.inl rfl), hmem _ (.inr rfl), m1, m2, c1, c2]
  constructor
  · rintro ⟨_, h | h | ⟨_, _, h⟩⟩
    · rw [hhead] at h; cases h
    · exact absurd (List.mem_of_mem_head? hhead) h.1
    · have := (h rfl).2.1
      omega
  · intro h
    refine ⟨htrim, .inr (.inr ⟨hhead, hlast, fun _ => ⟨htil, fun hp => ?_, hd.compiles⟩⟩)⟩
    omega

/-- C127: an expression without groups, or one with a parenthesis that makes no group, is dead: the segment can be registered, and accepts
nothing. -/
theorem C127_dead {rx : Regex} {names : List Str} {r : Re} (hs : ReSegment names r) (hd : Does rx r) (hw : WellFormed rx (reSeg names r))
    (h : r.groups = 0 ∨ falseParens lparen r ≠ 0 ∨ falseParens rparen r ≠ 0) (s : Str) : ¬ acceptsSeg rx (reSeg names r) s := by
  rw [C127_accepts_partial hs hd]
  rintro ⟨h1, _⟩
  have h2 := (C127_built hs hd).1 hw
  have h3 : names.length ≠ 0 := fun h => hs.some_name (List.length_eq_zero_iff.1 h)
  omega

/-- C127: all others are alive, as far as the number of groups goes: what is registered and is not dead has a group for every name. -/
theorem C127_alive {rx : Regex} {names : List Str} {r : Re} (hs : ReSegment names r) (hd : Does rx r) (hw : WellFormed rx (reSeg names r))
    (h1 : r.groups ≠ 0) (h2 : falseParens lparen r = 0) (s : Str) : acceptsSeg rx (reSeg names r) s ↔ DescribesPart r s := by
  rw [C127_accepts_partial hs hd]
  have := (C127_built hs hd).1 hw
  exact ⟨fun h => h.2, fun h => ⟨by omega, h⟩⟩

/-! The route -/

theorem accepts_lits {rx : Regex} {lits : List Str} (hl : ∀ s ∈ lits, LinkText s) {p : Str} (hk : kind p ≠ .star) {segs : List Str} :
    Accepts rx (lits ++ [p]) segs ↔ ∃ s, segs = lits ++ [s] ∧ acceptsSeg rx p s := by
  induction lits generalizing segs with
  | nil =>
    constructor
    · intro h
      cases h with
      | last h => exact ⟨_, rfl, h⟩
      | rest h => exact absurd h hk
    · rintro ⟨s, rfl, h⟩; exact .last h
  | cons l lits ih =>
    have hlk : kind l = .literal := by
      obtain ⟨_, _, h0, _, h2⟩ := hl l (List.mem_cons_self ..)
      unfold kind
      rw [if_neg h2, if_pos h0]
    have ih' := fun segs => ih (fun s hs => hl s (List.mem_cons_of_mem _ hs)) (segs := segs)
    obtain ⟨q, ps, hq⟩ : ∃ q ps, lits ++ [p] = q :: ps := by cases lits <;> exact ⟨_, _, rfl⟩
    rw [List.cons_append]
    constructor
    · intro h
      rw [hq] at h
      cases h with
      | cons h1 h2 =>
        rw [← hq, ih'] at h2
        obtain ⟨s, h3, h4⟩ := h2
        unfold acceptsSeg at h1
        rw [hlk] at h1
        exact ⟨s, by rw [h3, h1]; rfl, h4⟩
    · rintro ⟨s, rfl, h⟩
      have h2 := (ih' (lits ++ [s])).2 ⟨s, rfl, h⟩
      obtain ⟨t, ss, ht⟩ : ∃ t ss, lits ++ [s] = t :: ss := by cases lits <;> exact ⟨_, _, rfl⟩
      rw [List.cons_append, ht, hq]
      rw [ht, hq] at h2
      exact .cons (by unfold acceptsSeg; rw [hlk]) h2

theorem bindings_lits {rx : Regex} {lits : List Str} (hl : ∀ s ∈ lits, LinkText s) {p s : Str} (hk : kind p = .regexp) :
    bindings rx 0 (lits ++ [p]) (lits ++ [s]) = (regexNames p).zip ((rx.find (regexText p) s).drop 1) := by
  induction lits with
  | nil =>
    show bindSeg rx 0 p s _ _ = _
    unfold bindSeg
    rw [hk]
  | cons l lits ih =>
    have hlk : kind l = .literal := by
      obtain ⟨_, _, h0, _, h2⟩ := hl l (List.mem_cons_self ..)
      unfold kind
      rw [if_neg h2, if_pos h0]
    rw [← ih (fun s hs => hl s (List.mem_cons_of_mem _ hs))]
    obtain ⟨q, ps, hq⟩ : ∃ q ps, lits ++ [p] = q :: ps := by cases lits <;> exact ⟨_, _, rfl⟩
    rw [List.cons_append, List.cons_append, hq]
    show bindSeg rx 0 l l _ _ ++ bindings rx (if kind l = .star then 0 + 1 else 0) (q :: ps) (lits ++ [s]) = _
    rw [hlk, if_neg (by decide)]
    unfold bindSeg
    rw [hlk]
    rfl

theorem reRoute_segs {lits names : List Str} {r : Re} (hl : ∀ s ∈ lits, LinkText s) (hs : ReSegment names r) :
    routeSegs (reRoute lits names r) = lits ++ [reSeg names r] := by
  have hall : ∀ s ∈ lits ++ [reSeg names r], s ≠ [] ∧ slash ∉ s := by
    intro s hm
    rcases List.mem_append.1 hm with hm | hm
    · exact ⟨(hl s hm).1, (hl s hm).2.1⟩
    · rw [List.mem_singleton] at hm
      subst hm
      refine ⟨by unfold reSeg; simp, ?_⟩
      unfold reSeg
      simp only [List.mem_append, List.mem_singleton, not_or]
      exact ⟨⟨⟨⟨by decide, fun h => (names_bytes hs.name _ h).1 rfl⟩, by decide⟩, fun h => (hs.text _ h).2.1 rfl⟩, by decide⟩
  obtain ⟨hp, he⟩ := plain_join (by simp) hall
  show routeSegs (slash :: join [slash] (lits ++ [reSeg names r])) = _
  rw [routeSegs_plain hp, he, List.map_append]
  congr 1
  · have : lits.map ginSeg = lits.map id := List.map_congr_left (fun s h => by
      obtain ⟨_, _, _, h1, h2⟩ := hl s h
      unfold ginSeg
      rw [if_neg h1, if_neg h2]; rfl)
    rw [this, List.map_id]

/-- the only route of its method -/
def Alone (v : Route α) (rs : List (Route α)) : Prop := v ∈ rs ∧ ∀ w ∈ rs, w.method = v.method → w = v

theorem routeAccepts_re {rx : Regex} {v : Route α} {lits names : List Str} {r : Re} (hu : v.uri = reRoute lits names r)
    (hl : ∀ s ∈ lits, LinkText s) (hs : ReSegment names r) (hd : Does rx r) (path : Str) :
    RouteAccepts rx v path ↔ ∃ s, pathSegs path = lits ++ [s] ∧ r.groups = names.length ∧ DescribesPart r s := by
  unfold RouteAccepts
  rw [hu, reRoute_segs hl hs, accepts_lits hl (by rw [(reSeg_read hs hd.ok).1]; decide)]
  simp only [C127_accepts_partial hs hd]

/-- C127, in the application: with `/a/b/<n1,n2 ~ re>` as the only route of its method, a request is served exactly if its path is `/a/b/`
and one segment of which the expression describes a part, and there is a group for every name. -/
theorem C127_served_partial {rx : Regex} {nf : List α} {rs : List (Route α)} {e : Engine α} (h : mkEngine rx false nf rs = .ok e)
    {v : Route α} (hv : Alone v rs) {lits names : List Str} {r : Re} (hu : v.uri = reRoute lits names r) (hl : ∀ s ∈ lits, LinkText s)
    (hs : ReSegment names r) (hd : Does rx r) (path : Str) :
    routeOf rx e v.method path ≠ none ↔ ∃ s, pathSegs path = lits ++ [s] ∧ r.groups = names.length ∧ DescribesPart r s := by
  rw [← routeAccepts_re hu hl hs hd, ne_eq, C02_not_found_iff h]
  constructor
  · intro hn
    refine Classical.byContradiction fun hc => hn ?_
    intro w hw hm
    rw [hv.2 w hw hm]
    exact hc
  · exact fun ha hn => hn v hv.1 rfl ha

/-- What the search found: the first position from which the expression describes a part of the segment, and the groups of one such part. -/
def FoundAt (r : Re) (s : Str) (i j : Nat) (c : Caps) : Prop :=
  i ≤ (runesOf s).length ∧ Mat (runesOf s) r 1 i j c ∧ (∀ m, m < i → ∀ j' c', ¬ Mat (runesOf s) r 1 m j' c')

/-- C127: the handler finds under the n-th name what the n-th group matched in the first part of the segment that the expression describes;
under other names it finds nothing. -/
theorem C127_values {rx : Regex} {nf : List α} {rs : List (Route α)} {e : Engine α} (h : mkEngine rx false nf rs = .ok e)
    {v : Route α} (hv : Alone v rs) {lits names : List Str} {r : Re} (hu : v.uri = reRoute lits names r) (hl : ∀ s ∈ lits, LinkText s)
    (hs : ReSegment names r) (hd : Does rx r) {path s : Str} (hp : pathSegs path = lits ++ [s]) (hg : r.groups = names.length)
    (hm : DescribesPart r s) :
    ∃ ps i j c, paramsOf rx e v.method path = some ps ∧ FoundAt r s i j c ∧ (runs (runesOf s) r 1 i).head? = some (j, c) ∧
      (∀ n (hn : n < names.length), ∃ u, ps names[n] = some u ∧ GroupIs (runesOf s) c (n + 1) u) ∧ ∀ x, x ∉ names → ps x = none := by
  obtain ⟨k1, k2, k3⟩ := reSeg_read hs hd.ok
  have hsegs : routeSegs v.uri = lits ++ [reSeg names r] := by rw [hu, reRoute_segs hl hs]
  have hne := (C127_served_partial h hv hu hl hs hd path).2 ⟨s, hp, hg, hm⟩
  obtain ⟨n, hn⟩ := Option.ne_none_iff_exists'.1 hne
  have hinner : ∀ w ∈ rs, w.method = v.method → ∀ x, ¬ InnerRegexName (routeSegs w.uri) x := by
    intro w hw hwm x
    rw [hv.2 w hw hwm, hsegs]
    rintro ⟨c, p, q, rest, he, hk, _⟩
    have hp' : p ∈ lits := by
      have h1 : lits = (c ++ p :: q :: rest).dropLast := by rw [← he]; simp
      rw [h1, List.dropLast_append_of_ne_nil (by simp), List.dropLast_cons_of_ne_nil (by simp)]
      simp
    obtain ⟨_, _, h0, _, h2⟩ := hl p hp'
    unfold kind at hk
    rw [if_neg h2, if_pos h0] at hk
    cases hk
  obtain ⟨w, hw, hwm, _, _, ps, hps, hb⟩ := C07_params_exact h hn hinner
  rw [hv.2 w hw hwm, hsegs, hp, bindings_lits hl k1, k2, k3, hd.find] at hb
  have hfind : ∃ i j c, FoundAt r s i j c ∧ (runs (runesOf s) r 1 i).head? = some (j, c) ∧
      r.find s = cutRunes (runesOf s) i j :: (List.range r.groups).map (fun k => groupText (runesOf s) c (k + 1)) := by
    rcases findFrom_spec (t := runesOf s) hd.ok ((runesOf s).length + 1) 0 (by omega) with ⟨_, h2⟩ | ⟨i, j, c, _, h2, h3, h4, h5, h6⟩
    · obtain ⟨i, j, c, hi, hmat⟩ := hm
      exact absurd hmat (h2 i (Nat.zero_le _) hi j c)
    · exact ⟨i, j, c, ⟨h2, h3, fun m hm => h4 m (Nat.zero_le _) hm⟩, h5, h6⟩
  obtain ⟨i, j, c, hf, hrun, hfind⟩ := hfind
  rw [hfind, List.drop_one, List.tail_cons, hg] at hb
  have hlen : ((List.range names.length).map (fun k => groupText (runesOf s) c (k + 1))).length = names.length := by simp
  have hkeys : (names.zip ((List.range names.length).map (fun k => groupText (runesOf s) c (k + 1)))).map Prod.fst = names :=
    List.map_fst_zip (by rw [hlen]; exact Nat.le_refl _)
  have hb' := hb (by rw [hkeys]; exact hs.distinct)
  refine ⟨ps, i, j, c, hps, hf, hrun, fun n hn => ⟨_, (hb' _ _).2 ?_, groupText_is _ _ _⟩, fun x hx => ?_⟩
  · refine List.mem_iff_getElem.2 ⟨n, by simp [hn], ?_⟩
    simp
  · cases hx' : ps x with
    | none => rfl
    | some u =>
      have := (hb' x u).1 hx'
      exact absurd (hkeys ▸ List.mem_map_of_mem (f := Prod.fst) this) hx

/-! Expressions for the whole segment -/

theorem anchored_mat {t : List (Nat × Str)} {a : Re} {i j : Nat} {c : Caps} (h : Mat t (anchored a) 1 i j c) :
    i = 0 ∧ ∃ c', Mat t a 2 0 t.length c' ∧ c = c' ++ [(1, 0, t.length)] := by
  unfold anchored at h
  cases h with
  | cat h1 h2 =>
    cases h1
    cases h2 with
    | cat h3 h4 =>
      cases h3 with
      | group h3 =>
        cases h4
        exact ⟨rfl, _, h3, by simp [Re.groups]⟩

theorem anchored_part (a : Re) (s : Str) : DescribesPart (anchored a) s ↔ Describes a s := by
  constructor
  · rintro ⟨i, j, c, _, h⟩
    obtain ⟨_, c', h, _⟩ := anchored_mat h
    exact h.renumber 1
  · rintro ⟨c, h⟩
    obtain ⟨c', h⟩ := h.renumber 2
    exact ⟨0, (runesOf s).length, _, Nat.zero_le _, .cat .bot (.cat (.group h) .eot)⟩

/-- C127 holds of expressions written as `^(re)$`: with `/a/b/<x ~ ^(re)$>` as the only route of its method, a request is served exactly if
its path is `/a/b/` and a segment that `re` describes, and the handler finds that segment under the name `x`. If `re` has groups itself, there
are more names. -/
theorem C127_whole {rx : Regex} {nf : List α} {rs : List (Route α)} {e : Engine α} (h : mkEngine rx false nf rs = .ok e)
    {v : Route α} (hv : Alone v rs) {lits names : List Str} {x : Str} {a : Re} (hu : v.uri = reRoute lits (x :: names) (anchored a))
    (hl : ∀ s ∈ lits, LinkText s) (hs : ReSegment (x :: names) (anchored a)) (hd : Does rx (anchored a)) (hg : a.groups = names.length) :
    (∀ path, routeOf rx e v.method path ≠ none ↔ ∃ s, pathSegs path = lits ++ [s] ∧ Describes a s) ∧
    ∀ path s, pathSegs path = lits ++ [s] → Describes a s → ∃ ps, paramsOf rx e v.method path = some ps ∧ ps x = some s := by
  have hg' : (anchored a).groups = (x :: names).length := by
    show 0 + (a.groups + 1 + 0) = _
    simp [hg]
  constructor
  · intro path
    rw [C127_served_partial h hv hu hl hs hd]
    simp only [anchored_part, hg', true_and]
  · intro path s hp hds
    obtain ⟨ps, i, j, c, h1, ⟨_, h2, _⟩, _, h4, _⟩ := C127_values h hv hu hl hs hd hp hg' ((anchored_part a s).2 hds)
    obtain ⟨u, h5, h6⟩ := h4 0 (by simp)
    obtain ⟨_, c', _, hc⟩ := anchored_mat h2
    have h7 : GroupIs (runesOf s) c 1 s := by
      have := GroupIs.last (t := runesOf s) (k := 1) (b := []) hc (by simp)
      rwa [List.drop_zero, Nat.sub_zero, List.take_length, runesOf_bytes] at this
    refine ⟨ps, h1, ?_⟩
    have h8 := GroupIs_unique h6
    rw [Nat.zero_add, ← GroupIs_unique h7] at h8
    rw [← h8]
    exact h5

theorem mat_one {t : List (Nat × Str)} {cs : CharSet} {k i j : Nat} {c : Caps} :
    Mat t (.one cs) k i j c ↔ c = [] ∧ j = i + 1 ∧ ∃ x, t[i]? = some x ∧ cs.has x.1 = true := by
  constructor
  · intro h; cases h with | one h1 h2 => exact ⟨rfl, rfl, _, h1, h2⟩
  · rintro ⟨rfl, rfl, x, h1, h2⟩; exact .one h1 h2

/-- a character, once or more -/
theorem mat_run {t : List (Nat × Str)} {cs : CharSet} {l : Bool} {k i j : Nat} {c : Caps} :
    Mat t (.rep .plus l (.one cs)) k i j c ↔ c = [] ∧ i < j ∧ ∀ m, i ≤ m → m < j → ∃ x, t[m]? = some x ∧ cs.has x.1 = true := by
  constructor
  · intro h
    generalize hr : Re.rep .plus l (.one cs) = r at h
    induction h with
    | none hn => cases hr; exact absurd rfl hn
    | once h =>
      cases hr
      obtain ⟨rfl, rfl, h'⟩ := mat_one.1 h
      refine ⟨rfl, by omega, fun m h1 h2 => ?_⟩
      have : m = _ := Nat.le_antisymm (Nat.lt_succ_iff.1 h2) h1
      subst this; exact h'
    | more _ h1 _ _ ih =>
      cases hr
      obtain ⟨rfl, rfl, h⟩ := mat_one.1 h1
      obtain ⟨rfl, h2, h3⟩ := ih rfl
      refine ⟨rfl, by omega, fun m hm hj => ?_⟩
      rcases Nat.lt_or_eq_of_le hm with hm | rfl
      · exact h3 m hm hj
      · exact h
    | _ => cases hr
  · rintro ⟨rfl, hij, h⟩
    obtain ⟨d, rfl⟩ : ∃ d, j = i + (d + 1) := ⟨j - i - 1, by omega⟩
    clear hij
    induction d generalizing i with
    | zero => exact .once (mat_one.2 ⟨rfl, rfl, h i (Nat.le_refl _) (by omega)⟩)
    | succ d ih =>
      have h1 : Mat t (.one cs) k i (i + 1) [] := mat_one.2 ⟨rfl, rfl, h i (Nat.le_refl _) (by omega)⟩
      have h2 := ih (i := i + 1) (fun m hm hj => h m (by omega) (by omega))
      have e : i + 1 + (d + 1) = i + (d + 1 + 1) := by omega
      rw [e] at h2
      exact .more (by decide) h1 h2

/-- a text of ASCII characters is read byte by byte -/
theorem runesF_ascii : ∀ (f : Nat) (s : Str), s.length ≤ f → (∀ x ∈ runesF f s, x.1 < 128) → runesF f s = s.map (fun c => (c.toNat, [c])) := by
  intro f
  induction f with
  | zero => intro s h _; rw [List.length_eq_zero_iff.1 (Nat.le_zero.1 h)]; rfl
  | succ f ih =>
    intro s h hx
    cases s with
    | nil => rfl
    | cons c s =>
      unfold runesF at hx ⊢
      rcases decodeRune_spec c s with ⟨_, hd⟩ | ⟨_, hd, _⟩
      · rw [hd] at hx ⊢
        have : max 1 (c.toNat, 1).2 = 1 := rfl
        rw [this] at hx ⊢
        rw [List.drop_one, List.tail_cons] at hx ⊢
        rw [ih s (by simpa using h) (fun x h => hx x (List.mem_cons_of_mem _ h))]
        rfl
      · have := hx _ (List.mem_cons_self ..)
        simp only at this
        omega

theorem runesF_bytewise : ∀ (f : Nat) (s : Str), s.length ≤ f → (∀ c ∈ s, c < 128) → runesF f s = s.map (fun c => (c.toNat, [c])) := by
  intro f
  induction f with
  | zero => intro s h _; rw [List.length_eq_zero_iff.1 (Nat.le_zero.1 h)]; rfl
  | succ f ih =>
    intro s h hx
    cases s with
    | nil => rfl
    | cons c s =>
      unfold runesF
      rcases decodeRune_spec c s with ⟨_, hd⟩ | ⟨hc, _⟩
      · rw [hd]
        have : max 1 (c.toNat, 1).2 = 1 := rfl
        rw [this, List.drop_one, List.tail_cons, ih s (by simpa using h) (fun x h => hx x (List.mem_cons_of_mem _ h))]
        rfl
      · have h1 := hx c (List.mem_cons_self ..)
        exact absurd hc (UInt8.not_le.2 h1)

/-- an expression for one or more characters of a kind, all of them ASCII, describes what its characters say -/
theorem describes_run {cs : CharSet} (hcs : ∀ n, cs.has n = true → n < 128) (l : Bool) (s : Str) :
    Describes (.rep .plus l (.one cs)) s ↔ s ≠ [] ∧ ∀ c ∈ s, cs.has c.toNat = true := by
  unfold Describes
  simp only [mat_run, exists_eq_left]
  constructor
  · rintro ⟨h1, h2⟩
    have hr : ∀ x ∈ runesOf s, cs.has x.1 = true := by
      intro x hx
      obtain ⟨m, hm, rfl⟩ := List.mem_iff_getElem.1 hx
      obtain ⟨y, hy, hh⟩ := h2 m (Nat.zero_le _) hm
      rw [List.getElem?_eq_getElem hm] at hy
      cases hy
      exact hh
    have he : runesOf s = s.map (fun c => (c.toNat, [c])) := runesF_ascii _ s (Nat.le_refl _) (fun x hx => hcs _ (hr x hx))
    rw [he] at hr h1
    exact ⟨by rintro rfl; simp at h1, fun c hc => hr _ (List.mem_map_of_mem (f := fun c : UInt8 => (c.toNat, [c])) hc)⟩
  · rintro ⟨h1, h2⟩
    have he : runesOf s = s.map (fun c => (c.toNat, [c])) :=
      runesF_bytewise _ s (Nat.le_refl _) (fun c hc => UInt8.lt_iff_toNat_lt.2 (hcs _ (h2 c hc)))
    rw [he]
    refine ⟨?_, fun m _ hm => ?_⟩
    · cases s with
      | nil => exact absurd rfl h1
      | cons c s => simp
    · have hm' : m < s.length := by simpa using hm
      exact ⟨(s[m].toNat, [s[m]]), by simp [hm'], h2 _ (List.getElem_mem hm')⟩

/-- `[0-9]+` -/
def digitRun : Re := .rep .plus false (.one (.set false [(48, 57)]))

theorem digit_has (n : Nat) : (CharSet.set false [(48, 57)]).has n = true ↔ 48 ≤ n ∧ n ≤ 57 := by
  simp [CharSet.has]

/-- C127, for the most frequent case: with `/a/b/<x ~ ^([0-9]+)$>` as the only route of its method, a request is served exactly if its path is
`/a/b/` and one or more decimal digits, and the handler finds these under the name `x`. -/
theorem C127_digits {rx : Regex} {nf : List α} {rs : List (Route α)} {e : Engine α} (h : mkEngine rx false nf rs = .ok e)
    {v : Route α} (hv : Alone v rs) {lits : List Str} {x : Str} (hx : LinkName x) (hu : v.uri = reRoute lits [x] (anchored digitRun))
    (hl : ∀ s ∈ lits, LinkText s) (hd : Does rx (anchored digitRun)) :
    (∀ path, routeOf rx e v.method path ≠ none ↔ ∃ s, pathSegs path = lits ++ [s] ∧ s ≠ [] ∧ ∀ c ∈ s, c ∈ decimals) ∧
    ∀ path s, pathSegs path = lits ++ [s] → s ≠ [] → (∀ c ∈ s, c ∈ decimals) →
      ∃ ps, paramsOf rx e v.method path = some ps ∧ ps x = some s := by
  have hs : ReSegment [x] (anchored digitRun) := by
    refine ⟨by simp, ?_, by simp, by decide, by decide, by decide⟩
    intro y hy
    rw [List.mem_singleton] at hy
    rw [hy]; exact hx
  have hdig : ∀ c : UInt8, (48 ≤ c.toNat ∧ c.toNat ≤ 57) ↔ c ∈ decimals := by
    refine all_bytes ?_
    decide +kernel
  have hdes : ∀ s, Describes digitRun s ↔ s ≠ [] ∧ ∀ c ∈ s, c ∈ decimals := by
    intro s
    unfold digitRun
    rw [describes_run (fun n hn => by have := (digit_has n).1 hn; omega)]
    simp only [digit_has, hdig]
  obtain ⟨h1, h2⟩ := C127_whole h hv hu hl hs hd rfl
  simp only [hdes] at h1 h2
  exact ⟨h1, fun path s hp hn hc => h2 path s hp ⟨hn, hc⟩⟩

/-! Expressions for a part of the segment -/

/-- the preferred match of a repeated character is the longest -/
theorem rounds_longest {t : List (Nat × Str)} {cs : CharSet} {k : Nat} : ∀ f i, i + f = t.length →
    ∃ e, (rounds (runs t (.one cs) k) false f i).head? = some (e, []) ∧ i ≤ e ∧
      (∀ m, i ≤ m → m < e → ∃ x, t[m]? = some x ∧ cs.has x.1 = true) ∧ ∀ x, t[e]? = some x → cs.has x.1 = false := by
  intro f
  induction f with
  | zero =>
    intro i hi
    refine ⟨i, rfl, Nat.le_refl _, fun m h1 h2 => by omega, fun x hx => ?_⟩
    have := (List.getElem?_eq_some_iff.1 hx).1
    omega
  | succ f ih =>
    intro i hi
    have hlt : i < t.length := by omega
    rw [rounds]
    simp only [Bool.false_eq_true, if_false]
    by_cases hh : cs.has (t[i]).1 = true
    · have hb : runs t (.one cs) k i = [(i + 1, [])] := by
        simp only [runs]
        rw [List.getElem?_eq_getElem hlt]
        dsimp only
        rw [if_pos hh]
      obtain ⟨e, h1, h2, h3, h4⟩ := ih (i + 1) (by omega)
      refine ⟨e, ?_, by omega, fun m hm he => ?_, h4⟩
      · rw [hb, List.flatMap_cons, List.flatMap_nil, List.append_nil]
        dsimp only
        rw [if_pos (Nat.lt_succ_self i)]
        cases hr : rounds (runs t (.one cs) k) false f (i + 1) with
        | nil => rw [hr] at h1; cases h1
        | cons y ys =>
          rw [hr] at h1
          cases h1
          rfl
      · rcases Nat.lt_or_eq_of_le hm with hm | rfl
        · exact h3 m hm he
        · exact ⟨_, List.getElem?_eq_getElem hlt, hh⟩
    · have hb : runs t (.one cs) k i = [] := by
        simp only [runs]
        rw [List.getElem?_eq_getElem hlt]
        dsimp only
        rw [if_neg hh]
      refine ⟨i, by rw [hb]; rfl, Nat.le_refl _, fun m h1 h2 => by omega, fun x hx => ?_⟩
      rw [List.getElem?_eq_getElem hlt] at hx
      cases hx
      simpa using hh

/-- C127 is not what happens to `(re)` without `^` and `$`: with `/a/b/<x ~ ([0-9]+)>`, say, the segment is accepted as soon as one of its
characters is of the kind, and the handler finds the first longest run of such characters under the name `x`, whatever is around it. -/
theorem C127_first_run {rx : Regex} {nf : List α} {rs : List (Route α)} {e : Engine α} (h : mkEngine rx false nf rs = .ok e)
    {v : Route α} (hv : Alone v rs) {lits : List Str} {x : Str} {cs : CharSet} (hu : v.uri = reRoute lits [x] (.group (.rep .plus false (.one cs))))
    (hl : ∀ s ∈ lits, LinkText s) (hs : ReSegment [x] (.group (.rep .plus false (.one cs)))) (hd : Does rx (.group (.rep .plus false (.one cs)))) :
    (∀ path, routeOf rx e v.method path ≠ none ↔ ∃ s, pathSegs path = lits ++ [s] ∧ ∃ y ∈ runesOf s, cs.has y.1 = true) ∧
    ∀ path s, pathSegs path = lits ++ [s] → (∃ y ∈ runesOf s, cs.has y.1 = true) →
      ∃ ps pre mid post, paramsOf rx e v.method path = some ps ∧ ps x = some (mid.flatMap Prod.snd) ∧ runesOf s = pre ++ mid ++ post ∧
        (∀ y ∈ pre, cs.has y.1 = false) ∧ mid ≠ [] ∧ (∀ y ∈ mid, cs.has y.1 = true) ∧ ∀ y, post.head? = some y → cs.has y.1 = false := by
  have hpart : ∀ s, DescribesPart (.group (.rep .plus false (.one cs))) s ↔ ∃ y ∈ runesOf s, cs.has y.1 = true := by
    intro s
    constructor
    · rintro ⟨i, j, c, _, hm⟩
      cases hm with
      | group hm =>
        obtain ⟨_, h1, h2⟩ := mat_run.1 hm
        obtain ⟨y, hy, hh⟩ := h2 i (Nat.le_refl _) h1
        exact ⟨y, List.mem_of_getElem? hy, hh⟩
    · rintro ⟨y, hy, hh⟩
      obtain ⟨m, hm, rfl⟩ := List.mem_iff_getElem.1 hy
      refine ⟨m, m + 1, _, by omega, .group (mat_run.2 ⟨rfl, by omega, fun n h1 h2 => ?_⟩)⟩
      have : n = m := by omega
      subst this
      exact ⟨_, List.getElem?_eq_getElem hm, hh⟩
  constructor
  · intro path
    rw [C127_served_partial h hv hu hl hs hd]
    simp only [hpart]
    constructor
    · rintro ⟨s, h1, _, h2⟩; exact ⟨s, h1, h2⟩
    · rintro ⟨s, h1, h2⟩; exact ⟨s, h1, rfl, h2⟩
  · intro path s hp hy
    obtain ⟨ps, i, j, c, h1, ⟨hi, h2, hfirst⟩, hrun, h4, _⟩ := C127_values h hv hu hl hs hd hp rfl ((hpart s).2 hy)
    obtain ⟨u, h5, h6⟩ := h4 0 (by simp)
    generalize runesOf s = t at *
    cases h2 with
    | @group _ _ _ _ c0 h2 =>
      obtain ⟨rfl, hij, hall⟩ := mat_run.1 h2
      have hj := h2.bound hi
      obtain ⟨x0, hx0, hx1⟩ := hall i (Nat.le_refl _) hij
      have hib : i < t.length := by omega
      -- the preferred match is the longest one
      have hstop : ∀ z, t[j]? = some z → cs.has z.1 = false := by
        have hb : runs t (.one cs) 2 i = [(i + 1, [])] := by
          simp only [runs]
          rw [hx0]
          dsimp only
          rw [if_pos hx1]
        obtain ⟨e, g1, g2, g3, g4⟩ := rounds_longest (t := t) (cs := cs) (k := 2) (t.length - (i + 1)) (i + 1) (by omega)
        have hr : (runs t (.group (.rep .plus false (.one cs))) 1 i).head? = some (e, [(1, i, e)]) := by
          rw [runs, runs, hb, List.flatMap_cons, List.flatMap_nil, List.append_nil]
          dsimp only
          cases hq : rounds (runs t (.one cs) 2) false (t.length - (i + 1)) (i + 1) with
          | nil => rw [hq] at g1; cases g1
          | cons y ys => rw [hq] at g1; cases g1; rfl
        rw [hr] at hrun
        cases hrun
        exact g4
      have hval : u = ((t.drop i).take (j - i)).flatMap Prod.snd := by
        have h7 : GroupIs t ([] ++ [(1, i, j)]) 1 (((t.drop i).take (j - i)).flatMap Prod.snd) :=
          .last (a := []) (b := []) rfl (by simp)
        rw [GroupIs_unique h6, GroupIs_unique h7]
      refine ⟨ps, t.take i, (t.drop i).take (j - i), t.drop j, h1, hval ▸ h5, ?_, ?_, ?_, ?_, ?_⟩
      · have e1 : t.drop j = (t.drop i).drop (j - i) := by rw [List.drop_drop]; congr 1; omega
        rw [e1, List.append_assoc, List.take_append_drop, List.take_append_drop]
      · intro y hy
        obtain ⟨m, hm, rfl⟩ := List.mem_iff_getElem.1 hy
        rw [List.length_take] at hm
        rw [List.getElem_take]
        cases hh : cs.has (t[m]'(by omega)).1 with
        | false => rfl
        | true =>
          refine absurd (Mat.group (mat_run.2 ⟨rfl, Nat.lt_succ_self m, fun n g1 g2 => ?_⟩)) (hfirst m (by omega) (m + 1) _)
          have : n = m := by omega
          subst this
          exact ⟨_, List.getElem?_eq_getElem (by omega), hh⟩
      · intro hnil
        have := congrArg List.length hnil
        simp at this
        omega
      · intro y hy
        obtain ⟨m, hm, rfl⟩ := List.mem_iff_getElem.1 hy
        rw [List.length_take, List.length_drop] at hm
        rw [List.getElem_take, List.getElem_drop]
        obtain ⟨z, g1, g2⟩ := hall (i + m) (by omega) (by omega)
        rw [List.getElem?_eq_getElem (by omega)] at g1
        cases g1
        exact g2
      · intro y hy
        rw [List.head?_drop] at hy
        exact hstop y hy

/-! The type of a parameter -/

/-- C127: a type behind a colon is no restriction: `<x:int>` accepts every segment, and the handler finds it under `x`. -/
theorem C127_type (rx : Regex) {x ty : Str} (hx : LinkName x) (ht : tilde ∉ ty) (g : Nat) (s rest av : Str) :
    acceptsSeg rx ([60] ++ x ++ [58] ++ ty ++ [62]) s ∧ bindSeg rx g ([60] ++ x ++ [58] ++ ty ++ [62]) s rest av = [(x, s)] := by
  have hb := linkName_byte hx
  have e1 : [60] ++ x ++ [58] ++ ty ++ [62] = lt :: (x ++ colon :: (ty ++ [62])) := by simp [lt, colon]
  have hn : nameText ([60] ++ x ++ [58] ++ ty ++ [62]) = x := by
    unfold nameText
    rw [e1, if_pos (by simp), List.drop_one, List.tail_cons, (takeWhile_upto (p := (· != colon)) (fun c hc => ?_) (by decide)).1]
    · exact linkName_trim hx
    · simpa using (hb c hc).2.2.2.1
  have hk : kind ([60] ++ x ++ [58] ++ ty ++ [62]) = .name := by
    unfold kind
    rw [hn, if_neg (by simp [star]), if_neg (by simp [lt]), if_neg (fun h : x.head? = some star => (hb _ (List.mem_of_mem_head? h)).2.2.2.2.2.1 rfl), if_neg]
    simp only [List.mem_append, List.mem_singleton, not_or]
    exact ⟨⟨⟨⟨by decide, fun h => (hb _ h).2.2.2.2.1 rfl⟩, by decide⟩, ht⟩, by decide⟩
  constructor
  · unfold acceptsSeg; rw [hk]; trivial
  · unfold bindSeg; rw [hk, hn]; dsimp only; rw [if_neg (show ¬ x = underscore from hx.2.1)]

/-- C127: the package as the model has it reads a text as the one expression of the subset that is written so, and treats it as `Does`
says; so the theorems above hold, with one package, for all routes of an application. -/
theorem C127_go (r : Re) : (Does goRegex r ↔ r.ok = true) ∧ (∀ e, Re.read e = some r ↔ r.ok = true ∧ r.text = e) ∧
    ∀ r', r.ok = true → r'.ok = true → r.text = r'.text → r = r' := by
  refine ⟨⟨fun h => h.ok, goRegex_does⟩, fun e => read_iff e r, fun r' h h' he => ?_⟩
  have h1 := (read_iff r.text r).2 ⟨h, rfl⟩
  rw [(read_iff r.text r').2 ⟨h', he.symm⟩] at h1
  exact (Option.some.inj h1).symm

/-! Cases -/

namespace Demo

/-- an application with one route, and a test of it -/
def withRe (uri : Str) (p : Engine Nat → Bool) : Bool :=
  match mkEngine goRegex false [] [get uri [1]] with
  | .ok e => p e
  | .error _ => false

/-- an application with some routes, and a test of it -/
def withRoutes (rs : List (Route Nat)) (p : Engine Nat → Bool) : Bool :=
  match mkEngine goRegex false [] rs with
  | .ok e => p e
  | .error _ => false

theorem withRe_spec {uri : Str} {p : Engine Nat → Bool} (h : withRe uri p = true) :
    ∃ e, mkEngine goRegex false [] [get uri [1]] = .ok e ∧ p e = true := by
  unfold withRe at h
  cases hm : mkEngine goRegex false [] [get uri [1]] with
  | ok e => rw [hm] at h; exact ⟨e, rfl, h⟩
  | error er => rw [hm] at h; cases h

theorem alone_one (v : Route Nat) : Alone v [v] := ⟨List.mem_cons_self .., fun w hw _ => by simpa using hw⟩

/-- `([0-9]+)` -/
def someDigits : Re := .group digitRun

/-- `70|80` -/
def seventyEighty : Re := .alt (.cat (.one (.char 55)) (.one (.char 48))) (.cat (.one (.char 56)) (.one (.char 48)))

/-- `((?:7|8)0)` -/
def uncounted : Re := .group (.cat (.nc (.alt (.one (.char 55)) (.one (.char 56)))) (.one (.char 48)))

/-- `([a-z]+)-([0-9]+)` -/
def article : Re := .cat (.group (.rep .plus false (.one (.set false [(97, 122)])))) (.cat (.one (.char 45)) someDigits)

/-- `[0-9]+:[0-9]+` -/
def clock : Re := .cat digitRun (.cat (.one (.char 58)) digitRun)

theorem linkName_of {x : Str} (h : (x ≠ [] ∧ x ≠ [95] ∧ ∀ c ∈ x, c ∈ smallLetters ++ capitalLetters ++ decimals ++ b!"_-")) : LinkName x := h

end Demo

/-- how the expressions of the cases are written -/
example : someDigits.text = b!"([0-9]+)" ∧ seventyEighty.text = b!"70|80" ∧ uncounted.text = b!"((?:7|8)0)" ∧
    article.text = b!"([a-z]+)-([0-9]+)" ∧ (anchored digitRun).text = b!"^([0-9]+)$" ∧ clock.text = b!"[0-9]+:[0-9]+" := by
  decide +kernel

/-- a name -/
theorem name_ex {x : Str} (h : x = b!"id" ∨ x = b!"name" ∨ x = b!"a" ∨ x = b!"b" ∨ x = b!"t") : LinkName x := by
  refine linkName_of ?_
  rcases h with rfl | rfl | rfl | rfl | rfl <;> decide

/-- the hypotheses of `C127_accepts_partial`, `C127_built` and `C127_values` are met, with two groups and two names -/
theorem article_segment : ReSegment [b!"name", b!"id"] article where
  some_name := by simp
  name := by
    intro x hx
    simp only [List.mem_cons, List.not_mem_nil, or_false] at hx
    rcases hx with rfl | rfl
    · exact name_ex (.inr (.inl rfl))
    · exact name_ex (.inl rfl)
  distinct := by decide
  text := by decide
  front := by decide
  back := by decide

example : ∃ e, mkEngine goRegex false [] [get (reRoute [b!"shop"] [b!"name", b!"id"] article) [1]] = .ok e ∧
    (routeOf goRegex e mGET b!"/shop/3red-shoe-42x").isSome = true ∧
    (paramsOf goRegex e mGET b!"/shop/3red-shoe-42x").bind (fun ps => ps b!"name") = some b!"shoe" ∧
    (paramsOf goRegex e mGET b!"/shop/3red-shoe-42x").bind (fun ps => ps b!"id") = some b!"42" ∧
    (routeOf goRegex e mGET b!"/shop/shoe").isSome = false := by
  have hw : withRe (reRoute [b!"shop"] [b!"name", b!"id"] article) (fun e =>
      (routeOf goRegex e mGET b!"/shop/3red-shoe-42x").isSome == true &&
      ((paramsOf goRegex e mGET b!"/shop/3red-shoe-42x").bind (fun ps => ps b!"name") == some b!"shoe" &&
      ((paramsOf goRegex e mGET b!"/shop/3red-shoe-42x").bind (fun ps => ps b!"id") == some b!"42" &&
      (routeOf goRegex e mGET b!"/shop/shoe").isSome == false))) = true := by
    decide +kernel
  obtain ⟨e, he, h⟩ := withRe_spec hw
  simp only [Bool.and_eq_true, beq_iff_eq] at h
  exact ⟨e, he, h⟩

/-- the hypotheses of `C127_whole` and `C127_digits` are met -/
example : ∃ e, mkEngine goRegex false [] [get (reRoute [b!"shop"] [b!"id"] (anchored digitRun)) [1]] = .ok e ∧
    (paramsOf goRegex e mGET b!"/shop/42").bind (fun ps => ps b!"id") = some b!"42" ∧
    (routeOf goRegex e mGET b!"/shop/x42").isSome = false ∧ (anchored digitRun).ok = true ∧ LinkText b!"shop" := by
  have hw : withRe (reRoute [b!"shop"] [b!"id"] (anchored digitRun)) (fun e =>
      (paramsOf goRegex e mGET b!"/shop/42").bind (fun ps => ps b!"id") == some b!"42" &&
      (routeOf goRegex e mGET b!"/shop/x42").isSome == false) = true := by
    decide +kernel
  obtain ⟨e, he, h⟩ := withRe_spec hw
  simp only [Bool.and_eq_true, beq_iff_eq] at h
  exact ⟨e, he, h.1, h.2, by decide, by unfold LinkText; decide⟩

/-- `C127_dead`: the pattern of README.md:39 and engine_test.go is built and accepts nothing; so is one with a group too many, for two names -/
example : WellFormed goRegex (reSeg [b!"id"] seventyEighty) ∧ reSeg [b!"id"] seventyEighty = b!"<id ~ 70|80>" ∧
    seventyEighty.groups = 0 ∧ WellFormed goRegex (reSeg [b!"a", b!"b"] uncounted) ∧ uncounted.groups = 1 ∧
    falseParens lparen uncounted = 1 ∧ ¬ WellFormed goRegex (reSeg [b!"a"] uncounted) := by
  have h1 : ∀ {names : List Str} {r : Re}, names.Nodup → (names ≠ [] ∧ ∀ x ∈ names, LinkName x) → r.ok = true →
      ((∀ c ∈ r.text, c ≠ 62 ∧ c ≠ 47 ∧ c ≠ 58) ∧ r.text.head? ≠ some 32 ∧ r.text.getLast? ≠ some 32) → ReSegment names r :=
    fun h1 h2 _ h4 => ⟨h2.1, h2.2, h1, h4.1, h4.2.1, h4.2.2⟩
  have hid : ∀ x ∈ [b!"id"], LinkName x := fun x hx => name_ex (.inl (by simpa using hx))
  refine ⟨?_, by decide, rfl, ?_, rfl, by decide, ?_⟩
  · rw [C127_built (h1 (by decide) ⟨by simp, hid⟩ (by decide) (by decide)) (goRegex_does (by decide))]
    decide
  · unfold WellFormed; decide +kernel
  · unfold WellFormed; decide +kernel

/-- `C127_type` -/
example : acceptsSeg goRegex b!"<id:int>" b!"abc" := (C127_type _ (x := b!"id") (ty := b!"int") (name_ex (.inl rfl)) (by decide) 0 _ [] []).1

/-- The full statement of C127: the route serves the segments that the expression describes. -/
def C127_claim : Prop := ∀ (rx : Regex) (rs : List (Route Nat)) (e : Engine Nat), mkEngine rx false [] rs = .ok e → ∀ v, Alone v rs →
  ∀ names r, v.uri = reRoute [] names r → ReSegment names r → Does rx r →
    ∀ path s, pathSegs path = [s] → (routeOf rx e v.method path ≠ none ↔ Describes r s)

theorem idSegment {r : Re} (h : (∀ c ∈ r.text, c ≠ 62 ∧ c ≠ 47 ∧ c ≠ 58) ∧ r.text.head? ≠ some 32 ∧ r.text.getLast? ≠ some 32) :
    ReSegment [b!"id"] r where
  some_name := by simp
  name := fun x hx => name_ex (.inl (by simpa using hx))
  distinct := by decide
  text := h.1
  front := h.2.1
  back := h.2.2

/-- C127 is false of the code: `/<id ~ ([0-9]+)>` serves `/x7y`. -/
theorem C127_refuted : ¬ C127_claim := by
  intro hall
  have hw : withRe (reRoute [] [b!"id"] someDigits) (fun e =>
      (routeOf goRegex e mGET b!"/x7y").isSome == true) = true := by decide +kernel
  obtain ⟨e, he, h⟩ := withRe_spec hw
  have h1 := (hall _ _ e he _ (alone_one _) [b!"id"] someDigits rfl (idSegment (by decide)) (goRegex_does (by decide)) b!"/x7y" b!"x7y" (by decide)).1
    (by
      intro hn
      have hn' : routeOf goRegex e mGET b!"/x7y" = none := hn
      rw [hn'] at h
      exact absurd h (by decide))
  obtain ⟨c, hm⟩ := h1
  cases hm with
  | group hm =>
    obtain ⟨y, hy, hh⟩ := (mat_run.1 hm).2.2 0 (Nat.le_refl _) (by decide)
    have : (runesOf b!"x7y")[0]? = some (120, b!"x") := by decide
    rw [this] at hy
    cases hy
    exact absurd hh (by decide)

/-- C127: an expression without groups is never matched: `/<id ~ 70|80>` does not serve `/70`. -/
theorem C127_refuted_dead : ¬ C127_claim := by
  intro hall
  have hw : withRe (reRoute [] [b!"id"] seventyEighty) (fun e =>
      (routeOf goRegex e mGET b!"/70").isSome == false) = true := by decide +kernel
  obtain ⟨e, he, h⟩ := withRe_spec hw
  have h1 := (hall _ _ e he _ (alone_one _) [b!"id"] seventyEighty rfl (idSegment (by decide)) (goRegex_does (by decide)) b!"/70" b!"70" (by decide)).2
    ⟨[], (mem_runs (by decide) (Nat.zero_le _) _ _).1 (by decide)⟩
  have h2 : routeOf goRegex e mGET b!"/70" ≠ none := h1
  cases hr : routeOf goRegex e mGET b!"/70" with
  | none => exact h2 hr
  | some n => rw [hr] at h; simp at h

/-- The statement of `C127_whole` without the condition that there is no colon in the expression. -/
def C127_colon_claim : Prop := ∀ (rx : Regex) (rs : List (Route Nat)) (e : Engine Nat), mkEngine rx false [] rs = .ok e → ∀ v, Alone v rs →
  ∀ x a, v.uri = reRoute [] [x] (anchored a) → LinkName x → a.groups = 0 → Does rx (anchored a) →
    ∀ path s, pathSegs path = [s] → Describes a s → ∃ ps, paramsOf rx e v.method path = some ps ∧ ps x = some s

/-- C127: the name ends at a colon, also at one of the expression: `/<t ~ ^([0-9]+:[0-9]+)$>` serves `/12:30`, and there is no parameter `t`. -/
theorem C127_refuted_colon : ¬ C127_colon_claim := by
  intro hall
  have hw : withRe (reRoute [] [b!"t"] (anchored clock)) (fun e =>
      (paramsOf goRegex e mGET b!"/12:30").map (fun ps => (ps b!"t", ps b!"t ~ ^([0-9]+")) ==
        some (none, some b!"12:30")) = true := by decide +kernel
  obtain ⟨e, he, h⟩ := withRe_spec hw
  obtain ⟨ps, h1, h2⟩ := hall _ _ e he _ (alone_one _) b!"t" clock rfl (name_ex (by simp)) rfl (goRegex_does (by decide)) b!"/12:30" b!"12:30"
    (by decide) ⟨[], (mem_runs (by decide) (Nat.zero_le _) _ _).1 (by decide)⟩
  have h1' : paramsOf goRegex e mGET b!"/12:30" = some ps := h1
  rw [h1', Option.map_some, h2] at h
  simp at h

/-- the routes below `/d2` of README.md:91-92 and engine_test.go:34-35, in one application -/
example : withRoutes [get b!"/d2/<id ~ z(d*)b>" [1], get b!"/d2/<id1,id2 ~ z(d*)h(u)b>" [2]] (fun e =>
    let values := fun path (names : List Str) => (paramsOf goRegex e mGET path).map (fun ps => names.map ps)
    values b!"/d2/zddb" [b!"id", b!"id1"] == some [some b!"dd", none] &&
    values b!"/d2/zdhub" [b!"id", b!"id1", b!"id2"] == some [none, some b!"d", some b!"u"] &&
    (routeOf goRegex e mGET b!"/d2/zab").isSome == false) = true := by decide +kernel

/-- what is no expression of the subset is not read -/
example : Re.read b!"z(d*)h(u)b" = some (.cat (.one (.char 122)) (.cat (.group (.rep .star false (.one (.char 100)))) (.cat (.one (.char 104))
      (.cat (.group (.one (.char 117))) (.one (.char 98)))))) ∧
    Re.read b!"z(d*" = none ∧ Re.read b!"*" = none ∧ Re.read b!"a**" = none ∧ Re.read b!"[]" = none ∧ Re.read b!"a)" = none := by
  refine ⟨?_, ?_, ?_, ?_, ?_, ?_⟩ <;> decide +kernel

end Water
