import Verif.Spec.Link
import Verif.Props.Choice
import Verif.Props.Routing
import Verif.Lemmas.Literal
import Verif.Lemmas.Files
import Verif.Lemmas.Util
/-
C124: a link made from a pattern leads back to its route.
-/
namespace Water
open Spec Demo
variable {α : Type}

/-! The pattern -/

theorem linkName_byte {x : Str} (h : LinkName x) : ∀ c ∈ x, c ≠ slash ∧ c ≠ lt ∧ c ≠ gt ∧ c ≠ colon ∧ c ≠ tilde ∧ c ≠ star ∧ NonSpace c := by
  have key : ∀ c : UInt8, c ∈ smallLetters ++ capitalLetters ++ decimals ++ b!"_-" →
      c ≠ slash ∧ c ≠ lt ∧ c ≠ gt ∧ c ≠ colon ∧ c ≠ tilde ∧ c ≠ star ∧ NonSpace c := by
    refine all_bytes ?_
    unfold NonSpace
    decide +kernel
  exact fun c hc => key c (h.2.2 c hc)

theorem linkName_trim {x : Str} (h : LinkName x) : trimSpace x = x :=
  trimSpace_ends (fun c hc => (linkName_byte h c (List.mem_of_mem_head? hc)).2.2.2.2.2.2)
    (fun c hc => (linkName_byte h c (List.mem_of_mem_getLast? hc)).2.2.2.2.2.2)

/-- the segment that the router keeps for a part -/
def partSeg : LinkPart → Str
  | .text s => s
  | .hole _ x => [lt] ++ x ++ [gt]

theorem ginSeg_part {q : LinkPart} (ht : ∀ s, q = .text s → LinkText s) (hh : ∀ g x, q = .hole g x → LinkName x) :
    ginSeg q.written = partSeg q := by
  cases q with
  | text s =>
    obtain ⟨_, _, _, h1, h2⟩ := ht s rfl
    show ginSeg s = s
    unfold ginSeg
    rw [if_neg h1, if_neg h2]
  | hole g x =>
    cases g with
    | true =>
      show ginSeg (58 :: x) = _
      unfold ginSeg
      rw [if_pos (show (58 :: x).head? = some colon from rfl)]
      simp only [List.tail_cons, linkName_trim (hh true x rfl)]
      rfl
    | false => rfl

theorem part_kind {q : LinkPart} (ht : ∀ s, q = .text s → LinkText s) (hh : ∀ g x, q = .hole g x → LinkName x) :
    (∀ s, q = .text s → kind (partSeg q) = .literal) ∧ (∀ g x, q = .hole g x → kind (partSeg q) = .name ∧ nameText (partSeg q) = x) := by
  constructor
  · rintro s rfl
    obtain ⟨_, _, h0, _, h2⟩ := ht s rfl
    show kind s = _
    unfold kind
    rw [if_neg h2, if_pos h0]
  · rintro g x rfl
    have hx := linkName_byte (hh g x rfl)
    have hc : colon ∉ [lt] ++ x ++ [gt] := by
      simp only [List.mem_append, List.mem_singleton, not_or]
      exact ⟨⟨by decide, fun h => (hx _ h).2.2.2.1 rfl⟩, by decide⟩
    have ht : tilde ∉ [lt] ++ x ++ [gt] := by
      simp only [List.mem_append, List.mem_singleton, not_or]
      exact ⟨⟨by decide, fun h => (hx _ h).2.2.2.2.1 rfl⟩, by decide⟩
    have hn : nameText ([lt] ++ x ++ [gt]) = x := by
      unfold nameText
      rw [if_neg hc, if_neg ht]
      have : (([lt] ++ x ++ [gt]).drop 1).dropLast = x := by simp
      rw [this, linkName_trim (hh g x rfl)]
    refine ⟨?_, hn⟩
    show kind ([lt] ++ x ++ [gt]) = _
    unfold kind
    rw [if_neg (by simp [lt, star]), if_neg (by simp), hn, if_neg, if_neg ht]
    intro h
    exact (hx _ (List.mem_of_mem_head? h)).2.2.2.2.2.1 rfl

theorem star_kind (x : Str) : kind (star :: x) = .star ∧ starName (star :: x) = x := by
  constructor
  · unfold kind; rw [if_pos (show (star :: x).head? = some star from rfl)]
  · unfold starName; rw [if_pos (show (star :: x).head? = some star from rfl)]; rfl

/-- the segments of the pattern -/
def patSegs (p : LinkPattern) : List Str := p.parts.map partSeg ++ (p.rest.map (fun x => star :: x)).toList

theorem mem_holes {g : Bool} {x : Str} {ps : List LinkPart} (h : LinkPart.hole g x ∈ ps) : x ∈ holesOf ps := by
  induction ps with
  | nil => cases h
  | cons q ps ih =>
    rcases List.mem_cons.1 h with h1 | h1
    · subst h1
      exact List.mem_cons_self ..
    · cases q with
      | text s => exact ih h1
      | hole g y => exact List.mem_cons_of_mem _ (ih h1)

theorem sound_part {p : LinkPattern} (h : p.Sound) {q : LinkPart} (hq : q ∈ p.parts) :
    (∀ s, q = .text s → LinkText s) ∧ (∀ g x, q = .hole g x → LinkName x) :=
  ⟨fun s e => h.text s (e ▸ hq), fun _ x e => h.hole x (mem_holes (e ▸ hq))⟩

theorem plain_join {l : List Str} (hne : l ≠ []) (h : ∀ s ∈ l, s ≠ [] ∧ slash ∉ s) : Plain (slash :: join [slash] l) ∧
    pathSegs (slash :: join [slash] l) = l := by
  have h1 : splitB slash (join [slash] l) = l := splitB_join hne (fun s hs => (h s hs).2)
  have hp : Plain (slash :: join [slash] l) := by
    refine Or.inr ⟨l, hne, ?_, fun s hs => (h s hs).1⟩
    rw [splitB_cons_slash, h1]
  refine ⟨hp, ?_⟩
  rcases plain_cases hp with h2 | ⟨t, h2, h3, _⟩
  · cases l with
    | nil => exact absurd rfl hne
    | cons a l =>
      have ha := (h a (List.mem_cons_self ..)).1
      exfalso
      cases l with
      | nil => simp [join] at h2; exact ha h2
      | cons b l => rw [join_cons_ne (by simp)] at h2; simp at h2
  · injection h2 with _ h2
    subst h2
    rw [pathSegs_plain h3, h1]

theorem pattern_segs {p : LinkPattern} (h : p.Sound) : routeSegs p.written = patSegs p := by
  have hne : p.parts.map LinkPart.written ++ (p.rest.map (fun x => star :: x)).toList ≠ [] := by
    rcases h.some_part with h | h
    · simp [h]
    · cases hr : p.rest with
      | none => exact absurd hr h
      | some x => simp
  have hall : ∀ s ∈ p.parts.map LinkPart.written ++ (p.rest.map (fun x => star :: x)).toList, s ≠ [] ∧ slash ∉ s := by
    intro s hs
    rcases List.mem_append.1 hs with hs | hs
    · obtain ⟨q, hq, rfl⟩ := List.mem_map.1 hs
      obtain ⟨h1, h2⟩ := sound_part h hq
      cases q with
      | text s => exact ⟨(h1 s rfl).1, (h1 s rfl).2.1⟩
      | hole g x =>
        have hx : slash ∉ x := fun hm => (linkName_byte (h2 g x rfl) _ hm).1 rfl
        cases g with
        | true =>
          refine ⟨by simp [LinkPart.written], ?_⟩
          show slash ∉ 58 :: x
          exact fun hm => (List.mem_cons.1 hm).elim (by decide) hx
        | false =>
          refine ⟨by simp [LinkPart.written], ?_⟩
          show slash ∉ [60] ++ x ++ [62]
          simp only [List.mem_append, List.mem_singleton, not_or]
          exact ⟨⟨by decide, hx⟩, by decide⟩
    · cases hr : p.rest with
      | none => rw [hr] at hs; cases hs
      | some x =>
        rw [hr] at hs
        simp only [Option.map_some, Option.toList_some, List.mem_singleton] at hs
        subst hs
        refine ⟨by simp, fun hm => ?_⟩
        rcases List.mem_cons.1 hm with hm | hm
        · exact absurd hm (by decide)
        · rcases h.rest x hr with rfl | hx
          · cases hm
          · exact (linkName_byte hx _ hm).1 rfl
  obtain ⟨hp, hs⟩ := plain_join hne hall
  have hw : p.written = slash :: join [slash] (p.parts.map LinkPart.written ++ (p.rest.map (fun x => star :: x)).toList) := rfl
  rw [hw, routeSegs_plain hp, hs, List.map_append, List.map_map]
  unfold patSegs
  congr 1
  · exact List.map_congr_left (fun q hq => ginSeg_part (sound_part h hq).1 (sound_part h hq).2)
  · cases hr : p.rest with
    | none => rfl
    | some x =>
      simp only [Option.map_some, Option.toList_some, List.map_cons, List.map_nil]
      congr 1
      unfold ginSeg
      rw [if_neg (by simp [star, colon]), if_pos (show (star :: x).head? = some star from rfl)]
      refine trimSpace_ends (fun c hc => ?_) (fun c hc => ?_)
      · simp at hc; subst hc; unfold NonSpace; decide
      · rcases h.rest x hr with rfl | hx
        · simp at hc; subst hc; unfold NonSpace; decide
        · cases x with
          | nil => exact absurd rfl hx.1
          | cons a x =>
            rw [List.getLast?_cons_cons] at hc
            exact (linkName_byte hx c (List.mem_of_mem_getLast? hc)).2.2.2.2.2.2

/-! The link -/

theorem unescape_pathEscape_append (s t : Str) : unescape (pathEscape s ++ t) = (unescape t).map (s ++ ·) := by
  induction s with
  | nil => cases h : unescape t <;> simp [pathEscape, h]
  | cons c s ih =>
    rw [pathEscape_cons, List.append_assoc]
    unfold escByte
    split
    · obtain ⟨h1, h2⟩ := upperHex_hexOf c
      have : UInt8.ofNat (16 * (c.toNat / 16) + c.toNat % 16) = c := by
        rw [Nat.div_add_mod]; simp
      show unescape (37 :: upperHex (c.toNat / 16) :: upperHex (c.toNat % 16) :: (pathEscape s ++ t)) = _
      rw [unescape, if_pos rfl]
      simp only [h1, h2, ih, bind, Option.bind, pure, this]
      cases unescape t <;> rfl
    · rename_i h
      have := escapes_percent (Bool.eq_false_iff.2 h)
      show unescape (c :: (pathEscape s ++ t)) = _
      rw [unescape.eq_def]
      simp only [if_neg this, ih, bind, Option.bind, pure]
      cases unescape t <;> rfl

theorem unescape_link (l : List Str) : unescape (l.flatMap (fun s => [47] ++ pathEscape s)) = some (l.flatMap (fun s => [47] ++ s)) := by
  induction l with
  | nil => rfl
  | cons s l ih =>
    simp only [List.flatMap_cons, List.append_assoc]
    show unescape (47 :: (pathEscape s ++ _)) = _
    rw [unescape.eq_def]
    simp only [if_neg (show ¬ (47 : UInt8) = 37 by decide), unescape_pathEscape_append, ih, bind, Option.bind, pure, Option.map_some]
    rfl

theorem filled_ok {p : LinkPattern} (h : p.Sound) {env : Str → Str} {tail : List Str} (hf : p.Fits env tail) :
    p.filled env tail ≠ [] ∧ (∀ s ∈ p.filled env tail, slash ∉ s) ∧ (p.filled env tail).getLast? ≠ some [] := by
  have hparts : ∀ s ∈ p.parts.map (LinkPart.filled env), s ≠ [] ∧ slash ∉ s := by
    intro s hs
    obtain ⟨q, hq, rfl⟩ := List.mem_map.1 hs
    cases q with
    | text s => exact ⟨(h.text s hq).1, (h.text s hq).2.1⟩
    | hole g x => exact hf.value x (mem_holes hq)
  unfold LinkPattern.filled
  by_cases hr : p.rest = none
  · rw [if_pos hr]
    have hne : p.parts ≠ [] := h.some_part.resolve_right (fun hh => hh hr)
    simp only [List.append_nil]
    refine ⟨by simp [hne], fun s hs => (hparts s hs).2, fun hl => ?_⟩
    exact (hparts [] (List.mem_of_mem_getLast? hl)).1 rfl
  · rw [if_neg hr]
    obtain ⟨h1, h2, h3⟩ := hf.tail hr
    refine ⟨by simp [h1], fun s hs => ?_, ?_⟩
    · rcases List.mem_append.1 hs with hs | hs
      · exact (hparts s hs).2
      · exact h3 s hs
    · rw [List.getLast?_append]
      cases hl : tail.getLast? with
      | none => rw [List.getLast?_eq_none_iff] at hl; exact absurd hl h1
      | some a => rw [hl] at h2; simpa using h2

/-- the path of the link, as the server reads it, has the filled parts as segments -/
theorem link_read {p : LinkPattern} (h : p.Sound) {env : Str → Str} {tail : List Str} (hf : p.Fits env tail) {path : Str}
    (hp : unescape (p.link env tail) = some path) : pathSegs path = p.filled env tail := by
  obtain ⟨hne, hs, hl⟩ := filled_ok h hf
  unfold LinkPattern.link at hp
  rw [unescape_link] at hp
  cases hp
  have hj : (p.filled env tail).flatMap (fun s => [47] ++ s) = slash :: join [slash] (p.filled env tail) := (join_flatMap hne).symm
  rw [hj, pathSegs_plain, splitB_join hne hs]
  generalize p.filled env tail = l at *
  have key : ∀ l : List Str, l ≠ [] → (∀ s ∈ l, slash ∉ s) → l.getLast? ≠ some [] → (slash :: join [slash] l).getLast? ≠ some slash := by
    intro l
    induction l with
    | nil => intro h; exact absurd rfl h
    | cons a l ih =>
      intro _ hs hl
      cases l with
      | nil =>
        simp only [join]
        intro hh
        cases a with
        | nil => exact hl rfl
        | cons b a =>
          rw [List.getLast?_cons_cons] at hh
          exact hs (b :: a) (List.mem_cons_self ..) (List.mem_of_mem_getLast? hh)
      | cons b l =>
        rw [join_cons_ne (by simp)]
        have := ih (by simp) (fun s hs' => hs s (List.mem_cons_of_mem _ hs')) (by rwa [List.getLast?_cons_cons] at hl)
        have e : slash :: (a ++ [slash] ++ join [slash] (b :: l)) = (slash :: a) ++ (slash :: join [slash] (b :: l)) := by simp
        rw [e, List.getLast?_append]
        cases hg : (slash :: join [slash] (b :: l)).getLast? with
        | none => rw [List.getLast?_eq_none_iff] at hg; cases hg
        | some c => rw [hg] at this; simpa using this
  exact key l hne hs hl

theorem accepts_parts {rx : Regex} {env : Str → Str} {ps : List LinkPart}
    (hk : ∀ q ∈ ps, (∀ s, q = .text s → LinkText s) ∧ (∀ g x, q = .hole g x → LinkName x)) {r : Option Str} {tail : List Str}
    (hne : ps ≠ [] ∨ r ≠ none) (ht : r ≠ none → tail ≠ []) :
    Accepts rx (ps.map partSeg ++ (r.map (fun x => star :: x)).toList) (ps.map (LinkPart.filled env) ++ (if r = none then [] else tail)) := by
  have hseg : ∀ q ∈ ps, acceptsSeg rx (partSeg q) (q.filled env) := by
    intro q hq
    obtain ⟨h1, h2⟩ := part_kind (hk q hq).1 (hk q hq).2
    cases q with
    | text s => unfold acceptsSeg; rw [h1 s rfl]; rfl
    | hole g x => unfold acceptsSeg; rw [(h2 g x rfl).1]; trivial
  clear hk
  induction ps with
  | nil =>
    cases r with
    | none => simp at hne
    | some x =>
      simp only [List.map_nil, List.nil_append, Option.map_some, Option.toList_some]
      rw [if_neg (by simp)]
      obtain ⟨hk, _⟩ := star_kind x
      match tail, ht (by simp) with
      | [s], _ => exact .last (by unfold acceptsSeg; rw [hk]; trivial)
      | s :: t :: ss, _ => exact .rest hk
  | cons q ps ih =>
    have hq := hseg q (List.mem_cons_self ..)
    by_cases hlast : ps = [] ∧ r = none
    · obtain ⟨rfl, rfl⟩ := hlast
      exact .last hq
    · have hne' : ps ≠ [] ∨ r ≠ none := by
        by_cases h : ps = []
        · exact Or.inr (fun hr => hlast ⟨h, hr⟩)
        · exact Or.inl h
      have := ih hne' (fun q' hq' => hseg q' (List.mem_cons_of_mem _ hq'))
      simp only [List.map_cons, List.cons_append]
      revert this
      generalize ps.map partSeg ++ (r.map (fun x => star :: x)).toList = A
      generalize ps.map (LinkPart.filled env) ++ (if r = none then [] else tail) = B
      intro this
      cases this with
      | last h => exact .cons hq (.last h)
      | rest h => exact .cons hq (.rest h)
      | cons h1 h2 => exact .cons hq (.cons h1 h2)

theorem bind_part {rx : Regex} {g : Nat} {env : Str → Str} {q : LinkPart} (ht : ∀ s, q = .text s → LinkText s)
    (hh : ∀ g x, q = .hole g x → LinkName x) (rest av : Str) :
    bindSeg rx g (partSeg q) (q.filled env) rest av = (holesOf [q]).map (fun x => (x, env x)) := by
  obtain ⟨h1, h2⟩ := part_kind ht hh
  cases q with
  | text s => unfold bindSeg; rw [h1 s rfl]; rfl
  | hole b x =>
    obtain ⟨h3, h4⟩ := h2 b x rfl
    unfold bindSeg
    rw [h3, h4]
    dsimp only
    rw [if_neg (show ¬ x = underscore from (hh b x rfl).2.1)]
    rfl

theorem holes_cons (q : LinkPart) (ps : List LinkPart) : holesOf (q :: ps) = holesOf [q] ++ holesOf ps := by
  cases q <;> rfl

theorem bindings_parts {rx : Regex} {env : Str → Str} {ps : List LinkPart}
    (hk : ∀ q ∈ ps, (∀ s, q = .text s → LinkText s) ∧ (∀ g x, q = .hole g x → LinkName x)) {r : Option Str} {tail : List Str}
    (hr : ∀ x, r = some x → x = [] ∨ LinkName x) (hne : ps ≠ [] ∨ r ≠ none) (ht : r ≠ none → tail ≠ []) :
    bindings rx 0 (ps.map partSeg ++ (r.map (fun x => star :: x)).toList) (ps.map (LinkPart.filled env) ++ (if r = none then [] else tail)) =
      (holesOf ps).map (fun x => (x, env x)) ++ (r.map (fun x => (restKey x, join [slash] tail))).toList := by
  induction ps with
  | nil =>
    cases r with
    | none => simp at hne
    | some x =>
      simp only [List.map_nil, List.nil_append, Option.map_some, Option.toList_some, holesOf]
      rw [if_neg (by simp)]
      obtain ⟨h1, h2⟩ := star_kind x
      match tail, ht (by simp) with
      | s :: ss, _ =>
        show bindSeg rx 0 (star :: x) s (join [slash] (s :: ss)) (join [slash] (s :: ss)) = _
        unfold bindSeg
        rw [h1, h2]
        dsimp only
        unfold restKey
        rcases hr x rfl with rfl | hx
        · rw [if_pos rfl, if_pos rfl]; rfl
        · rw [if_neg hx.1, if_neg (show ¬ x = underscore from hx.2.1), if_neg hx.1]
  | cons q ps ih =>
    obtain ⟨k1, k2⟩ := hk q (List.mem_cons_self ..)
    rw [holes_cons, List.map_append]
    by_cases hlast : ps = [] ∧ r = none
    · obtain ⟨rfl, rfl⟩ := hlast
      simp only [List.map_cons, List.map_nil, Option.map_none, Option.toList_none, List.append_nil, if_true, holesOf]
      exact bind_part k1 k2 _ _
    · have hne' : ps ≠ [] ∨ r ≠ none := by
        by_cases h : ps = []
        · exact Or.inr (fun hr => hlast ⟨h, hr⟩)
        · exact Or.inl h
      have := ih (fun q' hq' => hk q' (List.mem_cons_of_mem _ hq')) hne'
      have hA : ps.map partSeg ++ (r.map (fun x => star :: x)).toList ≠ [] := by
        rcases hne' with h | h
        · simp [h]
        · cases r with
          | none => exact absurd rfl h
          | some x => simp
      simp only [List.map_cons, List.cons_append]
      revert this hA
      generalize ps.map partSeg ++ (r.map (fun x => star :: x)).toList = A
      generalize ps.map (LinkPart.filled env) ++ (if r = none then [] else tail) = B
      intro this hA
      cases A with
      | nil => exact absurd rfl hA
      | cons a A =>
        show bindSeg rx 0 (partSeg q) (q.filled env) _ _ ++ bindings rx (if kind (partSeg q) = .star then 0 + 1 else 0) (a :: A) B = _
        have hns : kind (partSeg q) ≠ .star := by
          obtain ⟨h1, h2⟩ := part_kind k1 k2
          cases q with
          | text s => rw [h1 s rfl]; decide
          | hole g x => rw [(h2 g x rfl).1]; decide
        rw [if_neg hns, this, bind_part k1 k2, List.append_assoc]

theorem restKey_fresh {p : LinkPattern} (h : p.Sound) : ((holesOf p.parts ++ (p.rest.map restKey).toList)).Nodup := by
  cases hr : p.rest with
  | none => have := h.distinct; rw [hr] at this; exact this
  | some x =>
    have hd := h.distinct
    rw [hr] at hd
    simp only [Option.toList_some, Option.map_some] at hd ⊢
    by_cases hx : x = []
    · subst hx
      rw [List.nodup_append] at hd ⊢
      refine ⟨hd.1, by simp, ?_⟩
      intro a ha b hb
      simp only [List.mem_singleton] at hb
      subst hb
      rintro rfl
      exact (linkName_byte (h.hole _ ha) star (by decide)).2.2.2.2.2.1 rfl
    · unfold restKey
      rw [if_neg hx]
      exact hd

/-- registrations of different segments: a registration is known by its segments -/
theorem only_one {rs : List (Route α)} {m : Str}
    (hinj : rs.Pairwise (fun a b => a.method = m → b.method = m → routeSegs a.uri ≠ routeSegs b.uri)) {v w : Route α} (hv : v ∈ rs) (hw : w ∈ rs)
    (h1 : v.method = m) (h2 : w.method = m) (h3 : routeSegs v.uri = routeSegs w.uri) : v = w := by
  induction rs with
  | nil => cases hv
  | cons r rs ih =>
    obtain ⟨p1, p2⟩ := List.pairwise_cons.1 hinj
    rcases List.mem_cons.1 hv with hv' | hv'
    · rcases List.mem_cons.1 hw with hw' | hw'
      · rw [hv', hw']
      · subst hv'; exact absurd h3 (p1 w hw' h1 h2)
    · rcases List.mem_cons.1 hw with hw' | hw'
      · subst hw'; exact absurd h3.symm (p1 v hv' h2 h1)
      · exact ih p2 hv' hw'

/-- C124: when a link leads back. `v` is registered with the pattern `p`, the link is made from `p` with values that fit, and the server reads
`path` from it. Then the request is served by `v` exactly if the pattern is the best one for the path (C86); and if so, every parameter has
the value that was filled in. `hinj`: no other registration for the method has the same segments (C14). Missing from the full claim: values
that are empty or contain a slash, and values that another pattern is better for; see `C124_refuted`. -/
theorem C124_link_partial {rx : Regex} {nf : List α} {rs : List (Route α)} {e : Engine α} (h : mkEngine rx false nf rs = .ok e)
    {v : Route α} (hv : v ∈ rs)
    (hinj : rs.Pairwise (fun a b => a.method = v.method → b.method = v.method → routeSegs a.uri ≠ routeSegs b.uri))
    {p : LinkPattern} (hs : p.Sound) (hw : v.uri = p.written) {env : Str → Str} {tail : List Str} (hf : p.Fits env tail) {path : Str}
    (hp : unescape (p.link env tail) = some path) :
    (((routeOf rx e v.method path).map (fun n => (n.handlers, n.uri)) = some (v.handlers, v.uri) ↔
      ∀ w ∈ rs, w.method = v.method → RouteAccepts rx w path → w = v ∨
        Wins (tableFor v.method rs) (p.filled env tail).length (routeSegs v.uri) (routeSegs w.uri)) ∧
    ((∀ w ∈ rs, w.method = v.method → RouteAccepts rx w path → w = v ∨
        Wins (tableFor v.method rs) (p.filled env tail).length (routeSegs v.uri) (routeSegs w.uri)) →
      ∃ ps, paramsOf rx e v.method path = some ps ∧ (∀ x ∈ holesOf p.parts, ps x = some (env x)) ∧
        ∀ x, p.rest = some x → ps (restKey x) = some (join [slash] tail))) := by
  have hsegs : routeSegs v.uri = patSegs p := by rw [hw]; exact pattern_segs hs
  have hpath := link_read hs hf hp
  have hk := fun q (hq : q ∈ p.parts) => sound_part hs hq
  have hacc : RouteAccepts rx v path := by
    unfold RouteAccepts
    rw [hsegs, hpath]
    exact accepts_parts hk hs.some_part (fun hr => (hf.tail hr).1)
  have hbest : (∀ w ∈ rs, w.method = v.method → RouteAccepts rx w path → w = v ∨
        Wins (tableFor v.method rs) (p.filled env tail).length (routeSegs v.uri) (routeSegs w.uri)) ↔
      Best rx (tableFor v.method rs) (pathSegs path) (routeSegs v.uri) := by
    constructor
    · intro hall
      refine ⟨⟨_, mem_tableFor.2 ⟨v, hv, rfl, rfl⟩, rfl⟩, hacc, fun x hx hxa => ?_⟩
      obtain ⟨w, hw', hwm, rfl⟩ := mem_tableFor.1 hx
      rcases hall w hw' hwm hxa with rfl | hwin
      · exact Or.inl rfl
      · rw [hpath]; exact Or.inr hwin
    · rintro ⟨_, _, hb⟩ w hw' hwm hwa
      rcases hb _ (mem_tableFor.2 ⟨w, hw', hwm, rfl⟩) hwa with he | hwin
      · exact Or.inl (only_one hinj hw' hv hwm rfl he)
      · rw [hpath] at hwin; exact Or.inr hwin
  have hserved : (routeOf rx e v.method path).map (fun n => (n.handlers, n.uri)) = some (v.handlers, v.uri) ↔
      Best rx (tableFor v.method rs) (pathSegs path) (routeSegs v.uri) := by
    constructor
    · intro hr
      obtain ⟨r, b1, _, b3⟩ := (C86_served h v.method path v.handlers v.uri).1 hr
      obtain ⟨w, hw', hwm, hwr, hwu⟩ := lastUri_mem b3
      rw [← hwr, hwu] at b1
      exact b1
    · intro hb
      obtain ⟨n, hn⟩ := C02_dispatch_complete h hv hacc
      have hc := (C86_served h v.method path n.handlers n.uri).1 (by rw [hn]; rfl)
      obtain ⟨r, b1, b2, b3⟩ := hc
      obtain rfl := best_unique b1 hb
      obtain ⟨w, hw1, hw2, hw3, hw4⟩ := firstHandlers_mem b2
      obtain ⟨u, hu1, hu2, hu3, hu4⟩ := lastUri_mem b3
      rw [hn]
      show some (n.handlers, n.uri) = _
      rw [← hw4, ← hu4, only_one hinj hw1 hv hw2 rfl hw3, only_one hinj hu1 hv hu2 rfl hu3]
  refine ⟨hserved.trans hbest.symm, fun hall => ?_⟩
  have hr := hserved.2 (hbest.1 hall)
  cases hn : routeOf rx e v.method path with
  | none => rw [hn] at hr; cases hr
  | some n =>
    rw [hn] at hr
    simp only [Option.map_some, Option.some.injEq, Prod.mk.injEq] at hr
    obtain ⟨w, hw1, hw2, hw3, _, ps, hps, hval⟩ := C06_param_values_partial h hn
    have hwseg : routeSegs w.uri = patSegs p := by rw [hw3, hr.2, hsegs]
    have hb := bindings_parts (rx := rx) (env := env) hk (tail := tail) hs.rest hs.some_part (fun hr => (hf.tail hr).1)
    rw [hwseg, hpath] at hval
    have hb' : bindings rx 0 (patSegs p) (p.filled env tail) =
      (holesOf p.parts).map (fun x => (x, env x)) ++ (p.rest.map (fun x => (restKey x, join [slash] tail))).toList := hb
    rw [hb'] at hval
    have hno : ∀ x, ¬ InnerRegexName (patSegs p) x := by
      rintro x ⟨c, s, q, rest, he, hks, _⟩
      have hm : s ∈ patSegs p := by rw [he]; simp
      unfold patSegs at hm
      rcases List.mem_append.1 hm with hm | hm
      · obtain ⟨q, hq, rfl⟩ := List.mem_map.1 hm
        obtain ⟨h1, h2⟩ := part_kind (hk q hq).1 (hk q hq).2
        cases q with
        | text s => rw [h1 s rfl] at hks; cases hks
        | hole g x => rw [(h2 g x rfl).1] at hks; cases hks
      · cases hr' : p.rest with
        | none => rw [hr'] at hm; cases hm
        | some x =>
          rw [hr'] at hm
          simp only [Option.map_some, Option.toList_some, List.mem_singleton] at hm
          subst hm
          rw [(star_kind x).1] at hks
          cases hks
    have hnd : (((holesOf p.parts).map (fun x => (x, env x)) ++ (p.rest.map (fun x => (restKey x, join [slash] tail))).toList).map Prod.fst).Nodup := by
      have := restKey_fresh hs
      rw [List.map_append, List.map_map]
      have e1 : (holesOf p.parts).map (Prod.fst ∘ fun x => (x, env x)) = holesOf p.parts := List.map_id _
      have e2 : (p.rest.map (fun x => (restKey x, join [slash] tail))).toList.map Prod.fst = (p.rest.map restKey).toList := by
        cases p.rest <;> rfl
      rw [e1, e2]
      exact this
    refine ⟨ps, hps, fun x hx => ?_, fun x hx => ?_⟩
    · exact hval hnd x (env x) (List.mem_append_left _ (List.mem_map.2 ⟨x, hx, rfl⟩)) (fun hi => absurd hi (hno x))
    · exact hval hnd (restKey x) _ (List.mem_append_right _ (by rw [hx]; simp)) (fun hi => absurd hi (hno _))

/-- C124: if no other pattern accepts the path of the link, the link leads back, with every value. -/
theorem C124_alone {rx : Regex} {nf : List α} {rs : List (Route α)} {e : Engine α} (h : mkEngine rx false nf rs = .ok e)
    {v : Route α} (hv : v ∈ rs)
    (hinj : rs.Pairwise (fun a b => a.method = v.method → b.method = v.method → routeSegs a.uri ≠ routeSegs b.uri))
    {p : LinkPattern} (hs : p.Sound) (hw : v.uri = p.written) {env : Str → Str} {tail : List Str} (hf : p.Fits env tail) {path : Str}
    (hp : unescape (p.link env tail) = some path) (ho : ∀ w ∈ rs, w.method = v.method → RouteAccepts rx w path → w = v) :
    (routeOf rx e v.method path).map (fun n => (n.handlers, n.uri)) = some (v.handlers, v.uri) ∧
    ∃ ps, paramsOf rx e v.method path = some ps ∧ (∀ x ∈ holesOf p.parts, ps x = some (env x)) ∧
      ∀ x, p.rest = some x → ps (restKey x) = some (join [slash] tail) := by
  obtain ⟨h1, h2⟩ := C124_link_partial h hv hinj hs hw hf hp
  have ha : ∀ w ∈ rs, w.method = v.method → RouteAccepts rx w path → w = v ∨
      Wins (tableFor v.method rs) (p.filled env tail).length (routeSegs v.uri) (routeSegs w.uri) :=
    fun w hw hm hacc => Or.inl (ho w hw hm hacc)
  exact ⟨h1.2 ha, h2 ha⟩

/-- C124: a link is read by the server, whatever the values are: its escapes are whole. -/
theorem C124_readable (p : LinkPattern) (env : Str → Str) (tail : List Str) : ∃ path, unescape (p.link env tail) = some path :=
  ⟨_, unescape_link _⟩

theorem filled_agree {env env' : Str → Str} {ps : List LinkPart} {t t' : List Str}
    (h : ps.map (LinkPart.filled env) ++ t = ps.map (LinkPart.filled env') ++ t') : (∀ x ∈ holesOf ps, env x = env' x) ∧ t = t' := by
  induction ps with
  | nil => exact ⟨fun _ hx => (nomatch hx), h⟩
  | cons q ps ih =>
    simp only [List.map_cons, List.cons_append, List.cons.injEq] at h
    obtain ⟨h1, h2⟩ := ih h.2
    refine ⟨?_, h2⟩
    cases q with
    | text s => exact h1
    | hole g y =>
      intro x hx
      rcases List.mem_cons.1 hx with hx | hx
      · subst hx; exact h.1
      · exact h1 x hx

/-- C124: different values give different links. -/
theorem C124_different {p : LinkPattern} (hs : p.Sound) {env env' : Str → Str} {tail tail' : List Str} (hf : p.Fits env tail) (hf' : p.Fits env' tail')
    (he : p.link env tail = p.link env' tail') : (∀ x ∈ holesOf p.parts, env x = env' x) ∧ (p.rest ≠ none → tail = tail') := by
  obtain ⟨path, hp⟩ := C124_readable p env tail
  have h1 := link_read hs hf hp
  rw [he] at hp
  have h2 := link_read hs hf' hp
  obtain ⟨h3, h4⟩ := filled_agree (h1.symm.trans h2)
  refine ⟨h3, fun hr => ?_⟩
  rwa [if_neg hr, if_neg hr] at h4

namespace Demo

/-- `/shop/:cat/<item-id>/*file` -/
def shopLink : LinkPattern := ⟨[.text b!"shop", .hole true b!"cat", .hole false b!"item-id"], some b!"file"⟩

/-- `/shop/<id>` -/
def itemLink : LinkPattern := ⟨[.text b!"shop", .hole false b!"id"], none⟩

/-- values with spaces, percent signs and other bytes -/
def shopEnv : Str → Str := fun x => if x = b!"cat" then b!"50% off?" else if x = b!"item-id" then b!"<a:b>" else []

theorem shopLink_sound : shopLink.Sound where
  some_part := Or.inl (by simp [shopLink])
  text := by
    intro s hs
    simp only [shopLink, List.mem_cons, reduceCtorEq, List.not_mem_nil, or_false, LinkPart.text.injEq] at hs
    subst hs
    unfold LinkText
    decide +kernel
  hole := by
    intro x hx
    simp only [shopLink, holesOf, List.mem_cons, List.not_mem_nil, or_false] at hx
    rcases hx with rfl | rfl <;> (unfold LinkName; decide +kernel)
  rest := by
    intro x hx
    simp only [shopLink, Option.some.injEq] at hx
    subst hx
    right
    unfold LinkName
    decide +kernel
  distinct := by decide +kernel

theorem itemLink_sound : itemLink.Sound where
  some_part := Or.inl (by simp [itemLink])
  text := by
    intro s hs
    simp only [itemLink, List.mem_cons, reduceCtorEq, List.not_mem_nil, or_false, LinkPart.text.injEq] at hs
    subst hs
    unfold LinkText
    decide +kernel
  hole := by
    intro x hx
    simp only [itemLink, holesOf, List.mem_cons, List.not_mem_nil, or_false] at hx
    subst hx
    unfold LinkName
    decide +kernel
  rest := by intro x hx; cases hx
  distinct := by decide +kernel

theorem shopLink_fits : shopLink.Fits shopEnv [b!"a b", [], b!"c"] where
  value := by
    intro x hx
    simp only [shopLink, holesOf, List.mem_cons, List.not_mem_nil, or_false] at hx
    rcases hx with rfl | rfl <;> decide +kernel
  tail := fun _ => by decide +kernel

end Demo

/-! The pattern, a link with awkward values, and the request for it. -/
example : shopLink.written = b!"/shop/:cat/<item-id>/*file" ∧
    shopLink.link shopEnv [b!"a b", [], b!"c"] = b!"/shop/50%25%20off%3F/%3Ca:b%3E/a%20b//c" := by decide +kernel

example : withEngine false [get b!"/shop/<id>" [1], get shopLink.written [2], get b!"/*" [3]] (fun e =>
    match unescape (shopLink.link shopEnv [b!"a b", [], b!"c"]) with
    | none => false
    | some path => Demo.run e mGET path == some [2] && full e mGET path == some shopLink.written &&
        param e mGET path b!"cat" == some b!"50% off?" && param e mGET path b!"item-id" == some b!"<a:b>" &&
        param e mGET path b!"file" == some b!"a b//c") = true := by decide +kernel

/-- C124 as the author of the links would like it: any values lead back. -/
def C124_claim : Prop := ∀ (rx : Regex) (nf : List Nat) (rs : List (Route Nat)) (e : Engine Nat), mkEngine rx false nf rs = .ok e →
  ∀ v ∈ rs, rs.Pairwise (fun a b => a.method = v.method → b.method = v.method → routeSegs a.uri ≠ routeSegs b.uri) →
  ∀ p : LinkPattern, p.Sound → v.uri = p.written → ∀ (env : Str → Str) (tail : List Str) (path : Str), unescape (p.link env tail) = some path →
    (routeOf rx e v.method path).map (·.handlers) = some v.handlers

theorem link_refute {rs : List (Route Nat)} {v : Route Nat} (hv : v ∈ rs)
    (hinj : rs.Pairwise (fun a b => a.method = v.method → b.method = v.method → routeSegs a.uri ≠ routeSegs b.uri))
    {p : LinkPattern} (hs : p.Sound) (hw : v.uri = p.written) (env : Str → Str) (tail : List Str) {path : Str}
    (hp : unescape (p.link env tail) = some path) (h : withEngine false rs (fun e => Demo.run e v.method path != some v.handlers) = true) :
    ¬ C124_claim := by
  intro hall
  obtain ⟨e, he, hr⟩ := withEngine_spec h
  have := hall rx [] rs e he v hv hinj p hs hw env tail path hp
  unfold Demo.run at hr
  rw [this] at hr
  simp at hr

/-- C124 is false: `PathEscape` writes a slash in a value as `%2F`, but the routes are matched against the path after it was read, so the
value becomes two segments: `/shop/a%2Fb` is not found. -/
theorem C124_refuted : ¬ C124_claim :=
  link_refute (rs := [get b!"/shop/<id>" [1]]) (v := get b!"/shop/<id>" [1]) (List.mem_cons_self ..) (List.pairwise_singleton ..)
    itemLink_sound (by decide +kernel) (fun _ => b!"a/b") [] (path := b!"/shop/a/b") (by decide +kernel) (by decide +kernel)

/-- C124: an empty value at the end is lost: `/shop/` is read as `/shop`. -/
theorem C124_refuted_empty : ¬ C124_claim :=
  link_refute (rs := [get b!"/shop/<id>" [1]]) (v := get b!"/shop/<id>" [1]) (List.mem_cons_self ..) (List.pairwise_singleton ..)
    itemLink_sound (by decide +kernel) (fun _ => []) [] (path := b!"/shop/") (by decide +kernel) (by decide +kernel)

/-- C124: a value that is the text of another pattern leads to that one: an item named `new` cannot be shown next to `/shop/new`. -/
theorem C124_refuted_taken : ¬ C124_claim :=
  link_refute (rs := [get b!"/shop/<id>" [1], get b!"/shop/new" [2]]) (v := get b!"/shop/<id>" [1]) (List.mem_cons_self ..)
    (by
      refine List.pairwise_cons.2 ⟨fun w hw _ _ => ?_, List.pairwise_singleton ..⟩
      rw [List.mem_singleton] at hw
      subst hw
      decide +kernel)
    itemLink_sound (by decide +kernel) (fun _ => b!"new") [] (path := b!"/shop/new") (by decide +kernel) (by decide +kernel)

end Water
