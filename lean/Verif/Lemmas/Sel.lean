import Verif.Lemmas.Segs
import Verif.Spec.Table
/- Helper lemmas: segment-level selection, independent of the parameter map. -/
namespace Water
open Spec
variable {α : Type}

/-- acceptance of a path segment by an analysed pattern segment -/
def segAcc (rx : Regex) (seg : Seg) (s : Str) : Bool :=
  match seg.typ with
  | .static => seg.pattern == s
  | .regexp => ((rx.find seg.reg s).length : Int) - 1 == seg.wildcards.length
  | .holder => true
  | .matchAll => true

/-- fallback at the end of a sub-node search -/
def lastStar (ends : List (EndNode α)) : Option (List Str × EndNode α) :=
  match ends.getLast? with
  | some e => if e.seg.typ = .matchAll then some ([e.seg.pattern], e) else none
  | none => none

mutual
/-- selection on path segments, returning also the segments of the selected route -/
def sel (rx : Regex) : Node α → List Str → Option (List Str × EndNode α)
  | .mk _ _ _, [] => none
  | .mk _ _ ends, [s] => (ends.find? (fun e => segAcc rx e.seg s)).map (fun e => ([e.seg.pattern], e))
  | .mk _ subs ends, s :: t :: ss => (selSubs rx subs s (t :: ss)).or (lastStar ends)

/-- first sub node that accepts the segment and selects something below -/
def selSubs (rx : Regex) : List (Node α) → Str → List Str → Option (List Str × EndNode α)
  | [], _, _ => none
  | n :: ns, s, rest =>
    if segAcc rx n.seg s then
      match sel rx n rest with
      | some (r, e) => some (n.seg.pattern :: r, e)
      | none => selSubs rx ns s rest
    else selSubs rx ns s rest
end

theorem matchEnds_snd (rx : Regex) (g : Nat) (uri : Str) (ends : List (EndNode α)) (ps : Params) :
    (matchEnds rx g uri ends ps).2 = ends.find? (fun e => segAcc rx e.seg uri) := by
  induction ends generalizing ps with
  | nil => rfl
  | cons e es ih =>
    unfold matchEnds
    rw [List.find?_cons]
    cases ht : e.seg.typ with
    | static =>
      have hb : segAcc rx e.seg uri = (e.seg.pattern == uri) := by unfold segAcc; rw [ht]
      simp only [hb]
      by_cases h : e.seg.pattern = uri
      · simp [h]
      · rw [if_neg h, ih, show (e.seg.pattern == uri) = false by simpa using h]
    | regexp =>
      have hb : segAcc rx e.seg uri =
        (((rx.find e.seg.reg uri).length : Int) - 1 == e.seg.wildcards.length) := by unfold segAcc; rw [ht]
      simp only [hb]
      by_cases h : ((rx.find e.seg.reg uri).length : Int) - 1 = e.seg.wildcards.length
      · simp [h]
      · rw [if_pos h, ih, show (((rx.find e.seg.reg uri).length : Int) - 1 == e.seg.wildcards.length) = false
          by simpa using h]
    | holder => have hb : segAcc rx e.seg uri = true := by unfold segAcc; rw [ht]
                simp [hb]
    | matchAll => have hb : segAcc rx e.seg uri = true := by unfold segAcc; rw [ht]
                  simp [hb]

theorem matchFallback_snd (g : Nat) (rest : Str) (ends : List (EndNode α)) (ps : Params) :
    (matchFallback g rest ends ps).2 = (lastStar ends).map (·.2) := by
  unfold matchFallback lastStar
  cases ends.getLast? with
  | none => rfl
  | some e => simp only []; split <;> rfl

mutual
theorem matchNext_snd (rx : Regex) (n : Node α) (g : Nat) (uri : Str) (ps : Params) :
    (matchNext rx n g uri ps).2 = (sel rx n (splitB slash uri)).map (·.2) := by
  cases n with
  | mk seg subs ends =>
    unfold matchNext
    cases hi : indexByte uri slash with
    | none =>
      simp only []
      rw [splitB_index_none hi, matchEnds_snd, sel, Option.map_map]
      simp [Function.comp_def]
    | some i =>
      simp only []
      rw [splitB_index_some hi, matchSubs_snd]
      cases hs : splitB slash (uri.drop (i + 1)) with
      | nil => exact absurd hs (splitB_ne_nil _ _)
      | cons t ss =>
        rw [sel]
theorem matchSubs_snd (rx : Regex) (subs : List (Node α)) (ends : List (EndNode α)) (g : Nat) (s uri : Str)
    (ps : Params) :
    (matchSubs rx subs ends g s uri ps).2 =
      ((selSubs rx subs s (splitB slash uri)).or (lastStar ends)).map (·.2) := by
  cases subs with
  | nil => unfold matchSubs selSubs; rw [matchFallback_snd]; rfl
  | cons n ns =>
    unfold matchSubs selSubs segAcc
    have ih1 := fun g' ps' => matchNext_snd rx n g' uri ps'
    have ih2 := fun ps' => matchSubs_snd rx ns ends g s uri ps'
    cases ht : n.seg.typ with
    | static =>
      simp only []
      by_cases h : n.seg.pattern = s
      · simp only [h, if_true, beq_self_eq_true]
        have := ih1 g ps
        rcases hm : matchNext rx n g uri ps with ⟨ps', _ | e⟩ <;> rw [hm] at this <;>
          rcases hs : sel rx n (splitB slash uri) with _ | ⟨r, e'⟩ <;> rw [hs] at this <;> simp at this ⊢
        · simpa using ih2 ps'
        · exact this
      · simpa [h] using ih2 ps
    | regexp =>
      simp only []
      by_cases h : ((rx.find n.seg.reg s).length : Int) - 1 = n.seg.wildcards.length
      · simp only [h, ne_eq, not_true_eq_false, if_false, beq_self_eq_true, if_true]
        have := ih1 g (setAll ps n.seg.wildcards ((rx.find n.seg.reg s).drop 1))
        rcases hm : matchNext rx n g uri _ with ⟨ps', _ | e⟩ <;> rw [hm] at this <;>
          rcases hs : sel rx n (splitB slash uri) with _ | ⟨r, e'⟩ <;> rw [hs] at this <;> simp at this ⊢
        · simpa using ih2 ps'
        · exact this
      · simpa [h] using ih2 ps
    | holder =>
      simp only [if_true]
      have := ih1 g ps
      rcases hm : matchNext rx n g uri ps with ⟨ps', _ | e⟩ <;> rw [hm] at this <;>
        rcases hs : sel rx n (splitB slash uri) with _ | ⟨r, e'⟩ <;> rw [hs] at this <;> simp at this ⊢
      · simpa using ih2 ps'
      · exact this
    | matchAll =>
      simp only [if_true]
      have := ih1 (g + 1) ps
      rcases hm : matchNext rx n (g + 1) uri ps with ⟨ps', _ | e⟩ <;> rw [hm] at this <;>
        rcases hs : sel rx n (splitB slash uri) with _ | ⟨r, e'⟩ <;> rw [hs] at this <;> simp at this ⊢
      · simpa using ih2 ps'
      · exact this
end

end Water
