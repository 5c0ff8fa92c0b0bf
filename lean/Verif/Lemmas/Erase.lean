import Verif.Lemmas.Literal
/- Helper lemmas: routing does not depend on the `uri` recorded for reporting. -/
namespace Water
open Spec
variable {α : Type}

def eraseEnd (e : EndNode α) : EndNode α := { e with uri := [] }

mutual
def eraseN : Node α → Node α
  | .mk seg subs ends => .mk seg (eraseL subs) (ends.map eraseEnd)
def eraseL : List (Node α) → List (Node α)
  | [] => []
  | n :: ns => eraseN n :: eraseL ns
end

theorem eraseL_eq (l : List (Node α)) : eraseL l = l.map eraseN := by
  induction l with
  | nil => rfl
  | cons n ns ih => simp [eraseL, ih]

@[simp] theorem eraseN_seg (n : Node α) : (eraseN n).seg = n.seg := by cases n; rfl
@[simp] theorem eraseEnd_seg (n : EndNode α) : (eraseEnd n).seg = n.seg := rfl
@[simp] theorem eraseEnd_handlers (n : EndNode α) : (eraseEnd n).handlers = n.handlers := rfl

theorem insertOrd_map {β : Type} {typ : β → PTyp} {f : β → β} (hf : ∀ x, typ (f x) = typ x) (x : β) (l : List β) :
    (insertOrd typ x l).map f = insertOrd typ (f x) (l.map f) := by
  induction l with
  | nil => rfl
  | cons y ys ih =>
    simp only [insertOrd, List.map_cons, hf]
    split
    · simp
    · simp [ih]

theorem findIdx?_map_of {β : Type} {p : β → Bool} {f : β → β} (hf : ∀ x, p (f x) = p x) (l : List β) :
    (l.map f).findIdx? p = l.findIdx? p := by
  induction l with
  | nil => rfl
  | cons y ys ih => simp [List.findIdx?_cons, hf, ih]

theorem find?_map_of {β : Type} {p : β → Bool} {f : β → β} (hf : ∀ x, p (f x) = p x) (l : List β) :
    (l.map f).find? p = (l.find? p).map f := by
  induction l with
  | nil => rfl
  | cons y ys ih => simp only [List.map_cons, List.find?_cons, hf]; split <;> simp_all

theorem addEnd_erase (rx : Regex) (ends : List (EndNode α)) (p : Str) (h : List α) (u : Str) :
    (addEnd rx ends p h u).map (List.map eraseEnd) = addEnd rx (ends.map eraseEnd) p h [] := by
  unfold addEnd
  rw [findIdx?_map_of (by intro x; rfl)]
  cases ends.findIdx? (fun e => e.seg.pattern == p) with
  | some i =>
    simp only [Except.map]
    congr 1
    apply List.ext_getElem
    · simp
    · intro j h1 h2
      simp only [List.getElem_map, List.getElem_modify]
      split <;> rfl
  | none =>
    cases hs : analyzePattern rx p with
    | error e => simp [Except.map, bind, Except.bind]
    | ok seg =>
      simp only [Except.map, bind, Except.bind, pure, Except.pure]
      rw [insertOrd_map (by intro x; rfl)]
      rfl

theorem addSegs_erase (rx : Regex) (h : List α) (u : Str) (segs : List Str) (n : Node α) :
    (addSegs rx h u segs n).map eraseN = addSegs rx h [] segs (eraseN n) := by
  match segs, n with
  | [], n => simp [addSegs, Except.map]
  | [p], .mk seg subs ends =>
    simp only [addSegs, eraseN]
    rw [← addEnd_erase rx ends p h u]
    cases addEnd rx ends p h u with
    | error e => rfl
    | ok ends' => rfl
  | p :: q :: rest, .mk seg subs ends =>
    have ih := fun n => addSegs_erase rx h u (q :: rest) n
    simp only [addSegs, eraseN, eraseL_eq]
    rw [findIdx?_map_of (by intro x; simp)]
    cases hf : subs.findIdx? (fun n => n.seg.pattern == p) with
    | some i =>
      simp only [List.getElem?_map]
      cases hg : subs[i]? with
      | none => simp [Except.map, pure, Except.pure, eraseN, eraseL_eq]
      | some sub =>
        simp only [Option.map_some]
        rw [← ih sub]
        cases addSegs rx h u (q :: rest) sub with
        | error e => rfl
        | ok sub' =>
          simp only [Except.map, bind, Except.bind, pure, Except.pure, eraseN, eraseL_eq]
          rw [List.map_set]
    | none =>
      simp only []
      cases hs : analyzePattern rx p with
      | error e => rfl
      | ok sseg =>
        simp only [bind, Except.bind]
        have h2 := ih (.mk sseg [] [])
        simp only [eraseN, eraseL, List.map_nil] at h2
        rw [← h2]
        cases addSegs rx h u (q :: rest) (.mk sseg [] []) with
        | error e => rfl
        | ok sub' =>
          simp only [Except.map, pure, Except.pure, eraseN, eraseL_eq]
          rw [insertOrd_map (by intro x; simp)]

theorem matchEnds_erase (rx : Regex) (g : Nat) (uri : Str) (ends : List (EndNode α)) (ps : Params) :
    matchEnds rx g uri (ends.map eraseEnd) ps =
      ((matchEnds rx g uri ends ps).1, (matchEnds rx g uri ends ps).2.map eraseEnd) := by
  induction ends generalizing ps with
  | nil => rfl
  | cons e es ih =>
    simp only [List.map_cons, matchEnds, eraseEnd_seg]
    cases e.seg.typ with
    | static =>
      simp only []
      by_cases hp : e.seg.pattern = uri
      · simp [hp]
      · simp only [hp, if_false]; exact ih ps
    | regexp =>
      simp only []
      by_cases hp : ((rx.find e.seg.reg uri).length : Int) - 1 ≠ e.seg.wildcards.length
      · simp only [hp, if_true, not_false_eq_true, ne_eq]; exact ih ps
      · simp [hp]
    | holder => rfl
    | matchAll => rfl

theorem matchFallback_erase (g : Nat) (rest : Str) (ends : List (EndNode α)) (ps : Params) :
    matchFallback g rest (ends.map eraseEnd) ps =
      ((matchFallback g rest ends ps).1, (matchFallback g rest ends ps).2.map eraseEnd) := by
  unfold matchFallback
  rw [List.getLast?_map]
  cases ends.getLast? with
  | none => rfl
  | some e =>
    simp only [Option.map_some, eraseEnd_seg]
    by_cases hp : e.seg.typ = .matchAll
    · simp [hp]
    · simp [hp]

mutual
theorem matchNext_erase (rx : Regex) (n : Node α) (g : Nat) (uri : Str) (ps : Params) :
    matchNext rx (eraseN n) g uri ps =
      ((matchNext rx n g uri ps).1, (matchNext rx n g uri ps).2.map eraseEnd) := by
  cases n with
  | mk seg subs ends =>
    simp only [eraseN, matchNext]
    split
    · exact matchEnds_erase rx g uri ends ps
    · exact matchSubs_erase rx subs ends g _ _ ps
theorem matchSubs_erase (rx : Regex) (subs : List (Node α)) (ends : List (EndNode α)) (g : Nat) (s uri : Str)
    (ps : Params) :
    matchSubs rx (eraseL subs) (ends.map eraseEnd) g s uri ps =
      ((matchSubs rx subs ends g s uri ps).1, (matchSubs rx subs ends g s uri ps).2.map eraseEnd) := by
  cases subs with
  | nil => simp only [eraseL, matchSubs]; exact matchFallback_erase g _ ends ps
  | cons n ns =>
    have h1 := fun g ps => matchNext_erase rx n g uri ps
    have h2 := fun ps => matchSubs_erase rx ns ends g s uri ps
    simp only [eraseL, matchSubs, eraseN_seg, h1]
    cases n.seg.typ
    · simp only []
      by_cases hp : n.seg.pattern = s
      · simp only [hp, if_true]
        rcases matchNext rx n g uri ps with ⟨ps', _ | e⟩
        · exact h2 ps'
        · rfl
      · simp only [hp, if_false]; exact h2 ps
    · simp only []
      by_cases hp : ((rx.find n.seg.reg s).length : Int) - 1 ≠ n.seg.wildcards.length
      · simp only [hp, if_true, not_false_eq_true, ne_eq]; exact h2 ps
      · simp only [hp, if_false]
        rcases matchNext rx n g uri (setAll ps n.seg.wildcards ((rx.find n.seg.reg s).drop 1)) with ⟨ps', _ | e⟩
        · exact h2 ps'
        · rfl
    · rcases matchNext rx n g uri ps with ⟨ps', _ | e⟩
      · exact h2 ps'
      · rfl
    · rcases matchNext rx n (g + 1) uri ps with ⟨ps', _ | e⟩
      · exact h2 ps'
      · rfl
end

theorem endAt_erase (segs : List Str) (n : Node α) : endAt segs (eraseN n) = (endAt segs n).map eraseEnd := by
  match segs, n with
  | [], n => rfl
  | [p], .mk seg subs ends =>
    simp only [eraseN, endAt]
    exact find?_map_of (by intro x; rfl) ends
  | p :: q :: rest, .mk seg subs ends =>
    simp only [eraseN, endAt, eraseL_eq]
    rw [find?_map_of (by intro x; simp)]
    cases subs.find? (fun n => n.seg.pattern == p) with
    | none => rfl
    | some n => exact endAt_erase (q :: rest) n

theorem staticPath_erase (segs : List Str) (n : Node α) : staticPath segs (eraseN n) = staticPath segs n := by
  match segs, n with
  | [], n => cases n; rfl
  | [p], .mk seg subs ends =>
    simp only [eraseN, staticPath]
    rw [find?_map_of (by intro x; rfl)]
    cases ends.find? (fun n => n.seg.pattern == p) <;> rfl
  | p :: q :: rest, .mk seg subs ends =>
    simp only [eraseN, staticPath, eraseL_eq]
    rw [find?_map_of (by intro x; simp)]
    cases subs.find? (fun n => n.seg.pattern == p) with
    | none => rfl
    | some n => simp only [Option.map_some]; rw [staticPath_erase (q :: rest) n]

def eraseE (e : Engine α) : Engine α := { e with trees := fun i => (e.trees i).map eraseN }

theorem newTree_erase : eraseN (newTree (α := α)) = newTree := rfl

theorem buildStep_erase (rx : Regex) (e : Engine α) (v : Route α) :
    (buildStep rx e v).map eraseE = buildStep rx (eraseE e) { v with uri := [] } := by
  unfold buildStep
  cases methodIndex v.method with
  | none => rfl
  | some i =>
    simp only [bind, Except.bind, pure, Except.pure]
    have ht : ((eraseE e).trees i).getD newTree = eraseN ((e.trees i).getD newTree) := by
      simp only [eraseE]
      cases e.trees i <;> rfl
    rw [ht]
    unfold Node.add
    rw [← addSegs_erase rx v.handlers v.uri]
    cases addSegs rx v.handlers v.uri (addSegments v.variant) ((e.trees i).getD newTree) with
    | error er => rfl
    | ok t' =>
      simp only [Except.map]
      rw [staticPath_erase]
      have hs : (fun j => (setAt e.trees i (some t') j).map eraseN) =
          setAt (eraseE e).trees i (some (eraseN t')) := by
        funext j; unfold setAt; split <;> rfl
      have hst : (eraseE e).enableStatic = e.enableStatic := rfl
      rw [hst]
      cases e.enableStatic && staticPath (addSegments v.variant) t'
      · simp only [eraseE, if_false, Bool.false_eq_true, Except.ok.injEq, Engine.mk.injEq, true_and, and_true]
        exact hs
      · simp only [eraseE, if_true, Except.ok.injEq, Engine.mk.injEq, true_and, and_true]
        exact hs

theorem buildTree_erase (rx : Regex) (vs : List (Route α)) (e : Engine α) :
    (buildTree rx e vs).map eraseE = buildTree rx (eraseE e) (vs.map (fun v => { v with uri := [] })) := by
  induction vs generalizing e with
  | nil => rfl
  | cons v vs ih =>
    simp only [buildTree, List.map_cons]
    rw [← buildStep_erase]
    cases buildStep rx e v with
    | error er => rfl
    | ok e1 => exact ih e1

theorem lookup_erase (rx : Regex) (e : Engine α) (i : Nat) (path : Str) :
    lookup rx (eraseE e) i path = ((lookup rx e i path).1.map eraseEnd, (lookup rx e i path).2) := by
  unfold lookup
  have h1 : (eraseE e).enableStatic = e.enableStatic := rfl
  have h2 : (eraseE e).statics = e.statics := rfl
  have h3 : (eraseE e).trees i = (e.trees i).map eraseN := rfl
  rw [h1, h2, h3]
  cases ht : e.trees i with
  | none =>
    simp only [Option.map_none]
    cases e.enableStatic <;> simp
  | some t =>
    simp only [Option.map_some, matchUri]
    have hm := matchNext_erase rx t 0 (trimSuffix (trimPrefix path [slash]) [slash]) Map.empty
    cases e.enableStatic with
    | false => simp [hm]
    | true =>
      simp only [if_true]
      cases e.statics i path with
      | none => simp [hm]
      | some segs =>
        simp only []
        rw [endAt_erase]
        cases endAt segs t with
        | none => simp [hm]
        | some n => simp

end Water
