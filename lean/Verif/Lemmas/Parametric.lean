import Verif.Model.Engine
/-
The trees and the lookup treat handlers as opaque values.
-/
namespace Water
variable {α β : Type}

def EndNode.map (f : α → β) (e : EndNode α) : EndNode β := { seg := e.seg, handlers := e.handlers.map f, uri := e.uri }

mutual
def Node.map (f : α → β) : Node α → Node β
  | .mk seg subs ends => .mk seg (Node.mapAll f subs) (ends.map (EndNode.map f))

def Node.mapAll (f : α → β) : List (Node α) → List (Node β)
  | [] => []
  | n :: ns => Node.map f n :: Node.mapAll f ns
end

theorem Node.mapAll_eq (f : α → β) : ∀ ns : List (Node α), Node.mapAll f ns = ns.map (Node.map f)
  | [] => rfl
  | n :: ns => by rw [Node.mapAll, List.map_cons, Node.mapAll_eq f ns]

def Engine.map (f : α → β) (e : Engine α) : Engine β :=
  { enableStatic := e.enableStatic, noFound := e.noFound.map f, trees := fun i => (e.trees i).map (Node.map f), statics := e.statics }

def Route.map (f : α → β) (r : Route α) : Route β :=
  { method := r.method, uri := r.uri, handlers := r.handlers.map f, variant := r.variant }

@[simp] theorem EndNode.map_seg (f : α → β) (e : EndNode α) : (e.map f).seg = e.seg := rfl

theorem Node.map_seg (f : α → β) : ∀ n : Node α, (n.map f).seg = n.seg
  | .mk _ _ _ => by rw [Node.map]; rfl

/-- a search result under `f` -/
def upHit (f : α → β) (r : Params × Option (EndNode α)) : Params × Option (EndNode β) := (r.1, r.2.map (EndNode.map f))

theorem matchEnds_map (f : α → β) (rx : Regex) (g : Nat) (uri : Str) : ∀ (es : List (EndNode α)) (ps : Params),
    matchEnds rx g uri (es.map (EndNode.map f)) ps = upHit f (matchEnds rx g uri es ps)
  | [], ps => rfl
  | e :: es, ps => by
    simp only [List.map_cons, matchEnds, EndNode.map_seg]
    cases e.seg.typ with
    | static =>
      by_cases h : e.seg.pattern = uri
      · simp only [h, if_true]; rfl
      · simp only [h, if_false]; exact matchEnds_map f rx g uri es ps
    | regexp =>
      by_cases h : ((rx.find e.seg.reg uri).length : Int) - 1 ≠ e.seg.wildcards.length
      · rw [if_pos h]; exact (if_pos h).trans (matchEnds_map f rx g uri es ps)
      · rw [if_neg h]; exact if_neg h
    | holder => rfl
    | matchAll => rfl

theorem matchFallback_map (f : α → β) (g : Nat) (rest : Str) (es : List (EndNode α)) (ps : Params) :
    matchFallback g rest (es.map (EndNode.map f)) ps = upHit f (matchFallback g rest es ps) := by
  simp only [matchFallback, List.getLast?_map]
  cases es.getLast? with
  | none => rfl
  | some e =>
    simp only [Option.map_some, EndNode.map_seg]
    by_cases h : e.seg.typ = .matchAll
    · simp only [h, if_true]; rfl
    · simp only [h, if_false]; rfl

mutual
theorem matchNext_map (f : α → β) (rx : Regex) : ∀ (n : Node α) (g : Nat) (uri : Str) (ps : Params),
    matchNext rx (n.map f) g uri ps = upHit f (matchNext rx n g uri ps)
  | .mk _ subs ends, g, uri, ps => by
    rw [Node.map, matchNext, matchNext]
    cases indexByte uri slash with
    | none => exact matchEnds_map f rx g uri ends ps
    | some i => exact matchSubs_map f rx subs ends g _ _ ps

theorem matchSubs_map (f : α → β) (rx : Regex) : ∀ (ns : List (Node α)) (ends : List (EndNode α)) (g : Nat) (segment uri : Str) (ps : Params),
    matchSubs rx (Node.mapAll f ns) (ends.map (EndNode.map f)) g segment uri ps = upHit f (matchSubs rx ns ends g segment uri ps)
  | [], ends, g, segment, uri, ps => by
    rw [Node.mapAll, matchSubs, matchSubs]
    exact matchFallback_map f g _ ends ps
  | n :: ns, ends, g, segment, uri, ps => by
    rw [Node.mapAll, matchSubs, matchSubs, Node.map_seg]
    cases n.seg.typ with
    | static =>
      simp only []
      split
      · rw [matchNext_map f rx n g uri ps]
        rcases matchNext rx n g uri ps with ⟨ps', _ | e⟩
        · exact matchSubs_map f rx ns ends g segment uri ps'
        · rfl
      · exact matchSubs_map f rx ns ends g segment uri ps
    | regexp =>
      simp only []
      split
      · exact matchSubs_map f rx ns ends g segment uri ps
      · rw [matchNext_map f rx n g uri _]
        rcases matchNext rx n g uri _ with ⟨ps', _ | e⟩
        · exact matchSubs_map f rx ns ends g segment uri ps'
        · rfl
    | holder =>
      simp only []
      rw [matchNext_map f rx n g uri ps]
      rcases matchNext rx n g uri ps with ⟨ps', _ | e⟩
      · exact matchSubs_map f rx ns ends g segment uri ps'
      · rfl
    | matchAll =>
      simp only []
      rw [matchNext_map f rx n (g + 1) uri ps]
      rcases matchNext rx n (g + 1) uri ps with ⟨ps', _ | e⟩
      · exact matchSubs_map f rx ns ends g segment uri ps'
      · rfl
end

theorem endAt_map (f : α → β) : ∀ (segs : List Str) (n : Node α), endAt segs (n.map f) = (endAt segs n).map (EndNode.map f)
  | [], .mk _ _ _ => by rw [Node.map, endAt, endAt]; rfl
  | [p], .mk _ _ ends => by
    rw [Node.map, endAt, endAt, List.find?_map]
    rfl
  | p :: q :: rest, .mk _ subs _ => by
    rw [Node.map, endAt, endAt, Node.mapAll_eq, List.find?_map]
    have : ((fun n : Node β => n.seg.pattern == p) ∘ Node.map f) = fun n : Node α => n.seg.pattern == p := by
      funext n
      simp [Node.map_seg]
    rw [this]
    cases subs.find? (fun n => n.seg.pattern == p) with
    | none => rfl
    | some n => exact endAt_map f (q :: rest) n

theorem lookup_map (f : α → β) (rx : Regex) (e : Engine α) (i : Nat) (path : Str) :
    lookup rx (e.map f) i path = ((lookup rx e i path).1.map (EndNode.map f), (lookup rx e i path).2) := by
  have hm : ∀ t : Node α, matchUri rx (some (t.map f)) path = upHit f (matchUri rx (some t) path) := by
    intro t
    exact matchNext_map f rx t 0 _ _
  obtain ⟨st, nf, trees, statics⟩ := e
  simp only [lookup, Engine.map]
  cases st <;> cases statics i path <;> cases trees i <;>
    simp only [if_true, Bool.false_eq_true, if_false, Option.map_some, Option.map_none, hm, upHit, endAt_map]
  rename_i segs t
  cases endAt segs t <;> rfl

/-! ### building -/

theorem insertOrd_through {γ δ : Type} (f : γ → δ) (typ : γ → PTyp) (typ' : δ → PTyp) (h : ∀ c, typ' (f c) = typ c) (x : γ) :
    ∀ ys : List γ, insertOrd typ' (f x) (ys.map f) = (insertOrd typ x ys).map f
  | [] => rfl
  | y :: ys => by
    simp only [List.map_cons, insertOrd, h]
    split
    · rfl
    · rw [List.map_cons, insertOrd_through f typ typ' h x ys]

theorem addEnd_map (f : α → β) (rx : Regex) (ends : List (EndNode α)) (p : Str) (hs : List α) (uri : Str) :
    addEnd rx (ends.map (EndNode.map f)) p (hs.map f) uri = (addEnd rx ends p hs uri).map (List.map (EndNode.map f)) := by
  have hf : (ends.map (EndNode.map f)).findIdx? (fun e => e.seg.pattern == p) = ends.findIdx? (fun e => e.seg.pattern == p) := by
    rw [List.findIdx?_map]; rfl
  simp only [addEnd, hf]
  cases ends.findIdx? (fun e => e.seg.pattern == p) with
  | some i =>
    simp only [Except.map]
    congr 1
    apply List.ext_getElem?
    intro j
    simp only [List.getElem?_modify, List.getElem?_map]
    cases ends[j]? with
    | none => rfl
    | some e => simp only [Option.map_some]; split <;> rfl
  | none =>
    cases analyzePattern rx p with
    | error e => rfl
    | ok seg =>
      have := insertOrd_through (EndNode.map f) (fun e : EndNode α => e.seg.typ) (fun e : EndNode β => e.seg.typ) (fun _ => rfl) { seg, handlers := hs, uri } ends
      simp only [bind, pure, Except.bind, Except.pure, Except.map]
      rw [← this]
      rfl

theorem addSegs_map (f : α → β) (rx : Regex) (hs : List α) (uri : Str) : ∀ (segs : List Str) (n : Node α),
    addSegs rx (hs.map f) uri segs (n.map f) = (addSegs rx hs uri segs n).map (Node.map f)
  | [], n => rfl
  | [p], .mk seg subs ends => by
    rw [Node.map, addSegs, addSegs, addEnd_map]
    cases addEnd rx ends p hs uri with
    | error e => rfl
    | ok ends' =>
      simp only [Except.map, bind, Except.bind, pure, Except.pure]
      rw [Node.map]
  | p :: q :: rest, .mk seg subs ends => by
    rw [Node.map, addSegs, addSegs, Node.mapAll_eq]
    have hf : (subs.map (Node.map f)).findIdx? (fun n => n.seg.pattern == p) = subs.findIdx? (fun n => n.seg.pattern == p) := by
      rw [List.findIdx?_map]
      congr 1
      funext n
      simp [Node.map_seg]
    rw [hf]
    cases subs.findIdx? (fun n => n.seg.pattern == p) with
    | some i =>
      simp only [List.getElem?_map]
      cases subs[i]? with
      | none =>
        simp only [Option.map_none, pure, Except.pure, Except.map]
        rw [Node.map, Node.mapAll_eq]
      | some sub =>
        simp only [Option.map_some]
        rw [addSegs_map f rx hs uri (q :: rest) sub]
        cases addSegs rx hs uri (q :: rest) sub with
        | error e => rfl
        | ok sub' =>
          simp only [Except.map, bind, Except.bind, pure, Except.pure]
          rw [Node.map, Node.mapAll_eq, List.map_set]
    | none =>
      simp only []
      cases analyzePattern rx p with
      | error e => rfl
      | ok sseg =>
        have h1 := addSegs_map f rx hs uri (q :: rest) (.mk sseg [] [])
        have h2 : Node.map f (.mk sseg [] []) = (.mk sseg [] [] : Node β) := by rw [Node.map, Node.mapAll]; rfl
        rw [h2] at h1
        simp only [bind, Except.bind]
        rw [h1]
        cases addSegs rx hs uri (q :: rest) (.mk sseg [] []) with
        | error e => rfl
        | ok sub' =>
          simp only [Except.map, pure, Except.pure]
          rw [Node.map, Node.mapAll_eq, ← insertOrd_through (Node.map f) (fun n : Node α => n.seg.typ) (fun n : Node β => n.seg.typ)
            (fun n => by rw [Node.map_seg]) sub' subs]

theorem newTree_map (f : α → β) : (newTree : Node α).map f = newTree := by
  rw [newTree, Node.map, Node.mapAll]; rfl

theorem staticPath_map (f : α → β) : ∀ (segs : List Str) (n : Node α), staticPath segs (n.map f) = staticPath segs n
  | [], .mk _ _ _ => by rw [Node.map, staticPath, staticPath]
  | [p], .mk _ _ ends => by
    rw [Node.map, staticPath, staticPath, List.find?_map]
    have : ((fun e : EndNode β => e.seg.pattern == p) ∘ EndNode.map f) = fun e : EndNode α => e.seg.pattern == p := rfl
    rw [this]
    cases ends.find? (fun e => e.seg.pattern == p) <;> rfl
  | p :: q :: rest, .mk _ subs _ => by
    rw [Node.map, staticPath, staticPath, Node.mapAll_eq, List.find?_map]
    have : ((fun n : Node β => n.seg.pattern == p) ∘ Node.map f) = fun n : Node α => n.seg.pattern == p := by
      funext n
      simp [Node.map_seg]
    rw [this]
    cases subs.find? (fun n => n.seg.pattern == p) with
    | none => rfl
    | some n => exact congrArg (_ && ·) (staticPath_map f (q :: rest) n)

theorem buildStep_map (f : α → β) (rx : Regex) (e : Engine α) (v : Route α) :
    buildStep rx (e.map f) (v.map f) = (buildStep rx e v).map (Engine.map f) := by
  have hset : ∀ (i : Nat) (t : Node α), setAt (fun j => (e.trees j).map (Node.map f)) i (some (t.map f)) =
      fun j => (setAt e.trees i (some t) j).map (Node.map f) := by
    intro i t
    funext j
    unfold setAt
    split <;> rfl
  simp only [buildStep, Route.map, Engine.map]
  cases methodIndex v.method with
  | none => rfl
  | some i =>
    simp only []
    have ht : ((e.trees i).map (Node.map f)).getD newTree = ((e.trees i).getD newTree).map f := by
      cases e.trees i with
      | none => simp [newTree_map]
      | some t => rfl
    rw [ht]
    simp only [Node.add, addSegs_map]
    cases addSegs rx v.handlers v.uri (addSegments v.variant) ((e.trees i).getD newTree) with
    | error x => rfl
    | ok t' =>
      simp only [Except.map, bind, Except.bind, staticPath_map, hset]
      split <;> rfl

theorem buildTree_map (f : α → β) (rx : Regex) : ∀ (vs : List (Route α)) (e : Engine α),
    buildTree rx (e.map f) (vs.map (Route.map f)) = (buildTree rx e vs).map (Engine.map f)
  | [], e => rfl
  | v :: vs, e => by
    simp only [List.map_cons, buildTree, buildStep_map]
    cases buildStep rx e v with
    | error x => rfl
    | ok e' => exact buildTree_map f rx vs e'

theorem checkRoutes_map (f : α → β) : ∀ vs : List (Route α), checkRoutes (vs.map (Route.map f)) = (checkRoutes vs).map (List.map (Route.map f))
  | [] => rfl
  | v :: vs => by
    simp only [List.map_cons, checkRoutes, checkRoutes_map f vs]
    have : (v.map f).uri = v.uri := rfl
    rw [this]
    split
    · rfl
    · cases checkRoutes vs <;> rfl

theorem mkEngine_map (f : α → β) (rx : Regex) (st : Bool) (nf : List α) (rs : List (Route α)) :
    mkEngine rx st (nf.map f) (rs.map (Route.map f)) = (mkEngine rx st nf rs).map (Engine.map f) := by
  simp only [mkEngine, checkRoutes_map]
  cases checkRoutes rs with
  | error e => rfl
  | ok rs' =>
    have : newEngine st (nf.map f) = (newEngine st nf : Engine α).map f := by simp [newEngine, Engine.map]
    simp only [Except.map, bind, Except.bind]
    rw [this]
    exact buildTree_map f rx rs' _

end Water
