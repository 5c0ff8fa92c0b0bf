import Verif.Lemmas.Parametric
import Verif.Spec.Opaque
/- Registration treats handlers as opaque values. -/
namespace Water
open Spec
variable {α β : Type}

theorem Spec.Each.append {γ δ : Type} {R : γ → δ → Prop} : ∀ {xs : List γ} {ys : List δ} {us : List γ} {vs : List δ},
    Each R xs ys → Each R us vs → Each R (xs ++ us) (ys ++ vs)
  | _, _, _, _, .nil, h => h
  | _, _, _, _, .cons h t, h' => .cons h (Each.append t h')

theorem Spec.Each.length {γ δ : Type} {R : γ → δ → Prop} : ∀ {xs : List γ} {ys : List δ}, Each R xs ys → xs.length = ys.length
  | _, _, .nil => rfl
  | _, _, .cons _ t => congrArg (· + 1) (Each.length t)

theorem Spec.Each.modify {γ δ : Type} {R : γ → δ → Prop} {g : γ → γ} {g' : δ → δ} (hg : ∀ x y, R x y → R (g x) (g' y)) :
    ∀ {xs : List γ} {ys : List δ} (i : Nat), Each R xs ys → Each R (xs.modify i g) (ys.modify i g')
  | _, _, i, .nil => by cases i <;> exact .nil
  | _, _, 0, .cons h t => by simpa using Each.cons (hg _ _ h) t
  | _, _, i + 1, .cons h t => by simpa using Each.cons h (Each.modify hg i t)

theorem Spec.Each.get {γ δ : Type} {R : γ → δ → Prop} : ∀ {xs : List γ} {ys : List δ} (i : Nat), Each R xs ys →
    (xs[i]? = none ∧ ys[i]? = none) ∨ ∃ x y, xs[i]? = some x ∧ ys[i]? = some y ∧ R x y
  | _, _, _, .nil => .inl ⟨rfl, rfl⟩
  | _, _, 0, .cons h _ => .inr ⟨_, _, rfl, rfl, h⟩
  | _, _, i + 1, .cons _ t => by simpa using Each.get i t

theorem Spec.Each.front {γ δ : Type} {R : γ → δ → Prop} {xs us : List γ} {ys vs : List δ} (h : Each R xs ys) (hu : Each R us vs) :
    Each R (if us.length > 0 then us ++ xs else xs) (if vs.length > 0 then vs ++ ys else ys) := by
  rw [← hu.length]
  split
  · exact hu.append h
  · exact h

theorem Spec.Each.after {γ δ : Type} {R : γ → δ → Prop} {xs us : List γ} {ys vs : List δ} (h : Each R xs ys) (hu : Each R us vs) :
    Each R (if us.length > 0 then xs ++ us else xs) (if vs.length > 0 then ys ++ vs else ys) := by
  rw [← hu.length]
  split
  · exact h.append hu
  · exact h

/-- routers that differ in their handlers only -/
structure SameRouter (f : α → β) (n : RNode α) (n' : RNode β) : Prop where
  method : n'.method = n.method
  pattern : n'.pattern = n.pattern
  gbefores : Each (SameArg f) n.gbefores n'.gbefores
  befores : Each (SameArg f) n.befores n'.befores
  handlers : Each (SameArg f) n.handlers n'.handlers
  parent : n'.parent = n.parent
  sub : n'.sub = n.sub

/-- both panic with the same value, or both succeed with related results -/
inductive Both {γ δ : Type} (R : γ → δ → Prop) : Except Panic γ → Except Panic δ → Prop where
  | error (p : Panic) : Both R (.error p) (.error p)
  | ok {x : γ} {y : δ} : R x y → Both R (.ok x) (.ok y)

theorem addChild_each {f : α → β} {heap : Heap α} {heap' : Heap β} (h : Each (SameRouter f) heap heap') (r : Nat) {n : RNode α} {n' : RNode β}
    (hn : SameRouter f n n') : Each (SameRouter f) (addChild heap r n) (addChild heap' r n') := by
  unfold addChild
  refine (Each.modify (fun x y hxy => ?_) r h).append (.cons hn .nil)
  exact ⟨hxy.method, hxy.pattern, hxy.gbefores, hxy.befores, hxy.handlers, hxy.parent, by simp [hxy.sub, h.length]⟩

/-- one of the arguments is nil -/
def anyNil (hs : List (HVal α)) : Bool := hs.any (fun h => match h with | .nil => true | _ => false)

theorem step_handle (heap : Heap α) (r : Nat) (method pattern : Str) (hs : List (HVal α)) : step heap (.handle r method pattern hs) =
    match heap[r]? with
    | none => .error .noSuchRouter
    | some n =>
      if n.method ≠ [] ∨ method ∉ methodNames then .error .noSuchRouter
      else if anyNil hs then .error .nilHandler
      else .ok (addChild heap r { method, pattern, gbefores := [], befores := [], handlers := hs,
                                  parent := some r, sub := [] }) := rfl

theorem anyNil_each {f : α → β} : ∀ {hs : List (HVal α)} {hs' : List (HVal β)}, Each (SameArg f) hs hs' → anyNil hs' = anyNil hs
  | _, _, .nil => rfl
  | _, _, .cons h t => by
    have ih := anyNil_each t
    simp only [anyNil] at ih ⊢
    rw [List.any_cons, List.any_cons, ih]
    cases h with
    | nil => rfl
    | other => rfl
    | val h1 h2 => cases h1 <;> cases h2 <;> rfl

theorem step_each {f : α → β} {heap : Heap α} {heap' : Heap β} (h : Each (SameRouter f) heap heap') {op : Op α} {op' : Op β}
    (ho : SameCall f op op') : Both (Each (SameRouter f)) (step heap op) (step heap' op') := by
  cases ho with
  | newRouter => exact .ok (h.append (.cons ⟨rfl, rfl, .nil, .nil, .nil, rfl, rfl⟩ .nil))
  | groupBad => exact .error _
  | @before r hs hs' hh =>
    simp only [step]
    rcases h.get r with ⟨h1, h2⟩ | ⟨n, n', h1, h2, hn⟩
    · rw [h1, h2]; exact .error _
    · rw [h1, h2]
      simp only [hn.method, hn.parent]
      split
      · exact .error _
      · split
        · exact .error _
        · exact .ok (Each.modify (fun x y hxy => ⟨hxy.method, hxy.pattern, hxy.gbefores.append hh, hxy.befores, hxy.handlers, hxy.parent, hxy.sub⟩) r h)
  | @group r p =>
    simp only [step]
    rcases h.get r with ⟨h1, h2⟩ | ⟨n, n', h1, h2, hn⟩
    · rw [h1, h2]; exact .error _
    · rw [h1, h2]
      simp only [hn.method]
      split
      · exact .error _
      · exact .ok (addChild_each h r ⟨rfl, rfl, .nil, .nil, .nil, rfl, rfl⟩)
  | @groupMw r a =>
    simp only [step]
    rcases h.get r with ⟨h1, h2⟩ | ⟨n, n', h1, h2, hn⟩
    · rw [h1, h2]; exact .error _
    · rw [h1, h2]
      simp only [hn.method]
      split
      · exact .error _
      · exact .ok (Each.modify (fun x y hxy => ⟨hxy.method, hxy.pattern, hxy.gbefores,
          hxy.befores.append (.cons (.val (.ctxFunc a) (.ctxFunc (f a))) .nil), hxy.handlers, hxy.parent, hxy.sub⟩) r h)
  | @use r hs hs' hh =>
    simp only [step]
    rcases h.get r with ⟨h1, h2⟩ | ⟨n, n', h1, h2, hn⟩
    · rw [h1, h2]; exact .error _
    · rw [h1, h2]
      simp only [hn.method]
      split
      · exact .error _
      · exact .ok (Each.modify (fun x y hxy => ⟨hxy.method, hxy.pattern, hxy.gbefores, hxy.befores.append hh, hxy.handlers, hxy.parent, hxy.sub⟩) r h)
  | @handle r m p hs hs' hh =>
    simp only [step_handle]
    rcases h.get r with ⟨h1, h2⟩ | ⟨n, n', h1, h2, hn⟩
    · rw [h1, h2]; exact .error _
    · rw [h1, h2]
      simp only [hn.method, anyNil_each hh]
      split
      · exact .error _
      · split
        · exact .error _
        · exact .ok (addChild_each h r ⟨rfl, rfl, .nil, .nil, hh, rfl, rfl⟩)

theorem runOps_each {f : α → β} : ∀ {ops : List (Op α)} {ops' : List (Op β)}, Each (SameCall f) ops ops' →
    ∀ {heap : Heap α} {heap' : Heap β}, Each (SameRouter f) heap heap' → Both (Each (SameRouter f)) (runOps heap ops) (runOps heap' ops')
  | _, _, .nil, _, _, h => .ok h
  | _, _, .cons ho t, heap, heap', h => by
    simp only [runOps]
    have := step_each h ho
    revert this
    generalize step heap _ = y
    generalize step heap' _ = y'
    intro this
    cases this with
    | error p => exact .error p
    | ok hr => exact runOps_each t hr

theorem newHandlers_each {f : α → β} : ∀ {hs : List (HVal α)} {hs' : List (HVal β)}, Each (SameArg f) hs hs' →
    newHandlers hs' = (newHandlers hs).map (List.map f)
  | _, _, .nil => rfl
  | h :: _, h' :: _, .cons hv t => by
    simp only [newHandlers, newHandlers_each t]
    cases hv with
    | nil => rfl
    | other => rfl
    | @val _ _ a h1 h2 =>
      have e1 : newHandler h = .ok a := by cases h1 <;> rfl
      have e2 : newHandler h' = .ok (f a) := by cases h2 <;> rfl
      rw [e1, e2]
      simp only [bind, Except.bind]
      cases newHandlers _ <;> rfl

/-- what climbing returns in the two heaps -/
def SameClimb (f : α → β) : Option (List Str × List (HVal α)) → Option (List Str × List (HVal β)) → Prop
  | none, none => True
  | some (ps, hs), some (ps', hs') => ps' = ps ∧ Each (SameArg f) hs hs'
  | _, _ => False

theorem climb_each {f : α → β} {heap : Heap α} {heap' : Heap β} (h : Each (SameRouter f) heap heap') : ∀ (fuel i : Nat) (ps : List Str)
    {hs : List (HVal α)} {hs' : List (HVal β)}, Each (SameArg f) hs hs' → SameClimb f (climb heap fuel i ps hs) (climb heap' fuel i ps hs')
  | 0, _, _, _, _, _ => trivial
  | fuel + 1, i, ps, hs, hs', hh => by
    simp only [climb]
    rcases h.get i with ⟨h1, h2⟩ | ⟨n, n', h1, h2, hn⟩
    · rw [h1, h2]; trivial
    · rw [h1, h2]
      have a1 := hh.after hn.handlers
      have a3 := (a1.front hn.befores).front hn.gbefores
      simp only [hn.pattern, hn.parent]
      cases n.parent with
      | none => exact ⟨rfl, a3⟩
      | some p => exact climb_each h fuel p _ a3

theorem getRoute_each {f : α → β} {heap : Heap α} {heap' : Heap β} (h : Each (SameRouter f) heap heap') (i : Nat) :
    getRoute heap' i = (getRoute heap i).map (Route.map f) := by
  simp only [getRoute]
  rcases h.get i with ⟨h1, h2⟩ | ⟨n, n', h1, h2, hn⟩
  · rw [h1, h2]; rfl
  · rw [h1, h2, ← h.length]
    have hc := climb_each h heap.length i [] (.nil : Each (SameArg f) [] [])
    revert hc
    simp only []
    generalize climb heap heap.length i [] [] = y
    generalize climb heap' heap.length i [] [] = y'
    intro hc
    rcases y with _ | ⟨ps, hs⟩ <;> rcases y' with _ | ⟨ps', hs'⟩
    · rfl
    · exact hc.elim
    · exact hc.elim
    · obtain ⟨rfl, hh⟩ := hc
      simp only [newHandlers_each hh, hn.method]
      cases newHandlers hs with
      | error e => rfl
      | ok as =>
        simp only [Except.map, bind, Except.bind, List.length_map]
        split <;> rfl

/-- the route stores of the two dumps -/
structure SameStore (f : α → β) (rs : RouteStore α) (rs' : RouteStore β) : Prop where
  map : ∀ m, rs'.routeMap m = (rs.routeMap m).map (fun by_ u => (by_ u).map (Route.map f))
  slice : rs'.routeSlice = rs.routeSlice.map (Route.map f)

theorem add_each {f : α → β} {rs : RouteStore α} {rs' : RouteStore β} (h : SameStore f rs rs') (r : Route α) :
    Both (SameStore f) (rs.add r) (rs'.add (r.map f)) := by
  simp only [RouteStore.add]
  have e1 : (r.map f).method = r.method := rfl
  have e2 : (r.map f).uri = r.uri := rfl
  rw [e1, e2, h.map]
  split
  · exact .ok h
  · cases rs.routeMap r.method with
    | none => exact .error _
    | some byUri =>
      simp only [Option.map_some, Option.isSome_map]
      split
      · exact .error _
      · refine .ok ⟨fun m => ?_, by simp [h.slice]⟩
        simp only [Map.set]
        split
        · rename_i hm
          simp only [Option.map_some]
          congr 1
          funext u
          unfold Map.set
          by_cases hu : u = r.uri
          · rw [if_pos hu, if_pos hu]; rfl
          · rw [if_neg hu, if_neg hu]
        · exact h.map m

theorem dumpAll_each {f : α → β} {heap : Heap α} {heap' : Heap β} {fuel : Nat}
    (ih : ∀ (r : Nat) {rs : RouteStore α} {rs' : RouteStore β}, SameStore f rs rs' → Both (SameStore f) (dumpRoute heap fuel r rs) (dumpRoute heap' fuel r rs')) :
    ∀ (vs : List Nat) {rs : RouteStore α} {rs' : RouteStore β}, SameStore f rs rs' →
      Both (SameStore f) (vs.foldlM (fun rs v => dumpRoute heap fuel v rs) rs) (vs.foldlM (fun rs v => dumpRoute heap' fuel v rs) rs')
  | [], _, _, h => .ok h
  | v :: vs, rs, rs', h => by
    simp only [List.foldlM_cons]
    have := ih v h
    revert this
    generalize dumpRoute heap fuel v rs = y
    generalize dumpRoute heap' fuel v rs' = y'
    intro this
    cases this with
    | error p => exact .error p
    | ok hr => exact dumpAll_each ih vs hr

theorem dumpRoute_each {f : α → β} {heap : Heap α} {heap' : Heap β} (h : Each (SameRouter f) heap heap') : ∀ (fuel r : Nat)
    {rs : RouteStore α} {rs' : RouteStore β}, SameStore f rs rs' → Both (SameStore f) (dumpRoute heap fuel r rs) (dumpRoute heap' fuel r rs')
  | 0, _, _, _, _ => .error _
  | fuel + 1, r, rs, rs', hs => by
    simp only [dumpRoute]
    rcases h.get r with ⟨h1, h2⟩ | ⟨n, n', h1, h2, hn⟩
    · rw [h1, h2]; exact .error _
    · rw [h1, h2]
      simp only [hn.sub]
      split
      · rw [getRoute_each h]
        cases getRoute heap r with
        | error p => exact .error p
        | ok re => exact add_each hs re
      · exact dumpAll_each (fun r _ _ hs => dumpRoute_each h fuel r hs) n.sub hs

/-- the options of the two applications -/
def Options.map (f : α → β) (o : Options α) : Options β := { enableStatic := o.enableStatic, noFound := o.noFound.map f, maxMultipart := o.maxMultipart }

theorem applyOpts_each {f : α → β} : ∀ {opts : List (Opt α)} {opts' : List (Opt β)}, Each (SameOpt f) opts opts' → ∀ (o : Options α),
    applyOpts (o.map f) opts' = (applyOpts o opts).map (Options.map f)
  | _, _, .nil, _ => rfl
  | _, _, .cons ho t, o => by
    cases ho with
    | @staticRouter b => exact applyOpts_each t { o with enableStatic := b }
    | @maxMultipart n => exact applyOpts_each t { o with maxMultipart := n }
    | noFound hh =>
      simp only [applyOpts, ← hh.length, newHandlers_each hh]
      split
      · rfl
      · cases newHandlers _ with
        | error p => rfl
        | ok as => exact applyOpts_each t { o with noFound := as }

theorem withBefores_each {f : α → β} (o : Options α) {gs : List (HVal α)} {gs' : List (HVal β)} (h : Each (SameArg f) gs gs') :
    withBefores (o.map f) gs' = (withBefores o gs).map (Options.map f) := by
  simp only [withBefores, Options.map, List.length_map, ← h.length, newHandlers_each h]
  split
  · cases newHandlers gs with
    | error p => rfl
    | ok as => simp [Except.map, Options.map]
  · rfl

theorem dumpFor_each {f : α → β} {heap : Heap α} {heap' : Heap β} (h : Each (SameRouter f) heap heap') (r : Nat) {opts : List (Opt α)}
    {opts' : List (Opt β)} (ho : Each (SameOpt f) opts opts') :
    dumpFor heap' r opts' = (dumpFor heap r opts).map (fun p => (p.1.map f, p.2.map (Route.map f))) := by
  simp only [dumpFor]
  rcases h.get r with ⟨h1, h2⟩ | ⟨n, n', h1, h2, hn⟩
  · rw [h1, h2]; rfl
  · rw [h1, h2]
    simp only [hn.method, hn.parent]
    split
    · rfl
    · split
      · rfl
      · have e0 : (noOptions : Options β) = (noOptions : Options α).map f := rfl
        rw [e0, applyOpts_each ho]
        cases applyOpts (noOptions : Options α) opts with
        | error p => rfl
        | ok o =>
          simp only [Except.map, bind, Except.bind]
          rw [withBefores_each o hn.gbefores]
          cases withBefores o n.gbefores with
          | error p => rfl
          | ok o =>
            have hst : SameStore f (newRouteStore : RouteStore α) newRouteStore := by
              refine ⟨fun m => ?_, rfl⟩
              simp only [newRouteStore]
              split <;> rfl
            have := dumpRoute_each h heap.length r hst
            simp only [Except.map]
            rw [← h.length]
            revert this
            generalize dumpRoute heap heap.length r newRouteStore = y
            generalize dumpRoute heap' heap.length r newRouteStore = y'
            intro this
            cases this with
            | error p => rfl
            | ok hr => simp only [pure, Except.pure, hr.slice]

theorem handler_each {f : α → β} (rx : Regex) {heap : Heap α} {heap' : Heap β} (h : Each (SameRouter f) heap heap') (r : Nat)
    {opts : List (Opt α)} {opts' : List (Opt β)} (ho : Each (SameOpt f) opts opts') :
    handler rx heap' r opts' = (handler rx heap r opts).map (Engine.map f) := by
  simp only [handler, dumpFor_each h r ho]
  cases dumpFor heap r opts with
  | error p => rfl
  | ok p =>
    obtain ⟨o, rs⟩ := p
    exact mkEngine_map f rx _ _ _

theorem handlerMem_each {f : α → β} {heap : Heap α} {heap' : Heap β} (h : Each (SameRouter f) heap heap') (r : Nat)
    {opts : List (Opt α)} {opts' : List (Opt β)} (ho : Each (SameOpt f) opts opts') (mem : Int) :
    handlerMem heap' r opts' mem = handlerMem heap r opts mem := by
  simp only [handlerMem, dumpFor_each h r ho]
  cases dumpFor heap r opts with
  | error p => rfl
  | ok p =>
    obtain ⟨o, rs⟩ := p
    simp only [Except.map, checkRoutes_map]
    cases checkRoutes rs <;> rfl

theorem app_each {f : α → β} (rx : Regex) {ops : List (Op α)} {ops' : List (Op β)} (h : Each (SameCall f) ops ops') (r : Nat)
    {opts : List (Opt α)} {opts' : List (Opt β)} (ho : Each (SameOpt f) opts opts') :
    app rx ops' r opts' = (app rx ops r opts).map (Engine.map f) := by
  simp only [app]
  have := runOps_each h (.nil : Each (SameRouter f) [] [])
  revert this
  generalize runOps [] ops = y
  generalize runOps [] ops' = y'
  intro this
  cases this with
  | error p => rfl
  | ok hr => exact handler_each rx hr r ho

end Water
