import Verif.Props.Maps
/-
C116 with the option for static routes.
-/
namespace Water
open Spec
variable {ω : Type}

/-- No map is both an `Environ` and a `Params` of contexts, and references are to maps that were made, but for maps that handlers
used through variables (`us`). -/
structure Apart (m : Maps) (us : List Nat) : Prop where
  apart : ∀ c d a, (m.refs c).env = some a → (m.refs d).par = some a → a ∈ us
  env : ∀ c a, (m.refs c).env = some a → a < m.next ∨ a ∈ us
  par : ∀ c a, (m.refs c).par = some a → a < m.next ∨ a ∈ us

theorem Apart.more {m : Maps} {us : List Nat} (h : Apart m us) (vs : List Nat) : Apart m (us ++ vs) :=
  ⟨fun c d a h1 h2 => List.mem_append_left _ (h.apart c d a h1 h2),
   fun c a h1 => (h.env c a h1).imp_right (List.mem_append_left _),
   fun c a h1 => (h.par c a h1).imp_right (List.mem_append_left _)⟩

/-- what is in the maps does not matter -/
theorem Apart.congr {m m' : Maps} {us : List Nat} (h : Apart m us) (hr : m'.refs = m.refs) (hn : m.next ≤ m'.next) : Apart m' us := by
  refine ⟨?_, ?_, ?_⟩
  · rw [hr]; exact h.apart
  · rw [hr]; exact fun c a h1 => (h.env c a h1).imp_left (fun h => Nat.lt_of_lt_of_le h hn)
  · rw [hr]; exact fun c a h1 => (h.par c a h1).imp_left (fun h => Nat.lt_of_lt_of_le h hn)

/-- assigning a map to `ctx.Environ` that was just made or is recorded -/
theorem Apart.setEnv {m m' : Maps} {us : List Nat} (h : Apart m us) {c : Nat} {b : Option Nat}
    (hr : m'.refs = fun d => if d = c then { m.refs c with env := b } else m.refs d) (hn : m.next ≤ m'.next)
    (hb : ∀ a, b = some a → (m.next ≤ a ∧ a < m'.next) ∨ a ∈ us) : Apart m' us := by
  have hpar : ∀ d, (m'.refs d).par = (m.refs d).par := by intro d; rw [hr]; dsimp only; split <;> simp_all
  have henv : ∀ d a, (m'.refs d).env = some a → b = some a ∨ (m.refs d).env = some a := by
    intro d a; rw [hr]; dsimp only; split
    · exact fun h => .inl h
    · exact fun h => .inr h
  refine ⟨?_, ?_, ?_⟩
  · intro d d' a h1 h2
    rw [hpar] at h2
    rcases henv d a h1 with h1 | h1
    · rcases hb a h1 with h3 | h3
      · exact (h.par d' a h2).resolve_left (by omega)
      · exact h3
    · exact h.apart d d' a h1 h2
  · intro d a h1
    rcases henv d a h1 with h1 | h1
    · exact (hb a h1).imp_left (fun h => h.2)
    · exact (h.env d a h1).imp_left (fun h => Nat.lt_of_lt_of_le h hn)
  · intro d a h1
    rw [hpar] at h1
    exact (h.par d a h1).imp_left (fun h => Nat.lt_of_lt_of_le h hn)

/-- see `Apart.setEnv` -/
theorem Apart.setPar {m m' : Maps} {us : List Nat} (h : Apart m us) {c : Nat} {b : Option Nat}
    (hr : m'.refs = fun d => if d = c then { m.refs c with par := b } else m.refs d) (hn : m.next ≤ m'.next)
    (hb : ∀ a, b = some a → (m.next ≤ a ∧ a < m'.next) ∨ a ∈ us) : Apart m' us := by
  have henv : ∀ d, (m'.refs d).env = (m.refs d).env := by intro d; rw [hr]; dsimp only; split <;> simp_all
  have hpar : ∀ d a, (m'.refs d).par = some a → b = some a ∨ (m.refs d).par = some a := by
    intro d a; rw [hr]; dsimp only; split
    · exact fun h => .inl h
    · exact fun h => .inr h
  refine ⟨?_, ?_, ?_⟩
  · intro d d' a h1 h2
    rw [henv] at h1
    rcases hpar d' a h2 with h2 | h2
    · rcases hb a h2 with h3 | h3
      · exact (h.env d a h1).resolve_left (by omega)
      · exact h3
    · exact h.apart d d' a h1 h2
  · intro d a h1
    rw [henv] at h1
    exact (h.env d a h1).imp_left (fun h => Nat.lt_of_lt_of_le h hn)
  · intro d a h1
    rcases hpar d a h1 with h1 | h1
    · exact (hb a h1).imp_left (fun h => h.2)
    · exact (h.par d a h1).imp_left (fun h => Nat.lt_of_lt_of_le h hn)

/-- the relation between states of a request -/
def KeepsApart (us : List Nat) (s t : MSt ω) : Prop :=
  t.handlers = s.handlers ∧ (Apart s.maps (us ++ s.uses) → Apart t.maps (us ++ t.uses))

theorem mCall_apart (us : List Nat) (o : Oracle) (req : Req) (s : MSt ω) (c : MCall ω) : KeepsApart us s (mCall o req s c).2 := by
  have un : ∀ m b u, (useEnviron m b u).2.next = m.next := fun m b u => by cases u <;> cases b <;> rfl
  have pn : ∀ m b u, (useParams m b u).2.next = m.next := fun m b u => by cases u <;> cases b <;> rfl
  have assoc : ∀ (b : Option Nat) (m : Maps), Apart m (us ++ s.uses) → Apart m (us ++ (s.uses ++ b.toList)) := fun b m h => by
    rw [← List.append_assoc]; exact h.more _
  cases c with
  | plain c =>
    rcases mCall_plain o req s c with h | h <;> rw [h]
    · exact ⟨rfl, id⟩
    · refine ⟨rfl, fun h => h.congr ?_ ?_⟩
      · unfold MSt.back; cases s.refs.env <;> rfl
      · unfold MSt.back; cases s.refs.env <;> exact Nat.le_refl _
  | environ u => exact ⟨rfl, fun h => h.congr (useEnviron_refs _ _ u) (Nat.le_of_eq (un _ _ u).symm)⟩
  | params u => exact ⟨rfl, fun h => h.congr (useParams_refs _ _ u) (Nat.le_of_eq (pn _ _ u).symm)⟩
  | keep => exact ⟨rfl, id⟩
  | self => exact ⟨rfl, id⟩
  | peek c => exact ⟨rfl, id⟩
  | keptEnviron b u => exact ⟨rfl, fun h => (assoc b _ h).congr (useEnviron_refs _ b u) (Nat.le_of_eq (un _ _ u).symm)⟩
  | keptParams b u => exact ⟨rfl, fun h => (assoc b _ h).congr (useParams_refs _ b u) (Nat.le_of_eq (pn _ _ u).symm)⟩
  | setEnviron b =>
    exact ⟨rfl, fun h => (assoc b _ h).setEnv (c := s.me) (b := b) rfl (Nat.le_refl _) (fun a ha => .inr (by subst ha; simp))⟩
  | setParams b =>
    exact ⟨rfl, fun h => (assoc b _ h).setPar (c := s.me) (b := b) rfl (Nat.le_refl _) (fun a ha => .inr (by subst ha; simp))⟩
  | make => exact ⟨rfl, fun h => h.congr rfl (Nat.le_succ _)⟩

theorem runM_apart (us : List Nat) (o : Oracle) (req : Req) (n : Nat) (s : MSt ω) : KeepsApart us s (runM o req n s).2 :=
  runM_along (P := fun _ => True)
    { refl := fun _ => ⟨rfl, id⟩, trans := fun h h' => ⟨h'.1.trans h.1, fun a => h'.2 (h.2 a)⟩, same := fun h => h.1
      log := fun _ _ => ⟨rfl, id⟩, bump := fun _ => ⟨rfl, id⟩, next := fun _ => trivial
      call := fun _ => ⟨fun s => mCall_apart us o req s _, fun _ => trivial⟩, scope := fun _ => ⟨trivial, fun _ => trivial⟩ }
    n s (fun _ _ => trivial)

theorem arrive_apart {m : Maps} {us : List Nat} (h : Apart m us) (c : Nat) (ps : Option (Option Params)) : Apart (m.arrive c ps) us := by
  match ps with
  | none => exact h
  | some none => exact h.setPar (c := c) (b := none) rfl (Nat.le_refl _) (fun a ha => by simp at ha)
  | some (some ps) =>
    exact h.setPar (c := c) (b := some m.next) rfl (Nat.le_succ _)
      (fun a ha => .inl (by cases ha; exact ⟨Nat.le_refl _, Nat.lt_succ_self _⟩))

theorem freshEnviron_apart {m : Maps} {us : List Nat} (h : Apart m us) (c : Nat) : Apart (m.freshEnviron c) us :=
  h.setEnv (c := c) (b := some m.next) rfl (Nat.le_succ _) (fun a ha => .inl (by cases ha; exact ⟨Nat.le_refl _, Nat.lt_succ_self _⟩))

theorem serveM_apart (rx : Regex) (o : Oracle) (e : Engine (MProg ω)) (c : Nat) (req : Req) (rw : Writer) (body : Option Str) (w : ω)
    {m : Maps} {us : List Nat} (h : Apart m us) :
    Apart (serveM rx o e c req rw body w m).maps (us ++ (serveM rx o e c req rw body w m).uses) := by
  rcases serveM_cases rx o e c req rw body w with ⟨code, hc⟩ | ⟨i, _, hc⟩
  · rw [hc]; exact h.more _
  · rw [hc]
    cases chainForM e (lookup rx e i req.path).1 with
    | none => exact (arrive_apart h c _).more _
    | some hs =>
      refine (runM_apart us o req (hs.length + 1) _).2 ?_
      exact ((freshEnviron_apart (arrive_apart h c _) c)).more _

theorem step_apart (rx : Regex) (o : Oracle) (e : Engine (MProg ω)) {s : MServer ω} (h : Apart s.maps s.uses) (q : Arrival) :
    Apart (s.step rx o e q).maps (s.step rx o e q).uses := by
  have hr : Apart (s.ready q) s.uses := by
    unfold MServer.ready
    split
    · exact h
    · refine ⟨?_, ?_, ?_⟩
      · intro c d a h1 h2
        simp only [Maps.setRefs] at h1 h2
        split at h1
        · simp at h1
        · split at h2
          · simp at h2
          · exact h.apart _ _ _ h1 h2
      · intro c a h1
        simp only [Maps.setRefs] at h1 ⊢
        split at h1
        · simp at h1
        · exact h.env _ _ h1
      · intro c a h1
        simp only [Maps.setRefs] at h1 ⊢
        split at h1
        · simp at h1
        · exact h.par _ _ h1
  unfold MServer.step
  dsimp only
  split
  · exact serveM_apart rx o e _ _ _ _ _ hr
  · exact h

theorem run_apart (rx : Regex) (o : Oracle) (e : Engine (MProg ω)) {s : MServer ω} (h : Apart s.maps s.uses) (qs : List Arrival) :
    Apart (s.run rx o e qs).maps (s.run rx o e qs).uses := by
  induction qs generalizing s with
  | nil => exact h
  | cons q qs ih => exact ih (step_apart rx o e h q)

theorem run_append (rx : Regex) (o : Oracle) (e : Engine (MProg ω)) (s : MServer ω) (qs rs : List Arrival) :
    s.run rx o e (qs ++ rs) = (s.run rx o e qs).run rx o e rs := by
  simp [MServer.run, List.foldl_append]

/-- **C116.** With and without the option for static routes, and for all requests to a new server: the map a context has as `Environ` stays as it
was, whatever requests come after, as long as handlers do not use it through a variable. -/
theorem C116_environ (rx : Regex) (o : Oracle) (e : Engine (MProg ω)) (s : MServer ω) (hs : ∀ c, s.maps.refs c = ⟨none, none⟩)
    (qs rs : List Arrival) (c a : Nat) (ha : ((s.run rx o e qs).maps.refs c).env = some a) (hu : a ∉ (s.run rx o e (qs ++ rs)).uses) :
    (s.run rx o e (qs ++ rs)).maps.environs a = (s.run rx o e qs).maps.environs a := by
  have h0 : Apart s.maps s.uses := ⟨fun c d a h => by simp [hs] at h, fun c a h => by simp [hs] at h, fun c a h => by simp [hs] at h⟩
  have h1 := run_apart rx o e h0 qs
  rw [run_append] at hu ⊢
  obtain ⟨us, h2⟩ := run_uses rx o e (s.run rx o e qs) rs
  have h3 : a ∉ (s.run rx o e qs).uses := fun hm => hu (by rw [h2]; exact List.mem_append_left _ hm)
  refine (C116_kept_partial rx o e _ rs a ((h1.env c a ha).resolve_right h3) (.inr fun d hd => h3 (h1.apart c d a ha hd)) ?_).1
  intro us' h4 hm
  exact hu (by rw [h4]; exact List.mem_append_right _ hm)

/-! ### handlers that do not write to `ctx.Params` -/

/-- a handler that never assigns to an entry of `ctx.Params` -/
inductive ReadsParams : MProg ω → Prop where
  | ret : ReadsParams .ret
  | panic (v) : ReadsParams (.panic v)
  | next {k} : ReadsParams k → ReadsParams (.next k)
  | call {c k} : (∀ f, c ≠ .params (.write f)) → (∀ r, ReadsParams (k r)) → ReadsParams (.call c k)
  | scope {b f} : ReadsParams b → (∀ v, ReadsParams (f v)) → ReadsParams (.scope b f)

/-- the contents of the parameters at `a` are kept, but for uses through variables -/
def KeepsParams (a : Nat) (s t : MSt ω) : Prop :=
  t.handlers = s.handlers ∧ s.maps.next ≤ t.maps.next ∧ (∃ us, t.uses = s.uses ++ us) ∧
  (a < s.maps.next → a ∉ t.uses → t.maps.params a = s.maps.params a)

theorem mCall_keepsParams (a : Nat) (o : Oracle) (req : Req) (s : MSt ω) (c : MCall ω) (hc : ∀ f, c ≠ .params (.write f)) :
    KeepsParams a s (mCall o req s c).2 := by
  have ue : ∀ m b u, (useEnviron m b u).2.next = m.next ∧ (useEnviron m b u).2.params = m.params := fun m b u => by
    cases u <;> cases b <;> exact ⟨rfl, rfl⟩
  cases c with
  | plain c =>
    rcases mCall_plain o req s c with h | h <;> rw [h]
    · exact ⟨rfl, Nat.le_refl _, ⟨[], by simp⟩, fun _ _ => rfl⟩
    · refine ⟨rfl, ?_, ⟨[], by simp [MSt.back]⟩, fun _ _ => ?_⟩
      · unfold MSt.back; cases s.refs.env <;> exact Nat.le_refl _
      · unfold MSt.back; cases s.refs.env <;> rfl
  | environ u => exact ⟨rfl, Nat.le_of_eq (ue _ _ u).1.symm, ⟨[], by simp [mCall]⟩, fun _ _ => congrFun (ue _ _ u).2 a⟩
  | params u =>
    cases u with
    | read f => exact ⟨rfl, Nat.le_refl _, ⟨[], by simp [mCall]⟩, fun _ _ => rfl⟩
    | write f => exact absurd rfl (hc f)
  | keep => exact ⟨rfl, Nat.le_refl _, ⟨[], by simp [mCall]⟩, fun _ _ => rfl⟩
  | self => exact ⟨rfl, Nat.le_refl _, ⟨[], by simp [mCall]⟩, fun _ _ => rfl⟩
  | peek c => exact ⟨rfl, Nat.le_refl _, ⟨[], by simp [mCall]⟩, fun _ _ => rfl⟩
  | keptEnviron b u => exact ⟨rfl, Nat.le_of_eq (ue _ _ u).1.symm, ⟨_, rfl⟩, fun _ _ => congrFun (ue _ _ u).2 a⟩
  | keptParams b u =>
    refine ⟨rfl, ?_, ⟨_, rfl⟩, fun _ hu => ?_⟩
    · cases u <;> cases b <;> exact Nat.le_refl _
    · cases b with
      | none => cases u <;> rfl
      | some b =>
        have : a ≠ b := fun h => hu (by subst h; simp [mCall])
        cases u with
        | read f => rfl
        | write f => simp [mCall, useParams, Maps.setParamsAt, this]
  | setEnviron b => exact ⟨rfl, Nat.le_refl _, ⟨_, rfl⟩, fun _ _ => rfl⟩
  | setParams b => exact ⟨rfl, Nat.le_refl _, ⟨_, rfl⟩, fun _ _ => rfl⟩
  | make =>
    refine ⟨rfl, Nat.le_succ _, ⟨[], by simp [mCall]⟩, fun h _ => ?_⟩
    have : a ≠ s.maps.next := by omega
    simp [mCall, Maps.alloc, this]

theorem runM_keepsParams (a : Nat) (o : Oracle) (req : Req) (n : Nat) (s : MSt ω) (hs : ∀ h ∈ s.handlers, ReadsParams h) :
    KeepsParams a s (runM o req n s).2 :=
  runM_along (P := ReadsParams)
    { refl := fun _ => ⟨rfl, Nat.le_refl _, ⟨[], by simp⟩, fun _ _ => rfl⟩
      trans := fun {s t u} h h' => by
        obtain ⟨us, hu⟩ := h.2.2.1
        obtain ⟨vs, hv⟩ := h'.2.2.1
        refine ⟨h'.1.trans h.1, Nat.le_trans h.2.1 h'.2.1, ⟨us ++ vs, by rw [hv, hu, List.append_assoc]⟩, fun ha hm => ?_⟩
        exact (h'.2.2.2 (Nat.lt_of_lt_of_le ha h.2.1) hm).trans (h.2.2.2 ha (fun hh => hm (by rw [hv]; exact List.mem_append_left _ hh)))
      same := fun h => h.1
      log := fun _ _ => ⟨rfl, Nat.le_refl _, ⟨[], by simp [MSt.log]⟩, fun _ _ => rfl⟩
      bump := fun _ => ⟨rfl, Nat.le_refl _, ⟨[], by simp [MSt.bump]⟩, fun _ _ => rfl⟩
      next := fun h => by cases h; assumption
      call := fun h => by cases h with | call h1 h2 => exact ⟨fun s => mCall_keepsParams a o req s _ h1, h2⟩
      scope := fun h => by cases h with | scope h1 h2 => exact ⟨h1, h2⟩ }
    n s hs

/-- every handler of the engine only reads `ctx.Params` -/
def EngineReads (rx : Regex) (e : Engine (MProg ω)) : Prop :=
  (∀ h ∈ e.noFound, ReadsParams h) ∧ ∀ i path n, (lookup rx e i path).1 = some n → ∀ h ∈ n.handlers, ReadsParams h

theorem serveM_keepsParams {rx : Regex} (o : Oracle) {e : Engine (MProg ω)} (he : EngineReads rx e) (c : Nat) (req : Req) (rw : Writer)
    (body : Option Str) (w : ω) {m : Maps} {a : Nat} (h : a < m.next) (hu : a ∉ (serveM rx o e c req rw body w m).uses) :
    a < (serveM rx o e c req rw body w m).maps.next ∧ (serveM rx o e c req rw body w m).maps.params a = m.params a := by
  rcases serveM_cases rx o e c req rw body w with ⟨code, hc⟩ | ⟨i, _, hc⟩
  · rw [hc]; exact ⟨h, rfl⟩
  · rw [hc] at hu ⊢
    have ha : ∀ ps, a < (m.arrive c ps).next ∧ (m.arrive c ps).params a = m.params a := by
      intro ps
      match ps with
      | none => exact ⟨h, rfl⟩
      | some none => exact ⟨h, rfl⟩
      | some (some ps) =>
        have : a ≠ m.next := by omega
        refine ⟨?_, by simp [Maps.arrive, Maps.setRefs, Maps.alloc, this]⟩
        simp [Maps.arrive, Maps.setRefs, Maps.alloc]; omega
    have hb : ∀ m : Maps, a < m.next → a < (m.freshEnviron c).next ∧ (m.freshEnviron c).params a = m.params a := by
      intro m h
      have : a ≠ m.next := by omega
      refine ⟨?_, by simp [Maps.freshEnviron, Maps.setRefs, Maps.alloc, this]⟩
      simp [Maps.freshEnviron, Maps.setRefs, Maps.alloc]; omega
    cases hh : chainForM e (lookup rx e i req.path).1 with
    | none => exact ha _
    | some hs =>
      rw [hh] at hu
      have hp : ∀ p ∈ hs, ReadsParams p := by
        cases hl : (lookup rx e i req.path).1 with
        | none =>
          rw [hl] at hh
          simp only [chainForM] at hh
          split at hh
          · cases hh; exact he.1
          · simp at hh
        | some n => rw [hl] at hh; cases hh; exact he.2 _ _ _ hl
      have := runM_keepsParams a o req (hs.length + 1)
        { st := { ctx := freshCtx ((lookup rx e i req.path).1.map (·.uri)), rw, body, forms := [], world := w, trace := [] }
          handlers := hs, me := c, maps := (m.arrive c (lookup rx e i req.path).2).freshEnviron c, uses := [] } hp
      have h1 := ha (lookup rx e i req.path).2
      have h2 := hb _ h1.1
      exact ⟨Nat.lt_of_lt_of_le h2.1 this.2.1, ((this.2.2.2 h2.1 hu).trans h2.2).trans h1.2⟩

/-- **C116.** With and without the option for static routes: if handlers only read `ctx.Params`, as `Param` and its relatives (params.go) do,
the parameters a handler has kept stay as they were, whatever requests come after, as long as handlers do not use them through a
variable. -/
theorem C116_readonly (rx : Regex) (o : Oracle) (e : Engine (MProg ω)) (he : EngineReads rx e) (s : MServer ω) (qs : List Arrival) (a : Nat)
    (h : a < s.maps.next) (hu : ∀ us, (s.run rx o e qs).uses = s.uses ++ us → a ∉ us) :
    (s.run rx o e qs).maps.params a = s.maps.params a := by
  induction qs generalizing s with
  | nil => rfl
  | cons q qs ih =>
    obtain ⟨us, h1⟩ := step_uses rx o e s q
    obtain ⟨vs, h2⟩ := run_uses rx o e (s.step rx o e q) qs
    have hv := hu (us ++ vs) (by show ((s.step rx o e q).run rx o e qs).uses = _; rw [h2, h1]; simp)
    have h3 : a < (s.step rx o e q).maps.next ∧ (s.step rx o e q).maps.params a = s.maps.params a := by
      have hp : (s.ready q).params = s.maps.params := by unfold MServer.ready; split <;> rfl
      unfold MServer.step at h1 ⊢
      dsimp only at h1 ⊢
      split at h1
      · rename_i ht
        rw [if_pos ht]
        have := List.append_cancel_left h1
        have hk := serveM_keepsParams o he (s.get q).1 q.req q.rw q.body s.world (m := s.ready q) (a := a) (by rw [ready_next]; exact h)
          (by rw [this]; exact fun hm => hv (List.mem_append_left _ hm))
        rw [hp] at hk
        exact hk
      · rename_i ht
        rw [if_neg ht]
        exact ⟨h, rfl⟩
    exact (ih (s.step rx o e q) h3.1
      (fun vs' h' => by rw [h2] at h'; have := List.append_cancel_left h'; subst this; exact fun hm => hv (List.mem_append_right _ hm))).trans h3.2

/-! ### what is not so, and cases -/

namespace Demo
open Spec

/-- keep `ctx.Environ` and `ctx.Params` in a variable -/
def keeperM : MProg Refs := .call .keep (fun r => match r with
  | .refs r => .call (.plain (.world fun _ => (r, .unit))) (fun _ => .ret)
  | .res _ => .ret)
/-- assign to an entry of `ctx.Params` -/
def scribbleM : MProg Refs := .call (.params (.write fun ps => Map.set ps b!"id" b!"x")) (fun _ => .ret)
/-- `ctx.Set` -/
def setterM : MProg Refs := .call (.plain (.envSet b!"k" (.int 7))) (fun _ => .ret)

/-- three routes -/
def mapOps : List (Op (MProg Refs)) :=
  [.newRouter, .handle 0 b!"GET" b!"/u/<id>" [.ctxFunc setterM, .ctxFunc keeperM], .handle 0 b!"GET" b!"/s" [.ctxFunc scribbleM],
   .handle 0 b!"GET" b!"/v/<id>" [.ctxFunc setterM, .ctxFunc scribbleM]]

/-- a new server -/
def mapServer : MServer Refs :=
  { world := ⟨none, none⟩, maps := { environs := fun _ => Map.empty, params := fun _ => Map.empty, next := 0, refs := fun _ => ⟨none, none⟩ }
    idle := [], made := 0, uses := [] }

/-- a GET request for which `Get` returns the first context if it is there -/
def mapGet (path : Str) : Arrival := { pick := some 0, req := { chainReq with path }, rw := Writer.new, body := none }

/-- the entry `id` of the parameters kept, after requests -/
def keptId (static : Bool) (paths : List Str) : Option (Option Str × List Nat) :=
  match app rx mapOps 0 [.staticRouter static] with
  | .ok e =>
    let s := mapServer.run rx chainO e (paths.map mapGet)
    some (s.maps.param s.world.par b!"id", s.uses)
  | .error _ => none

/-- the entry `id` of the parameters of the first context, after requests -/
def ctxId (paths : List Str) : Option (Option Str) :=
  match app rx mapOps 0 [] with
  | .ok e => let s := mapServer.run rx chainO e (paths.map mapGet); some (s.maps.param (s.maps.refs 0).par b!"id")
  | .error _ => none

end Demo

open Demo

/-- **C116 is false with the option for static routes.** A handler keeps `ctx.Params` of a request for `/u/5`. The next request is for the
literal route `/s`; `ctx.Params` is still the kept map, and its handler assigns to an entry. The kept map is not what it was, though no
handler used it through a variable. -/
theorem C116_refuted : keptId true [b!"/u/5"] = some (some b!"5", []) ∧ keptId true [b!"/u/5", b!"/s"] = some (some b!"x", []) := by
  decide +kernel

/-- A context is not kept: the next request is served with it, and it shows the parameters of that one. -/
theorem C116_context_refuted : ctxId [b!"/u/5"] = some (some b!"5") ∧ ctxId [b!"/u/5", b!"/u/6"] = some (some b!"6") := by
  decide +kernel

/-- without the option the kept map stays as it was, whatever the handlers of other requests do -/
example : keptId false [b!"/u/5"] = some (some b!"5", []) ∧ keptId false [b!"/u/5", b!"/v/6", b!"/s"] = some (some b!"5", []) := by
  decide +kernel
/-- with the option the `Environ` does too -/
example : (match app rx mapOps 0 [.staticRouter true] with
    | .ok e =>
      let s := mapServer.run rx chainO e [mapGet b!"/u/5"]
      let t := mapServer.run rx chainO e [mapGet b!"/u/5", mapGet b!"/s", mapGet b!"/v/7"]
      some (s.maps.environ s.world.env b!"k", decide ((s.maps.refs 0).env = s.world.env), t.maps.environ s.world.env b!"k",
        decide ((t.maps.refs 0).env = s.world.env), t.uses)
    | .error _ => none) = some (some (.int 7), true, some (.int 7), false, []) := by decide +kernel

/-- handlers that only read `ctx.Params` -/
example : ReadsParams keeperM ∧ ReadsParams setterM ∧ ¬ ReadsParams scribbleM := by
  refine ⟨.call (by simp) (fun r => ?_), .call (by simp) (fun _ => .ret), fun h => ?_⟩
  · cases r
    · exact .ret
    · exact .call (by simp) (fun _ => .ret)
  · unfold scribbleM at h
    cases h with | call h _ => exact h _ rfl

end Water
