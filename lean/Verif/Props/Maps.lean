import Verif.Model.Maps
import Verif.Props.Opaque
/-
C116: what handlers keep of a request stays as it was.
-/
namespace Water
open Spec
variable {ω : Type}

/-! ### a map that nobody uses -/

/-- the same memory with other contents in the maps at `a` -/
def Maps.over (m : Maps) (a : Nat) (x : Map Str EVal) (y : Params) : Maps :=
  { m with
    environs := fun b => if b = a then x else m.environs b
    params := fun b => if b = a then y else m.params b }

/-- see `Maps.over` -/
def MSt.over (s : MSt ω) (a : Nat) (x : Map Str EVal) (y : Params) : MSt ω := { s with maps := s.maps.over a x y }

/-- `a` was made earlier, and is not one of the maps of the context -/
structure Off (a : Nat) (s : MSt ω) : Prop where
  old : a < s.maps.next
  env : s.refs.env ≠ some a
  par : s.refs.par ≠ some a

variable {a : Nat} {x : Map Str EVal} {y : Params}

theorem over_environ {m : Maps} {r : Option Nat} (h : r ≠ some a) : (m.over a x y).environ r = m.environ r := by
  cases r with
  | none => rfl
  | some b =>
    have : b ≠ a := fun e => h (by rw [e])
    simp [Maps.environ, Maps.over, this]

theorem over_param {m : Maps} {r : Option Nat} (h : r ≠ some a) : (m.over a x y).param r = m.param r := by
  cases r with
  | none => rfl
  | some b =>
    have : b ≠ a := fun e => h (by rw [e])
    simp [Maps.param, Maps.over, this]

theorem over_setEnvirons {m : Maps} {b : Nat} (h : b ≠ a) (z : Map Str EVal) :
    (m.over a x y).setEnvirons b z = (m.setEnvirons b z).over a x y := by
  simp only [Maps.setEnvirons, Maps.over, Maps.mk.injEq, and_true]
  funext c
  by_cases hc : c = b
  · subst hc; simp [h]
  · simp [hc]

theorem over_setParamsAt {m : Maps} {b : Nat} (h : b ≠ a) (z : Params) :
    (m.over a x y).setParamsAt b z = (m.setParamsAt b z).over a x y := by
  simp only [Maps.setParamsAt, Maps.over, Maps.mk.injEq, true_and, and_true]
  funext c
  by_cases hc : c = b
  · subst hc; simp [h]
  · simp [hc]

theorem over_alloc {m : Maps} (h : a < m.next) (u : Map Str EVal) (v : Params) :
    (m.over a x y).alloc u v = ((m.alloc u v).1, (m.alloc u v).2.over a x y) := by
  simp only [Maps.alloc, Maps.over, Prod.mk.injEq, true_and, Maps.mk.injEq, and_true]
  refine ⟨?_, ?_⟩ <;> funext c <;> by_cases hc : c = m.next
  · have : c ≠ a := by omega
    simp [hc]; intro; omega
  · simp [hc]
  · simp [hc]; intro; omega
  · simp [hc]

theorem over_setRefs {m : Maps} (c : Nat) (r : Refs) : (m.over a x y).setRefs c r = (m.setRefs c r).over a x y := rfl

theorem useEnviron_over {m : Maps} {r : Option Nat} (h : r ≠ some a) (u : MapUse (Map Str EVal)) :
    useEnviron (m.over a x y) r u = ((useEnviron m r u).1, (useEnviron m r u).2.over a x y) := by
  cases u with
  | read f => simp [useEnviron, over_environ h]
  | write f =>
    cases r with
    | none => rfl
    | some b =>
      have hb : b ≠ a := fun e => h (by rw [e])
      simp only [useEnviron, over_setEnvirons hb]
      simp [Maps.over, hb]

theorem useParams_over {m : Maps} {r : Option Nat} (h : r ≠ some a) (u : MapUse Params) :
    useParams (m.over a x y) r u = ((useParams m r u).1, (useParams m r u).2.over a x y) := by
  cases u with
  | read f => simp [useParams, over_param h]
  | write f =>
    cases r with
    | none => rfl
    | some b =>
      have hb : b ≠ a := fun e => h (by rw [e])
      simp only [useParams, over_setParamsAt hb]
      simp [Maps.over, hb]

theorem useEnviron_rest (m : Maps) (r : Option Nat) (u : MapUse (Map Str EVal)) :
    (useEnviron m r u).2.next = m.next ∧ (useEnviron m r u).2.refs = m.refs ∧ (useEnviron m r u).2.params = m.params := by
  cases u with
  | read f => exact ⟨rfl, rfl, rfl⟩
  | write f => cases r <;> exact ⟨rfl, rfl, rfl⟩

theorem useParams_rest (m : Maps) (r : Option Nat) (u : MapUse Params) :
    (useParams m r u).2.next = m.next ∧ (useParams m r u).2.refs = m.refs ∧ (useParams m r u).2.environs = m.environs := by
  cases u with
  | read f => exact ⟨rfl, rfl, rfl⟩
  | write f => cases r <;> exact ⟨rfl, rfl, rfl⟩

theorem view_over {s : MSt ω} (h : Off a s) : (s.over a x y).view = s.view := by
  have h1 : (s.over a x y).maps.environ s.refs.env = s.maps.environ s.refs.env := over_environ h.env
  have h2 : (s.over a x y).maps.param s.refs.par = s.maps.param s.refs.par := over_param h.par
  have hr : (s.over a x y).refs = s.refs := rfl
  have hs : (s.over a x y).st = s.st := rfl
  unfold MSt.view
  rw [hr, hs, h1, h2]

theorem back_over {s : MSt ω} (h : Off a s) (t : St ω) : (s.over a x y).back t = (s.back t).over a x y := by
  have hr : (s.over a x y).refs = s.refs := rfl
  unfold MSt.back
  rw [hr]
  cases hb : s.refs.env with
  | none => rfl
  | some b =>
    have hne : b ≠ a := fun e => h.env (by rw [hb, e])
    show MSt.mk _ _ _ ((s.maps.over a x y).setEnvirons b t.ctx.environ) _ = _
    rw [over_setEnvirons hne]; rfl

theorem back_off {s : MSt ω} (h : Off a s) (t : St ω) : Off a (s.back t) := by
  unfold MSt.back
  cases hb : s.refs.env with
  | none => exact ⟨h.old, by show s.refs.env ≠ _; exact h.env, h.par⟩
  | some b => exact ⟨h.old, by show s.refs.env ≠ _; exact h.env, h.par⟩

/-- what a piece of code does if nobody uses `a` -/
def Frames (a : Nat) (x : Map Str EVal) (y : Params) (f : MSt ω → Out × MSt ω) : Prop :=
  ∀ s, (∃ us, (f s).2.uses = s.uses ++ us) ∧
    (Off a s → a ∉ (f s).2.uses → f (s.over a x y) = ((f s).1, (f s).2.over a x y) ∧ Off a (f s).2)

theorem mCall_frames (o : Oracle) (req : Req) (c : MCall ω) (s : MSt ω) :
    (∃ us, (mCall o req s c).2.uses = s.uses ++ us) ∧
    (Off a s → a ∉ (mCall o req s c).2.uses →
      mCall o req (s.over a x y) c = ((mCall o req s c).1, (mCall o req s c).2.over a x y) ∧ Off a (mCall o req s c).2) := by
  have none' : ∃ us, s.uses = s.uses ++ us := ⟨[], by simp⟩
  have off' : ∀ {m : Maps}, Off a s → m.next = s.maps.next → m.refs = s.maps.refs → ∀ us, Off a { s with maps := m, uses := us } := by
    intro m h h1 h2 us
    refine ⟨by show a < m.next; rw [h1]; exact h.old, ?_, ?_⟩
    · show (m.refs s.me).env ≠ _; rw [h2]; exact h.env
    · show (m.refs s.me).par ≠ _; rw [h2]; exact h.par
  cases c with
  | plain c =>
    have key : (∃ us, (let (r, t) := doCall o req s.view c; (r.map MRes.res, s.back t)).2.uses = s.uses ++ us) ∧
        (Off a s → (let (r, t) := doCall o req (s.over a x y).view c; (r.map MRes.res, (s.over a x y).back t)) =
          ((doCall o req s.view c).1.map MRes.res, (s.back (doCall o req s.view c).2).over a x y) ∧
          Off a (s.back (doCall o req s.view c).2)) := by
      refine ⟨none', ?_⟩
      intro h
      rw [view_over h]
      exact ⟨by dsimp only; rw [back_over h], back_off h _⟩
    by_cases hn : s.refs.env = none ∧ ∃ k v, c = .envSet k v
    · obtain ⟨h1, k, v, rfl⟩ := hn
      have e1 : mCall o req s (.plain (.envSet k v)) = (.error callPanic, s) := by simp only [mCall, h1]
      have e2 : mCall o req (s.over a x y) (.plain (.envSet k v)) = (.error callPanic, s.over a x y) := by
        have : (s.over a x y).refs.env = none := h1
        simp only [mCall, this]
      rw [e1, e2]
      exact ⟨none', fun h _ => ⟨rfl, h⟩⟩
    · have e1 : ∀ s' : MSt ω, s'.refs = s.refs → mCall o req s' (.plain c) =
          (let (r, t) := doCall o req s'.view c; (r.map MRes.res, s'.back t)) := by
        intro s' hs'
        simp only [mCall, hs']
        split
        · rename_i k v h1; exact absurd ⟨h1, k, v, rfl⟩ hn
        · rfl
      rw [e1 s rfl, e1 (s.over a x y) rfl]
      exact ⟨key.1, fun h _ => key.2 h⟩
  | environ u =>
    obtain ⟨h1, h2, _⟩ := useEnviron_rest s.maps s.refs.env u
    refine ⟨none', fun h _ => ⟨?_, off' h h1 h2 _⟩⟩
    simp only [mCall, MSt.over]
    rw [show (MSt.refs ⟨s.st, s.handlers, s.me, s.maps.over a x y, s.uses⟩).env = s.refs.env from rfl, useEnviron_over h.env]
  | params u =>
    obtain ⟨h1, h2, _⟩ := useParams_rest s.maps s.refs.par u
    refine ⟨none', fun h _ => ⟨?_, off' h h1 h2 _⟩⟩
    simp only [mCall, MSt.over]
    rw [show (MSt.refs ⟨s.st, s.handlers, s.me, s.maps.over a x y, s.uses⟩).par = s.refs.par from rfl, useParams_over h.par]
  | keep => exact ⟨none', fun h _ => ⟨rfl, h⟩⟩
  | self => exact ⟨none', fun h _ => ⟨rfl, h⟩⟩
  | peek c => exact ⟨none', fun h _ => ⟨rfl, h⟩⟩
  | keptEnviron b u =>
    obtain ⟨h1, h2, _⟩ := useEnviron_rest s.maps b u
    refine ⟨⟨b.toList, rfl⟩, fun h hu => ⟨?_, off' h h1 h2 _⟩⟩
    have hb : b ≠ some a := by
      rintro rfl
      exact hu (by simp [mCall])
    simp only [mCall, MSt.over, useEnviron_over hb]
  | keptParams b u =>
    obtain ⟨h1, h2, _⟩ := useParams_rest s.maps b u
    refine ⟨⟨b.toList, rfl⟩, fun h hu => ⟨?_, off' h h1 h2 _⟩⟩
    have hb : b ≠ some a := by
      rintro rfl
      exact hu (by simp [mCall])
    simp only [mCall, MSt.over, useParams_over hb]
  | setEnviron b =>
    refine ⟨⟨b.toList, rfl⟩, fun h hu => ⟨rfl, ?_⟩⟩
    have hb : b ≠ some a := by
      rintro rfl
      exact hu (by simp [mCall])
    exact ⟨h.old, by simpa [mCall, MSt.refs, Maps.setRefs] using hb, by simpa [mCall, MSt.refs, Maps.setRefs] using h.par⟩
  | setParams b =>
    refine ⟨⟨b.toList, rfl⟩, fun h hu => ⟨rfl, ?_⟩⟩
    have hb : b ≠ some a := by
      rintro rfl
      exact hu (by simp [mCall])
    exact ⟨h.old, by simpa [mCall, MSt.refs, Maps.setRefs] using h.env, by simpa [mCall, MSt.refs, Maps.setRefs] using hb⟩
  | make =>
    refine ⟨none', fun h _ => ⟨?_, ?_⟩⟩
    · simp only [mCall, MSt.over, over_alloc h.old]
    · exact ⟨by show a < s.maps.next + 1; have := h.old; omega, h.env, h.par⟩

theorem execM_frames (o : Oracle) (req : Req) {nx : MSt ω → Out × MSt ω} (hx : Frames a x y nx) (i : Nat) (p : MProg ω) :
    Frames a x y (execM o req nx i p) := by
  induction p with
  | ret => intro s; exact ⟨⟨[], by simp [execM]⟩, fun h _ => ⟨rfl, h⟩⟩
  | panic v => intro s; exact ⟨⟨[], by simp [execM]⟩, fun h _ => ⟨rfl, h⟩⟩
  | next k ih =>
    intro s
    obtain ⟨⟨us, h1⟩, h2⟩ := hx (s.log (.next i)).bump
    have ho : Off a s → Off a (s.log (.next i)).bump := fun h => ⟨h.old, h.env, h.par⟩
    simp only [execM]
    rcases hn : nx (s.log (.next i)).bump with ⟨out, s1⟩
    rw [hn] at h1 h2
    have e1 : ((s.over a x y).log (.next i)).bump = (s.log (.next i)).bump.over a x y := rfl
    rw [e1]
    cases out with
    | ret =>
      obtain ⟨⟨vs, h3⟩, h4⟩ := ih (s1.log (.back i))
      refine ⟨⟨us ++ vs, by dsimp only; rw [h3]; show s1.uses ++ vs = _; rw [h1]; show s.uses ++ us ++ vs = _; simp⟩, ?_⟩
      intro h hu
      dsimp only at hu ⊢
      have hu1 : a ∉ s1.uses := by rw [h3] at hu; exact fun hh => hu (List.mem_append_left _ hh)
      obtain ⟨h5, h6⟩ := h2 (ho h) hu1
      rw [h5]
      exact h4 ⟨h6.old, h6.env, h6.par⟩ hu
    | panic v =>
      refine ⟨⟨us, h1⟩, ?_⟩
      intro h hu
      obtain ⟨h5, h6⟩ := h2 (ho h) hu
      rw [h5]
      exact ⟨rfl, ⟨h6.old, h6.env, h6.par⟩⟩
    | fuel =>
      refine ⟨⟨us, h1⟩, ?_⟩
      intro h hu
      obtain ⟨h5, h6⟩ := h2 (ho h) hu
      rw [h5]
      exact ⟨rfl, h6⟩
  | call c k ih =>
    intro s
    obtain ⟨⟨us, h1⟩, h2⟩ := mCall_frames (a := a) (x := x) (y := y) o req c s
    simp only [execM]
    rcases hn : mCall o req s c with ⟨r, s1⟩
    rw [hn] at h1 h2
    cases r with
    | error v =>
      refine ⟨⟨us, h1⟩, ?_⟩
      intro h hu
      obtain ⟨h5, h6⟩ := h2 h hu
      rw [h5]
      exact ⟨rfl, h6⟩
    | ok r =>
      obtain ⟨⟨vs, h3⟩, h4⟩ := ih r s1
      refine ⟨⟨us ++ vs, by dsimp only at h1 ⊢; rw [h3, h1]; simp⟩, ?_⟩
      intro h hu
      dsimp only at hu h1 ⊢
      have hu1 : a ∉ s1.uses := by rw [h3] at hu; exact fun hh => hu (List.mem_append_left _ hh)
      obtain ⟨h5, h6⟩ := h2 h hu1
      rw [h5]
      exact h4 h6 hu
  | scope body fin ihb ihf =>
    intro s
    obtain ⟨⟨us, h1⟩, h2⟩ := ihb s
    simp only [execM]
    rcases hn : execM o req nx i body s with ⟨out, s1⟩
    rw [hn] at h1 h2
    have key : ∀ r, (∃ us, (execM o req nx i (fin r) s1).2.uses = s.uses ++ us) ∧
        (Off a s → a ∉ (execM o req nx i (fin r) s1).2.uses → ∃ s2, execM o req nx i body (s.over a x y) = (out, s2) ∧
          execM o req nx i (fin r) s2 = ((execM o req nx i (fin r) s1).1, (execM o req nx i (fin r) s1).2.over a x y) ∧
          Off a (execM o req nx i (fin r) s1).2) := by
      intro r
      obtain ⟨⟨vs, h3⟩, h4⟩ := ihf r s1
      refine ⟨⟨us ++ vs, by dsimp only at h1; rw [h3, h1]; simp⟩, ?_⟩
      intro h hu
      have hu1 : a ∉ s1.uses := by rw [h3] at hu; exact fun hh => hu (List.mem_append_left _ hh)
      obtain ⟨h5, h6⟩ := h2 h hu1
      exact ⟨_, h5, h4 h6 hu⟩
    cases out with
    | ret =>
      obtain ⟨k1, k2⟩ := key none
      refine ⟨k1, fun h hu => ?_⟩
      obtain ⟨s2, h5, h6⟩ := k2 h hu
      rw [h5]; exact h6
    | panic v =>
      obtain ⟨k1, k2⟩ := key (some v)
      refine ⟨k1, fun h hu => ?_⟩
      obtain ⟨s2, h5, h6⟩ := k2 h hu
      rw [h5]; exact h6
    | fuel =>
      refine ⟨⟨us, h1⟩, ?_⟩
      intro h hu
      obtain ⟨h5, h6⟩ := h2 h hu
      rw [h5]
      exact ⟨rfl, h6⟩

theorem runM_frames (o : Oracle) (req : Req) (n : Nat) : Frames (ω := ω) a x y (runM o req n) := by
  induction n with
  | zero => intro s; exact ⟨⟨[], by simp [runM]⟩, fun h _ => ⟨rfl, h⟩⟩
  | succ n ih =>
    intro s
    have eo : ∀ s : MSt ω, runM o req (n + 1) s = match s.handlers[s.st.ctx.index]? with
      | none => (.ret, s)
      | some h =>
        match execM o req (runM o req n) s.st.ctx.index h (s.log (.start s.st.ctx.index)) with
        | (.ret, t) => if t.st.ctx.written then (.ret, (t.log (.stop s.st.ctx.index t.st.ctx.written)).bump)
            else runM o req n (t.log (.stop s.st.ctx.index t.st.ctx.written)).bump
        | (.panic v, t) => (.panic v, t.log (.crash s.st.ctx.index))
        | (.fuel, t) => (.fuel, t) := fun s => rfl
    rw [eo s, eo (s.over a x y)]
    have e1 : (s.over a x y).handlers = s.handlers := rfl
    have e2 : (s.over a x y).st = s.st := rfl
    rw [e1, e2]
    cases s.handlers[s.st.ctx.index]? with
    | none => exact ⟨⟨[], by simp⟩, fun h _ => ⟨rfl, h⟩⟩
    | some p =>
      obtain ⟨⟨us, h1⟩, h2⟩ := execM_frames o req ih s.st.ctx.index p (s.log (.start s.st.ctx.index))
      have ho : Off a s → Off a (s.log (.start s.st.ctx.index)) := fun h => ⟨h.old, h.env, h.par⟩
      have e3 : (s.over a x y).log (.start s.st.ctx.index) = (s.log (.start s.st.ctx.index)).over a x y := rfl
      rw [e3]
      dsimp only
      rcases hn : execM o req (runM o req n) s.st.ctx.index p (s.log (.start s.st.ctx.index)) with ⟨out, s1⟩
      rw [hn] at h1 h2
      cases out with
      | ret =>
        dsimp only
        by_cases hw : s1.st.ctx.written = true
        · rw [if_pos hw]
          refine ⟨⟨us, h1⟩, fun h hu => ?_⟩
          obtain ⟨h5, h6⟩ := h2 (ho h) hu
          rw [h5]
          have : (s1.over a x y).st.ctx.written = true := hw
          dsimp only
          rw [if_pos this]
          exact ⟨rfl, ⟨h6.old, h6.env, h6.par⟩⟩
        · rw [if_neg hw]
          obtain ⟨⟨vs, h3⟩, h4⟩ := ih (s1.log (.stop s.st.ctx.index s1.st.ctx.written)).bump
          refine ⟨⟨us ++ vs, by rw [h3]; show s1.uses ++ vs = _; dsimp only at h1; rw [h1]; show s.uses ++ us ++ vs = _; simp⟩, fun h hu => ?_⟩
          have hu1 : a ∉ s1.uses := by rw [h3] at hu; exact fun hh => hu (List.mem_append_left _ hh)
          obtain ⟨h5, h6⟩ := h2 (ho h) hu1
          rw [h5]
          have : ¬ (s1.over a x y).st.ctx.written = true := hw
          dsimp only
          rw [if_neg this]
          exact h4 ⟨h6.old, h6.env, h6.par⟩ hu
      | panic v =>
        refine ⟨⟨us, h1⟩, fun h hu => ?_⟩
        obtain ⟨h5, h6⟩ := h2 (ho h) hu
        rw [h5]
        exact ⟨rfl, ⟨h6.old, h6.env, h6.par⟩⟩
      | fuel =>
        refine ⟨⟨us, h1⟩, fun h hu => ?_⟩
        obtain ⟨h5, h6⟩ := h2 (ho h) hu
        rw [h5]
        exact ⟨rfl, h6⟩

/-- `t` is a later state of the same request: other contexts were not assigned to. -/
def Mine (s t : MSt ω) : Prop := t.me = s.me ∧ t.handlers = s.handlers ∧ ∀ d, d ≠ s.me → t.maps.refs d = s.maps.refs d

theorem Mine.refl (s : MSt ω) : Mine s s := ⟨rfl, rfl, fun _ _ => rfl⟩
theorem Mine.trans {s t u : MSt ω} (h : Mine s t) (h' : Mine t u) : Mine s u :=
  ⟨h'.1.trans h.1, h'.2.1.trans h.2.1, fun d hd => (h'.2.2 d (by rwa [h.1])).trans (h.2.2 d hd)⟩

theorem useEnviron_refs (m : Maps) (b : Option Nat) (u : MapUse (Map Str EVal)) : (useEnviron m b u).2.refs = m.refs := by
  cases u <;> cases b <;> rfl
theorem useParams_refs (m : Maps) (b : Option Nat) (u : MapUse Params) : (useParams m b u).2.refs = m.refs := by
  cases u <;> cases b <;> rfl
theorem back_mine (s : MSt ω) (t : St ω) : Mine s (s.back t) := by
  refine ⟨rfl, rfl, fun d _ => ?_⟩
  unfold MSt.back
  cases s.refs.env <;> rfl

/-- a call of `Context.lean` leaves everything as it is, or changes what `back` says -/
theorem mCall_plain (o : Oracle) (req : Req) (s : MSt ω) (c : Call ω) :
    (mCall o req s (.plain c)).2 = s ∨ (mCall o req s (.plain c)).2 = s.back (doCall o req s.view c).2 := by
  simp only [mCall]
  split
  · exact .inl rfl
  · exact .inr rfl

theorem mCall_mine (o : Oracle) (req : Req) (s : MSt ω) (c : MCall ω) : Mine s (mCall o req s c).2 := by
  cases c with
  | plain c =>
    rcases mCall_plain o req s c with h | h <;> rw [h]
    · exact Mine.refl s
    · exact back_mine s _
  | environ u => exact ⟨rfl, rfl, fun d _ => congrFun (useEnviron_refs _ _ u) d⟩
  | params u => exact ⟨rfl, rfl, fun d _ => congrFun (useParams_refs _ _ u) d⟩
  | keep => exact Mine.refl s
  | self => exact Mine.refl s
  | peek c => exact Mine.refl s
  | keptEnviron b u => exact ⟨rfl, rfl, fun d _ => congrFun (useEnviron_refs _ b u) d⟩
  | keptParams b u => exact ⟨rfl, rfl, fun d _ => congrFun (useParams_refs _ b u) d⟩
  | setEnviron b => exact ⟨rfl, rfl, fun d hd => by simp [mCall, Maps.setRefs, hd]⟩
  | setParams b => exact ⟨rfl, rfl, fun d hd => by simp [mCall, Maps.setRefs, hd]⟩
  | make => exact ⟨rfl, rfl, fun d _ => rfl⟩

/-- What it takes for a relation between states to hold along a run of handlers satisfying `P`. -/
structure Along (o : Oracle) (req : Req) (P : MProg ω → Prop) (R : MSt ω → MSt ω → Prop) : Prop where
  refl : ∀ s, R s s
  trans : ∀ {s t u}, R s t → R t u → R s u
  same : ∀ {s t}, R s t → t.handlers = s.handlers
  log : ∀ s e, R s (s.log e)
  bump : ∀ s, R s s.bump
  next : ∀ {k}, P (.next k) → P k
  call : ∀ {c k}, P (.call c k) → (∀ s, R s (mCall o req s c).2) ∧ ∀ r, P (k r)
  scope : ∀ {b f}, P (.scope b f) → P b ∧ ∀ v, P (f v)

theorem execM_along {R : MSt ω → MSt ω → Prop} {P : MProg ω → Prop} {o : Oracle} {req : Req} (A : Along o req P R)
    {nx : MSt ω → Out × MSt ω} (hn : ∀ s : MSt ω, (∀ h ∈ s.handlers, P h) → R s (nx s).2) (i : Nat) (p : MProg ω) (hp : P p) (s : MSt ω)
    (hs : ∀ h ∈ s.handlers, P h) : R s (execM o req nx i p s).2 := by
  have keep : ∀ {s t : MSt ω}, R s t → (∀ h ∈ s.handlers, P h) → ∀ h ∈ t.handlers, P h := fun r h => by rw [A.same r]; exact h
  induction p generalizing s with
  | ret => exact A.refl s
  | panic v => exact A.refl s
  | next k ih =>
    unfold execM
    have h0 := A.trans (A.log s (.next i)) (A.bump _)
    have h1 := A.trans h0 (hn _ (keep h0 hs))
    revert h1
    rcases nx (s.log (.next i)).bump with ⟨out, t⟩
    intro h1
    cases out with
    | ret => have h2 := A.trans h1 (A.log t (.back i)); exact A.trans h2 (ih (A.next hp) _ (keep h2 hs))
    | panic v => exact A.trans h1 (A.log _ _)
    | fuel => exact h1
  | call c k ih =>
    unfold execM
    have h1 := (A.call hp).1 s
    revert h1
    rcases mCall o req s c with ⟨r, t⟩
    intro h1
    cases r with
    | ok r => exact A.trans h1 (ih r ((A.call hp).2 r) _ (keep h1 hs))
    | error v => exact h1
  | scope b f ihb ihf =>
    unfold execM
    have h1 := ihb (A.scope hp).1 s hs
    revert h1
    rcases execM o req nx i b s with ⟨out, t⟩
    intro h1
    cases out with
    | ret => exact A.trans h1 (ihf _ ((A.scope hp).2 _) _ (keep h1 hs))
    | panic v => exact A.trans h1 (ihf _ ((A.scope hp).2 _) _ (keep h1 hs))
    | fuel => exact h1

theorem runM_along {R : MSt ω → MSt ω → Prop} {P : MProg ω → Prop} {o : Oracle} {req : Req} (A : Along o req P R)
    (n : Nat) (s : MSt ω) (hs : ∀ h ∈ s.handlers, P h) : R s (runM o req n s).2 := by
  induction n generalizing s with
  | zero => exact A.refl s
  | succ n ih =>
    unfold runM
    cases hh : s.handlers[s.st.ctx.index]? with
    | none => exact A.refl s
    | some p =>
      dsimp only
      have h0 := A.log s (.start s.st.ctx.index)
      have h1 := A.trans h0 (execM_along A ih s.st.ctx.index p (hs p (List.mem_of_getElem? hh)) (s.log (.start s.st.ctx.index))
        (by rw [A.same h0]; exact hs))
      revert h1
      rcases execM o req (runM o req n) s.st.ctx.index p (s.log (.start s.st.ctx.index)) with ⟨out, t⟩
      intro h1
      cases out with
      | ret =>
        have h2 := A.trans h1 (A.trans (A.log t (.stop s.st.ctx.index t.st.ctx.written)) (A.bump _))
        dsimp only
        split
        · exact h2
        · exact A.trans h2 (ih _ (by rw [A.same h2]; exact hs))
      | panic v => exact A.trans h1 (A.log _ _)
      | fuel => exact h1

theorem runM_mine (o : Oracle) (req : Req) (n : Nat) (s : MSt ω) : Mine s (runM o req n s).2 :=
  runM_along (P := fun _ => True)
    { refl := Mine.refl, trans := Mine.trans, same := fun h => h.2.1, log := fun _ _ => ⟨rfl, rfl, fun _ _ => rfl⟩
      bump := fun _ => ⟨rfl, rfl, fun _ _ => rfl⟩, next := fun _ => trivial, call := fun _ => ⟨fun s => mCall_mine o req s _, fun _ => trivial⟩
      scope := fun _ => ⟨trivial, fun _ => trivial⟩ } n s (fun _ _ => trivial)

/-- without the option for static routes `ctx.Params` is assigned to -/
theorem lookup_params_some (rx : Regex) {e : Engine (MProg ω)} (h : e.enableStatic = false) (i : Nat) (path : Str) :
    (lookup rx e i path).2 ≠ none := by
  unfold lookup
  simp only [h]
  cases e.trees i <;> simp

/-- the same outcome with other contents in the maps at `a` -/
def MServed.over (r : MServed ω) (a : Nat) (x : Map Str EVal) (y : Params) : MServed ω := { r with maps := r.maps.over a x y }

theorem arrive_over {m : Maps} (h : a < m.next) (c : Nat) (ps : Option (Option Params)) :
    (m.over a x y).arrive c ps = (m.arrive c ps).over a x y := by
  match ps with
  | none => rfl
  | some none => rfl
  | some (some ps) =>
    simp only [Maps.arrive, over_alloc h]
    rfl

theorem arrive_off {m : Maps} (h : a < m.next) {c : Nat} {ps : Option (Option Params)} (hp : ps ≠ none ∨ (m.refs c).par ≠ some a) :
    a < (m.arrive c ps).next ∧ ((m.arrive c ps).refs c).par ≠ some a := by
  match ps with
  | none => exact ⟨h, hp.resolve_left (by simp)⟩
  | some none => exact ⟨h, by simp [Maps.arrive, Maps.setRefs]⟩
  | some (some ps) =>
    refine ⟨by simp [Maps.arrive, Maps.setRefs, Maps.alloc]; omega, ?_⟩
    simp [Maps.arrive, Maps.setRefs, Maps.alloc]; omega

theorem freshEnviron_over {m : Maps} (h : a < m.next) (c : Nat) : (m.over a x y).freshEnviron c = (m.freshEnviron c).over a x y := by
  simp only [Maps.freshEnviron, over_alloc h]
  rfl

theorem freshEnviron_off {m : Maps} (h : a < m.next) {c : Nat} (hp : (m.refs c).par ≠ some a) :
    a < (m.freshEnviron c).next ∧ ((m.freshEnviron c).refs c).env ≠ some a ∧ ((m.freshEnviron c).refs c).par ≠ some a := by
  refine ⟨by simp [Maps.freshEnviron, Maps.setRefs, Maps.alloc]; omega, ?_, ?_⟩
  · simp [Maps.freshEnviron, Maps.setRefs, Maps.alloc]; omega
  · simpa [Maps.freshEnviron, Maps.setRefs, Maps.alloc] using hp

theorem runRoutedM_over (o : Oracle) {c : Nat} (req : Req) (rw : Writer) (body : Option Str) (w : ω) {m : Maps} (uri : Option Str)
    (hs : Option (List (MProg ω))) (h : a < m.next) (hp : (m.refs c).par ≠ some a) (hu : a ∉ (runRoutedM o c req rw body w m uri hs).uses) :
    runRoutedM o c req rw body w (m.over a x y) uri hs = (runRoutedM o c req rw body w m uri hs).over a x y ∧
    a < (runRoutedM o c req rw body w m uri hs).maps.next ∧ ((runRoutedM o c req rw body w m uri hs).maps.refs c).par ≠ some a := by
  cases hs with
  | none => exact ⟨rfl, h, hp⟩
  | some hs =>
    simp only [runRoutedM, runAllM] at hu ⊢
    rw [freshEnviron_over h]
    obtain ⟨f1, f2, f3⟩ := freshEnviron_off h (c := c) hp
    obtain ⟨h1, h2⟩ := (runM_frames (a := a) (x := x) (y := y) o req (hs.length + 1)
      { st := { ctx := freshCtx uri, rw, body, forms := [], world := w, trace := [] }, handlers := hs, me := c,
        maps := m.freshEnviron c, uses := [] }).2 ⟨f1, f2, f3⟩ hu
    simp only [MSt.over] at h1
    have hm := runM_mine o req (hs.length + 1)
      { st := { ctx := freshCtx uri, rw, body, forms := [], world := w, trace := [] }, handlers := hs, me := c,
        maps := m.freshEnviron c, uses := [] }
    refine ⟨?_, h2.old, ?_⟩
    · rw [h1]; rfl
    · have := h2.par
      unfold MSt.refs at this
      rwa [hm.1] at this

theorem serveM_cases (rx : Regex) (o : Oracle) (e : Engine (MProg ω)) (c : Nat) (req : Req) (rw : Writer) (body : Option Str) (w : ω) :
    (∃ code, ∀ m, serveM rx o e c req rw body w m = refusedM o rw w m code) ∨
    (∃ i, methodIndex req.method = some i ∧ ∀ m, serveM rx o e c req rw body w m =
      runRoutedM o c req rw body w (m.arrive c (lookup rx e i req.path).2) ((lookup rx e i req.path).1.map (·.uri))
        (chainForM e (lookup rx e i req.path).1)) := by
  unfold serveM
  split
  · exact .inl ⟨406, fun _ => rfl⟩
  · split
    · exact .inl ⟨405, fun _ => rfl⟩
    · rename_i i h; exact .inr ⟨i, h, fun _ => rfl⟩

/-- **C116.** What is in a map of an earlier request has no part in a later one: with other contents in the map, everything is the same
but for these contents. The map must exist (`a < m.next`), no handler may use it through a variable, and with the option for static
routes `ctx.Params` must not still refer to it. -/
theorem C116_request (rx : Regex) (o : Oracle) (e : Engine (MProg ω)) (c : Nat) (req : Req) (rw : Writer) (body : Option Str) (w : ω)
    (m : Maps) (a : Nat) (x : Map Str EVal) (y : Params) (h : a < m.next) (hp : e.enableStatic = false ∨ (m.refs c).par ≠ some a)
    (hu : a ∉ (serveM rx o e c req rw body w m).uses) :
    serveM rx o e c req rw body w (m.over a x y) = (serveM rx o e c req rw body w m).over a x y := by
  rcases serveM_cases rx o e c req rw body w with ⟨code, hc⟩ | ⟨i, _, hc⟩
  · rw [hc, hc]; rfl
  · rw [hc] at hu
    rw [hc, hc, arrive_over h]
    obtain ⟨h3, h4⟩ := arrive_off h (c := c) (ps := (lookup rx e i req.path).2) (hp.imp_left (fun hs => lookup_params_some rx hs i req.path))
    exact (runRoutedM_over o req rw body w _ _ h3 h4 hu).1

theorem over_same (m : Maps) (a : Nat) : m.over a (m.environs a) (m.params a) = m := by
  have h1 : (fun b => if b = a then m.environs a else m.environs b) = m.environs := by funext b; split <;> simp_all
  have h2 : (fun b => if b = a then m.params a else m.params b) = m.params := by funext b; split <;> simp_all
  unfold Maps.over
  rw [h1, h2]

/-- **C116.** The map is unchanged after the request. -/
theorem C116_unchanged (rx : Regex) (o : Oracle) (e : Engine (MProg ω)) (c : Nat) (req : Req) (rw : Writer) (body : Option Str) (w : ω)
    (m : Maps) (a : Nat) (h : a < m.next) (hp : e.enableStatic = false ∨ (m.refs c).par ≠ some a)
    (hu : a ∉ (serveM rx o e c req rw body w m).uses) :
    (serveM rx o e c req rw body w m).maps.environs a = m.environs a ∧ (serveM rx o e c req rw body w m).maps.params a = m.params a := by
  have := C116_request rx o e c req rw body w m a (m.environs a) (m.params a) h hp hu
  rw [over_same] at this
  rw [this]
  simp [MServed.over, Maps.over]

theorem arrive_refs (m : Maps) (c : Nat) (ps : Option (Option Params)) {d : Nat} (h : d ≠ c) : (m.arrive c ps).refs d = m.refs d := by
  match ps with
  | none => rfl
  | some none => simp [Maps.arrive, Maps.setRefs, h]
  | some (some ps) => simp [Maps.arrive, Maps.setRefs, Maps.alloc, h]

theorem freshEnviron_refs (m : Maps) (c : Nat) {d : Nat} (h : d ≠ c) : (m.freshEnviron c).refs d = m.refs d := by
  simp [Maps.freshEnviron, Maps.setRefs, Maps.alloc, h]

/-- **C116.** A request assigns to the context it is served with and no other: a handler still running for another request finds its
own maps. -/
theorem C116_contexts (rx : Regex) (o : Oracle) (e : Engine (MProg ω)) (c : Nat) (req : Req) (rw : Writer) (body : Option Str) (w : ω)
    (m : Maps) (d : Nat) (h : d ≠ c) : (serveM rx o e c req rw body w m).maps.refs d = m.refs d := by
  rcases serveM_cases rx o e c req rw body w with ⟨code, hc⟩ | ⟨i, _, hc⟩
  · rw [hc]; rfl
  · rw [hc]
    cases chainForM e (lookup rx e i req.path).1 with
    | none => exact arrive_refs m c _ h
    | some hs =>
      refine ((runM_mine o req (hs.length + 1) _).2.2 d h).trans ?_
      exact (freshEnviron_refs _ c h).trans (arrive_refs m c _ h)

/-- the server with other contents in the maps at `a` -/
def MServer.over (s : MServer ω) (a : Nat) (x : Map Str EVal) (y : Params) : MServer ω := { s with maps := s.maps.over a x y }

/-- requests one after the other -/
def MServer.run (rx : Regex) (o : Oracle) (e : Engine (MProg ω)) (s : MServer ω) (qs : List Arrival) : MServer ω :=
  qs.foldl (MServer.step rx o e) s

theorem serveM_off (rx : Regex) (o : Oracle) (e : Engine (MProg ω)) (c : Nat) (req : Req) (rw : Writer) (body : Option Str) (w : ω)
    {m : Maps} {a : Nat} (h : a < m.next) (hp : e.enableStatic = false ∨ (m.refs c).par ≠ some a)
    (hu : a ∉ (serveM rx o e c req rw body w m).uses) :
    a < (serveM rx o e c req rw body w m).maps.next ∧
    ((m.refs c).par ≠ some a → ((serveM rx o e c req rw body w m).maps.refs c).par ≠ some a) := by
  rcases serveM_cases rx o e c req rw body w with ⟨code, hc⟩ | ⟨i, _, hc⟩
  · rw [hc]; exact ⟨h, id⟩
  · rw [hc] at hu ⊢
    obtain ⟨h3, h4⟩ := arrive_off h (c := c) (ps := (lookup rx e i req.path).2) (hp.imp_left (fun hs => lookup_params_some rx hs i req.path))
    have := (runRoutedM_over (x := Map.empty) (y := Map.empty) o req rw body w _ _ h3 h4 hu).2
    exact ⟨this.1, fun _ => this.2⟩

/-- no context refers to the map as `ctx.Params`, or the option for static routes is off -/
def Unheld (e : Engine (MProg ω)) (s : MServer ω) (a : Nat) : Prop := e.enableStatic = false ∨ ∀ c, (s.maps.refs c).par ≠ some a

theorem ready_over (s : MServer ω) (q : Arrival) (a : Nat) (x : Map Str EVal) (y : Params) :
    (s.over a x y).ready q = (s.ready q).over a x y := by
  have : (s.over a x y).get q = s.get q := rfl
  unfold MServer.ready
  rw [this]
  split <;> rfl

theorem ready_next (s : MServer ω) (q : Arrival) : (s.ready q).next = s.maps.next := by
  unfold MServer.ready
  split <;> rfl

theorem ready_par {s : MServer ω} (q : Arrival) {a : Nat} (h : ∀ c, (s.maps.refs c).par ≠ some a) (c : Nat) :
    ((s.ready q).refs c).par ≠ some a := by
  unfold MServer.ready
  split
  · exact h c
  · simp only [Maps.setRefs]; split
    · simp
    · exact h c

theorem step_uses (rx : Regex) (o : Oracle) (e : Engine (MProg ω)) (s : MServer ω) (q : Arrival) :
    ∃ us, (s.step rx o e q).uses = s.uses ++ us := by
  unfold MServer.step
  dsimp only
  split
  · exact ⟨_, rfl⟩
  · exact ⟨[], by simp⟩

theorem run_uses (rx : Regex) (o : Oracle) (e : Engine (MProg ω)) (s : MServer ω) (qs : List Arrival) :
    ∃ us, (s.run rx o e qs).uses = s.uses ++ us := by
  induction qs generalizing s with
  | nil => exact ⟨[], by simp [MServer.run]⟩
  | cons q qs ih =>
    obtain ⟨us, h1⟩ := step_uses rx o e s q
    obtain ⟨vs, h2⟩ := ih (s.step rx o e q)
    exact ⟨us ++ vs, by show ((s.step rx o e q).run rx o e qs).uses = _; rw [h2, h1]; simp⟩

theorem serveM_took (rx : Regex) (o : Oracle) (e : Engine (MProg ω)) (c : Nat) (req : Req) (rw : Writer) (body : Option Str) (w : ω)
    (m : Maps) (h : (serveM rx o e c req rw body w m).took = false) :
    (serveM rx o e c req rw body w m).maps = m ∧ (serveM rx o e c req rw body w m).uses = [] := by
  rcases serveM_cases rx o e c req rw body w with ⟨code, hc⟩ | ⟨i, _, hc⟩
  · rw [hc]; exact ⟨rfl, rfl⟩
  · rw [hc] at h
    cases hh : chainForM e (lookup rx e i req.path).1 <;> rw [hh] at h <;> exact absurd h (by simp [runRoutedM, servedM])

theorem step_over (rx : Regex) (o : Oracle) (e : Engine (MProg ω)) (s : MServer ω) (q : Arrival) {a : Nat} {x : Map Str EVal} {y : Params}
    (h : a < s.maps.next) (hh : Unheld e s a) (hu : ∀ us, (s.step rx o e q).uses = s.uses ++ us → a ∉ us) :
    (s.over a x y).step rx o e q = (s.step rx o e q).over a x y ∧ a < (s.step rx o e q).maps.next ∧ Unheld e (s.step rx o e q) a := by
  have hr : a ∉ (serveM rx o e (s.get q).1 q.req q.rw q.body s.world (s.ready q)).uses := by
    by_cases ht : (serveM rx o e (s.get q).1 q.req q.rw q.body s.world (s.ready q)).took = true
    · exact hu _ (by simp [MServer.step, ht])
    · rw [(serveM_took rx o e _ _ _ _ _ _ (by simpa using ht)).2]; simp
  have hn : a < (s.ready q).next := by rw [ready_next]; exact h
  have hp : e.enableStatic = false ∨ ((s.ready q).refs (s.get q).1).par ≠ some a := hh.imp_right (fun hh => ready_par q hh _)
  have h1 := C116_request rx o e (s.get q).1 q.req q.rw q.body s.world (s.ready q) a x y hn hp hr
  have h2 := serveM_off rx o e (s.get q).1 q.req q.rw q.body s.world hn hp hr
  have e1 : (s.over a x y).get q = s.get q := rfl
  have e2 : (s.over a x y).world = s.world := rfl
  refine ⟨?_, ?_, ?_⟩
  · unfold MServer.step
    dsimp only
    rw [e1, e2, ready_over, h1]
    have e3 : ((serveM rx o e (s.get q).1 q.req q.rw q.body s.world (s.ready q)).over a x y).took =
      (serveM rx o e (s.get q).1 q.req q.rw q.body s.world (s.ready q)).took := rfl
    rw [e3]
    split <;> rfl
  · unfold MServer.step
    dsimp only
    split
    · exact h2.1
    · exact h
  · refine hh.imp_right (fun hh => ?_)
    unfold MServer.step
    dsimp only
    split
    · intro d
      by_cases hd : d = (s.get q).1
      · rw [hd]; exact h2.2 (ready_par q hh _)
      · show (((serveM rx o e (s.get q).1 q.req q.rw q.body s.world (s.ready q)).maps.refs d)).par ≠ some a
        rw [C116_contexts _ _ _ _ _ _ _ _ _ _ hd]; exact ready_par q hh d
    · exact hh

/-- **C116.** What is in a map when the requests that made it are over has no part in the requests after: with other contents in it,
the server does the same. -/
theorem C116_history (rx : Regex) (o : Oracle) (e : Engine (MProg ω)) (s : MServer ω) (qs : List Arrival) (a : Nat) (x : Map Str EVal)
    (y : Params) (h : a < s.maps.next) (hh : e.enableStatic = false ∨ ∀ c, (s.maps.refs c).par ≠ some a)
    (hu : ∀ us, (s.run rx o e qs).uses = s.uses ++ us → a ∉ us) :
    (s.over a x y).run rx o e qs = (s.run rx o e qs).over a x y := by
  induction qs generalizing s with
  | nil => rfl
  | cons q qs ih =>
    obtain ⟨us, h1⟩ := step_uses rx o e s q
    obtain ⟨vs, h2⟩ := run_uses rx o e (s.step rx o e q) qs
    have hv := hu (us ++ vs) (by show ((s.step rx o e q).run rx o e qs).uses = _; rw [h2, h1]; simp)
    obtain ⟨h3, h4, h5⟩ := step_over (x := x) (y := y) rx o e s q h hh
      (fun us' h' => by rw [h1] at h'; have := List.append_cancel_left h'; subst this; exact fun hm => hv (List.mem_append_left _ hm))
    have h6 := ih (s.step rx o e q) h4 h5
      (fun vs' h' => by rw [h2] at h'; have := List.append_cancel_left h'; subst this; exact fun hm => hv (List.mem_append_right _ hm))
    show ((s.over a x y).step rx o e q).run rx o e qs = ((s.step rx o e q).run rx o e qs).over a x y
    rw [h3, h6]

/-- **C116 (partial).** A map a handler has kept stays as it was, whatever requests come after, as long as handlers do not use it through a
variable. Missing: with the option for static routes, a map `ctx.Params` still refers to (`C116_refuted`). -/
theorem C116_kept_partial (rx : Regex) (o : Oracle) (e : Engine (MProg ω)) (s : MServer ω) (qs : List Arrival) (a : Nat)
    (h : a < s.maps.next) (hh : e.enableStatic = false ∨ ∀ c, (s.maps.refs c).par ≠ some a)
    (hu : ∀ us, (s.run rx o e qs).uses = s.uses ++ us → a ∉ us) :
    (s.run rx o e qs).maps.environs a = s.maps.environs a ∧ (s.run rx o e qs).maps.params a = s.maps.params a := by
  have := C116_history rx o e s qs a (s.maps.environs a) (s.maps.params a) h hh hu
  have h1 : s.over a (s.maps.environs a) (s.maps.params a) = s := by
    unfold MServer.over
    rw [over_same]
  rw [h1] at this
  rw [this]
  simp [MServer.over, Maps.over]

end Water
