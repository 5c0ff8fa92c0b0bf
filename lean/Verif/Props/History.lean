import Verif.Props.Chain
import Verif.Spec.History
/-
C120: the histories of a chain are exactly those the machine of Spec/History reads.
-/
namespace Water
open Spec
variable {ω : Type}

theorem reads_append (n : Nat) (a b : List Event) : ∀ m, reads n m (a ++ b) = (reads n m a).bind (fun m => reads n m b) := by
  induction a with
  | nil => intro m; rfl
  | cons e a ih =>
    intro m
    simp only [List.cons_append, reads]
    cases happens n m e with
    | none => rfl
    | some m' => exact ih m'

/-- where the machine is when the driver loop has ended -/
def loopEnd (st : List Nat) (j : Nat) (v p : Bool) : Moment := ⟨st, j, v, if p then .throwing else .leaving⟩

/-! ### every trace is read -/

/-- what the machine does with a part of a trace; `v` is what it knows about the flag `w` -/
def Reading (n : Nat) : Mode → Nat → Bool → List Event → Bool → Nat → Bool → Prop
  | .loop, j, w, es, p, j', w' => ∀ st v, (v = true → w = true) →
      ∃ v', (v' = true → w' = true) ∧ reads n (goOn n st j v) es = some (loopEnd st j' v' p)
  | .body i, j, w, es, _, j', w' => ∀ st v, (v = true → w = true) →
      ∃ v', (v' = true → w' = true) ∧ reads n ⟨i :: st, j, v, .inside⟩ es = some ⟨i :: st, j', v', .inside⟩

theorem Tr.read {n m j w es p j' w'} (h : Tr n m j w es p j' w') : Reading n m j w es p j' w' := by
  induction h with
  | done hn =>
    intro st v hv
    refine ⟨v, hv, ?_⟩
    simp [reads, goOn, loopEnd, Nat.not_lt.mpr hn]
  | @stop j w es j' hj hb ih =>
    intro st v hv
    obtain ⟨v', -, h2⟩ := ih st v hv
    refine ⟨true, fun _ => rfl, ?_⟩
    simp only [reads, goOn, hj, if_true, happens, and_self, Option.bind_some, reads_append, h2]
    simp [loopEnd]
  | @go j w es j' es' p j'' w'' hj hb hl ih ih' =>
    intro st v hv
    obtain ⟨v', h1, h2⟩ := ih st v hv
    have hv' : v' = false := by cases v' with
      | false => rfl
      | true => exact absurd (h1 rfl) (by simp)
    subst hv'
    obtain ⟨v'', h3, h4⟩ := ih' st false (by simp)
    refine ⟨v'', h3, ?_⟩
    simp only [reads, goOn, hj, if_true, happens, and_self, Option.bind_some, reads_append, h2]
    simpa [goOn] using h4
  | @crash j w es j' w' hj hb ih =>
    intro st v hv
    obtain ⟨v', h1, h2⟩ := ih st v hv
    refine ⟨v', h1, ?_⟩
    simp only [reads, goOn, hj, if_true, happens, and_self, Option.bind_some, reads_append, h2]
    simp [loopEnd]
  | nil => intro st v hv; exact ⟨v, hv, rfl⟩
  | write _ ih => intro st v hv; exact ih st v (fun _ => rfl)
  | @next i j w es j' w' es' p j'' w'' h1 h2 ih ih' =>
    intro st v hv
    obtain ⟨v', g1, g2⟩ := ih (i :: st) v hv
    obtain ⟨v'', g3, g4⟩ := ih' st v' g1
    refine ⟨v'', g3, ?_⟩
    simp only [reads, happens, List.head?_cons, and_self, if_true, Option.bind_some, reads_append, g2]
    simpa [loopEnd] using g4
  | @thrown i j w es j' w' es' p j'' w'' h1 h2 ih ih' =>
    intro st v hv
    obtain ⟨v', g1, g2⟩ := ih (i :: st) v hv
    obtain ⟨v'', g3, g4⟩ := ih' st v' g1
    refine ⟨v'', g3, ?_⟩
    simp only [reads, happens, List.head?_cons, and_self, if_true, Option.bind_some, reads_append, g2]
    simpa [loopEnd] using g4

/-! ### everything that is read can be parsed -/

/-- nothing is open any more -/
def AllOver (m : Moment) : Prop := m.open_ = [] ∧ (m.phase = .leaving ∨ m.phase = .throwing)

theorem happens_inside {n i : Nat} {st : List Nat} {j : Nat} {v : Bool} {e : Event} {m : Moment}
    (h : happens n ⟨i :: st, j, v, .inside⟩ e = some m) :
    (e = .next i ∧ m = goOn n (i :: st) (j + 1) v) ∨ (e = .stop i true ∧ m = ⟨st, j + 1, true, .leaving⟩) ∨
    (e = .stop i false ∧ v = false ∧ m = goOn n st (j + 1) false) ∨ (e = .crash i ∧ m = ⟨st, j, v, .throwing⟩) := by
  cases e with
  | start k => simp [happens] at h
  | back k => simp [happens] at h
  | thrown k => simp [happens] at h
  | next k =>
    simp only [happens, List.head?_cons, true_and, Option.some.injEq] at h
    split at h
    · rename_i hk; cases h; cases hk; exact .inl ⟨rfl, rfl⟩
    · cases h
  | crash k =>
    simp only [happens, List.head?_cons, true_and, Option.some.injEq] at h
    split at h
    · rename_i hk; cases h; cases hk; exact .inr (.inr (.inr ⟨rfl, rfl⟩))
    · cases h
  | stop k b =>
    cases b
    · simp only [happens, List.head?_cons, true_and, Option.some.injEq] at h
      split at h
      · rename_i hk; cases h; obtain ⟨hk, hv⟩ := hk; cases hk; exact .inr (.inr (.inl ⟨rfl, hv, rfl⟩))
      · cases h
    · simp only [happens, List.head?_cons, true_and, Option.some.injEq] at h
      split at h
      · rename_i hk; cases h; cases hk; exact .inr (.inl ⟨rfl, rfl⟩)
      · cases h

/-- how the code of a handler ends -/
inductive CodeEnds (n i : Nat) (st : List Nat) : Nat → Bool → Bool → Event → Moment → Prop where
  | answer {j : Nat} : CodeEnds n i st j false true (.stop i true) ⟨st, j + 1, true, .leaving⟩
  | silent {j : Nat} : CodeEnds n i st j false false (.stop i false) (goOn n st (j + 1) false)
  | crash {j : Nat} {v : Bool} : CodeEnds n i st j true v (.crash i) ⟨st, j, v, .throwing⟩

theorem parse (n : Nat) {m : Moment} (hm : AllOver m) : ∀ (l : Nat) (es : List Event), es.length ≤ l →
    (∀ st j v, reads n (goOn n st j v) es = some m →
      ∃ es1 es2 p j' v', es = es1 ++ es2 ∧ Tr n .loop j v es1 p j' v' ∧ reads n (loopEnd st j' v' p) es2 = some m) ∧
    (∀ i st j v, reads n ⟨i :: st, j, v, .inside⟩ es = some m →
      ∃ es1 e es2 p j' v' m', es = es1 ++ e :: es2 ∧ Tr n (.body i) j v es1 p j' v' ∧ CodeEnds n i st j' p v' e m' ∧
        reads n m' es2 = some m) := by
  intro l
  induction l with
  | zero =>
    intro es hl
    have : es = [] := List.length_eq_zero_iff.mp (by omega)
    subst this
    constructor
    · intro st j v h
      by_cases hj : j < n
      · simp only [reads, goOn, hj, if_true, Option.some.injEq] at h
        subst h
        rcases hm.2 with h | h <;> cases h
      · exact ⟨[], [], false, j, v, rfl, .done (by omega), by simpa [goOn, hj, loopEnd] using h⟩
    · intro i st j v h
      simp only [reads, Option.some.injEq] at h
      subst h
      rcases hm.2 with h | h <;> cases h
  | succ l ih =>
    intro es hl
    constructor
    · intro st j v h
      by_cases hj : j < n
      · cases es with
        | nil =>
          simp only [reads, goOn, hj, if_true, Option.some.injEq] at h
          subst h
          rcases hm.2 with h | h <;> cases h
        | cons e es =>
          simp only [List.length_cons] at hl
          simp only [reads, goOn, hj, if_true] at h
          cases e with
          | start k =>
            by_cases hk : k = j
            · subst hk
              simp only [happens, and_self, if_true, Option.bind_some] at h
              obtain ⟨es1, e, es2, p, j', v', m', h1, h2, h3, h4⟩ := (ih es (by omega)).2 k st k v h
              subst h1
              cases h3 with
              | answer =>
                refine ⟨.start k :: (es1 ++ [.stop k true]), es2, false, j' + 1, true, by simp, .stop hj h2, ?_⟩
                simpa [loopEnd] using h4
              | silent =>
                obtain ⟨fs1, fs2, q, j'', v'', g1, g2, g3⟩ := (ih es2 (by simp at hl; omega)).1 st (j' + 1) false h4
                subst g1
                exact ⟨.start k :: (es1 ++ .stop k false :: fs1), fs2, q, j'', v'', by simp, .go hj h2 g2, g3⟩
              | crash =>
                refine ⟨.start k :: (es1 ++ [.crash k]), es2, true, j', v', by simp, .crash hj h2, ?_⟩
                simpa [loopEnd] using h4
            · simp [happens, hk] at h
          | stop k b => cases b <;> simp [happens] at h
          | _ => simp [happens] at h
      · exact ⟨[], es, false, j, v, rfl, .done (by omega), by simpa [goOn, hj, loopEnd] using h⟩
    · intro i st j v h
      cases es with
      | nil =>
        simp only [reads, Option.some.injEq] at h
        subst h
        rcases hm.2 with h | h <;> cases h
      | cons e es =>
        simp only [List.length_cons] at hl
        simp only [reads] at h
        cases hh : happens n ⟨i :: st, j, v, .inside⟩ e with
        | none => rw [hh] at h; cases h
        | some m1 =>
          rw [hh] at h
          simp only [Option.bind_some] at h
          rcases happens_inside hh with ⟨rfl, rfl⟩ | ⟨rfl, rfl⟩ | ⟨rfl, rfl, rfl⟩ | ⟨rfl, rfl⟩
          · obtain ⟨es1, es2, p, j', v', h1, h2, h3⟩ := (ih es (by omega)).1 (i :: st) (j + 1) v h
            subst h1
            cases es2 with
            | nil =>
              simp only [reads, Option.some.injEq] at h3
              subst h3
              cases hm.1
            | cons e2 es2 =>
              simp only [reads] at h3
              cases hh2 : happens n (loopEnd (i :: st) j' v' p) e2 with
              | none => rw [hh2] at h3; cases h3
              | some m2 =>
                rw [hh2] at h3
                simp only [Option.bind_some] at h3
                have hcase : (p = false ∧ e2 = .back i ∧ m2 = ⟨i :: st, j', v', .inside⟩) ∨
                    (p = true ∧ e2 = .thrown i ∧ m2 = ⟨i :: st, j', v', .inside⟩) := by
                  cases p with
                  | false =>
                    left
                    cases e2 with
                    | stop k b => cases b <;> simp [happens, loopEnd] at hh2
                    | back k =>
                      simp only [happens, loopEnd, Bool.false_eq_true, if_false, List.head?_cons, true_and, Option.some.injEq] at hh2
                      split at hh2
                      · rename_i hk; cases hh2; cases hk; exact ⟨rfl, rfl, rfl⟩
                      · cases hh2
                    | _ => simp [happens, loopEnd] at hh2
                  | true =>
                    right
                    cases e2 with
                    | stop k b => cases b <;> simp [happens, loopEnd] at hh2
                    | thrown k =>
                      simp only [happens, loopEnd, if_true, List.head?_cons, true_and, Option.some.injEq] at hh2
                      split at hh2
                      · rename_i hk; cases hh2; cases hk; exact ⟨rfl, rfl, rfl⟩
                      · cases hh2
                    | _ => simp [happens, loopEnd] at hh2
                have hlen : es2.length ≤ l := by simp at hl; omega
                rcases hcase with ⟨rfl, rfl, rfl⟩ | ⟨rfl, rfl, rfl⟩
                · obtain ⟨fs1, e, fs2, q, j'', v'', m', g1, g2, g3, g4⟩ := (ih es2 hlen).2 i st j' v' h3
                  subst g1
                  exact ⟨.next i :: (es1 ++ .back i :: fs1), e, fs2, q, j'', v'', m', by simp, .next h2 g2, g3, g4⟩
                · obtain ⟨fs1, e, fs2, q, j'', v'', m', g1, g2, g3, g4⟩ := (ih es2 hlen).2 i st j' v' h3
                  subst g1
                  exact ⟨.next i :: (es1 ++ .thrown i :: fs1), e, fs2, q, j'', v'', m', by simp, .thrown h2 g2, g3, g4⟩
          · exact ⟨[], _, es, false, j, true, _, rfl, .write .nil, .answer, h⟩
          · exact ⟨[], _, es, false, j, false, _, rfl, .nil, .silent, h⟩
          · exact ⟨[], _, es, true, j, v, _, rfl, .nil, .crash, h⟩

/-! ### handlers for everything that is parsed -/

/-- what handlers at the positions from `lo` to `hi` have to do with the state -/
def Holds (hs : Nat → Prog ω) (lo hi : Nat) (s : St ω) : Prop := ∀ k, lo ≤ k → k ≤ hi → ∀ h, s.ctx.handlers[k]? = some h → h = hs k

/-- how the driver or a handler ends -/
def ending (p : Bool) : Out := if p then .panic callPanic else .ret

/-- the handlers that make a part of a trace happen -/
def Made (o : Oracle) (req : Req) (ω : Type) (n : Nat) : Mode → Nat → Bool → List Event → Bool → Nat → Bool → Prop
  | .loop, j, w, es, p, j', w' => ∃ hs : Nat → Prog ω, ∀ s : St ω, s.ctx.handlers.length = n → Holds hs j j' s → s.ctx.index = j →
      s.ctx.written = w → ∃ s', runAll o req s = (ending p, s') ∧ s'.trace = s.trace ++ es ∧ s'.ctx.index = j' ∧ s'.ctx.written = w' ∧
        s'.ctx.handlers = s.ctx.handlers
  | .body i, j, w, es, p, j', w' => ∃ (hs : Nat → Prog ω) (q : Prog ω), ∀ s : St ω, s.ctx.handlers.length = n → Holds hs (j + 1) j' s →
      s.ctx.index = j → s.ctx.written = w → ∃ s', exec o req (runAll o req) i q s = (ending p, s') ∧ s'.trace = s.trace ++ es ∧
        s'.ctx.index = j' ∧ s'.ctx.written = w' ∧ s'.ctx.handlers = s.ctx.handlers

/-- put one function in front of another -/
def upTo (b : Nat) (f g : Nat → Prog ω) : Nat → Prog ω := fun k => if k ≤ b then f k else g k

theorem Holds.mono {hs : Nat → Prog ω} {lo hi lo' hi' : Nat} {s s' : St ω} (h : Holds hs lo hi s) (h1 : lo ≤ lo') (h2 : hi' ≤ hi)
    (h3 : s'.ctx.handlers = s.ctx.handlers) : Holds hs lo' hi' s' :=
  fun k hk hk' x hx => h k (by omega) (by omega) x (by rw [← h3]; exact hx)

theorem Holds.left {b : Nat} {f g : Nat → Prog ω} {lo hi : Nat} {s : St ω} (h : Holds (upTo b f g) lo hi s) (hb : hi ≤ b) :
    Holds f lo hi s := by
  intro k h1 h2 x hx
  have := h k h1 h2 x hx
  rw [this]; simp [upTo]; omega

theorem Holds.right {b : Nat} {f g : Nat → Prog ω} {lo hi : Nat} {s : St ω} (h : Holds (upTo b f g) lo hi s) (hb : b < lo) :
    Holds g lo hi s := by
  intro k h1 h2 x hx
  have := h k h1 h2 x hx
  rw [this]; simp [upTo]; omega

theorem Tr.made {o : Oracle} (h200 : o.bad 200 = false) (req : Req) {n m j w es p j' w'} (h : Tr n m j w es p j' w') :
    Made o req ω n m j w es p j' w' := by
  induction h with
  | done hn =>
    refine ⟨fun _ => .ret, fun s hl _ hi hw => ⟨s, ?_, by simp, hi, hw, rfl⟩⟩
    rw [runAll_unfold, List.getElem?_eq_none (by omega)]
    rfl
  | @stop j w es j' hj hb ih =>
    obtain ⟨hs, q, hq⟩ := ih
    refine ⟨upTo j (fun _ => q) hs, fun s hl hh hi hw => ?_⟩
    have hjl : s.ctx.index < s.ctx.handlers.length := by omega
    have hge := List.getElem?_eq_getElem hjl
    have hmono := hb.mono
    have e1 : s.ctx.handlers[s.ctx.index]? = some q := by
      have := hh j (by omega) (by omega) _ (by rw [← hi]; exact hge)
      rw [hge, this]; simp [upTo]
    obtain ⟨s', g1, g2, g3, g4, g5⟩ := hq (s.log (.start j)) hl
      ((hh.mono (by omega) (by omega) rfl : Holds _ (j + 1) j' (s.log (.start j))).right (by omega)) hi hw
    refine ⟨(s'.log (.stop j true)).bump, ?_, ?_, ?_, g4, g5⟩
    · rw [runAll_unfold, e1]
      simp only [hi, g1, ending]
      simp [St.log, St.bump, g4]
    · simp only [St.log, St.bump] at g2 ⊢; rw [g2]; simp
    · simp only [St.log, St.bump, g3]
  | @go j w es j' es' p j'' w'' hj hb hl' ih ih' =>
    obtain ⟨hs, q, hq⟩ := ih
    obtain ⟨hs', hq'⟩ := ih'
    refine ⟨upTo j (fun _ => q) (upTo j' hs hs'), fun s hl hh hi hw => ?_⟩
    have hjl : s.ctx.index < s.ctx.handlers.length := by omega
    have hge := List.getElem?_eq_getElem hjl
    have hmono := hb.mono
    have hmono' := hl'.mono
    have e1 : s.ctx.handlers[s.ctx.index]? = some q := by
      have := hh j (by omega) (by omega) _ (by rw [← hi]; exact hge)
      rw [hge, this]; simp [upTo]
    obtain ⟨s', g1, g2, g3, g4, g5⟩ := hq (s.log (.start j)) hl
      (((hh.mono (by omega) (by omega) rfl : Holds _ (j + 1) j' (s.log (.start j))).right (by omega)).left (Nat.le_refl _)) hi hw
    have g5' : (s'.log (.stop j false)).bump.ctx.handlers = s.ctx.handlers := g5
    obtain ⟨s2, k1, k2, k3, k4, k5⟩ := hq' (s'.log (.stop j false)).bump (by rw [g5']; exact hl)
      (((hh.mono (by omega) (by omega) g5' : Holds _ (j' + 1) j'' ((s'.log (.stop j false)).bump)).right (by omega)).right (by omega))
      (by simp only [St.log, St.bump, g3]) (by simpa [St.log, St.bump] using g4)
    refine ⟨s2, ?_, ?_, k3, k4, by rw [k5, g5']⟩
    · rw [runAll_unfold, e1]
      have g4' : s'.ctx.written = false := g4
      simp only [hi, g1, ending, Bool.false_eq_true, if_false, g4']
      have e3 : (s'.log (.stop j false)).bump.ctx.written = false := g4'
      simp only [e3, Bool.false_eq_true, if_false]
      exact k1
    · rw [k2]; simp only [St.log, St.bump] at g2 ⊢; rw [g2]; simp
  | @crash j w es j' w' hj hb ih =>
    obtain ⟨hs, q, hq⟩ := ih
    refine ⟨upTo j (fun _ => q) hs, fun s hl hh hi hw => ?_⟩
    have hjl : s.ctx.index < s.ctx.handlers.length := by omega
    have hge := List.getElem?_eq_getElem hjl
    have hmono := hb.mono
    have e1 : s.ctx.handlers[s.ctx.index]? = some q := by
      have := hh j (by omega) (by omega) _ (by rw [← hi]; exact hge)
      rw [hge, this]; simp [upTo]
    obtain ⟨s', g1, g2, g3, g4, g5⟩ := hq (s.log (.start j)) hl
      ((hh.mono (by omega) (by omega) rfl : Holds _ (j + 1) j' (s.log (.start j))).right (by omega)) hi hw
    refine ⟨s'.log (.crash j), ?_, ?_, g3, g4, g5⟩
    · rw [runAll_unfold, e1]
      simp only [hi, g1, ending, if_true]
    · simp only [St.log] at g2 ⊢; rw [g2]; simp
  | @nil i j w p =>
    refine ⟨fun _ => .ret, if p then .panic callPanic else .ret, fun s hl _ hi hw => ⟨s, ?_, by simp, hi, hw, rfl⟩⟩
    cases p <;> rfl
  | @write i j w es p j' w' _ ih =>
    obtain ⟨hs, q, hq⟩ := ih
    refine ⟨hs, .do (.writeHeader 200) q, fun s hl hh hi hw => ?_⟩
    have hf := St.writeHeader_frame o s 200
    have hp : (s.writeHeader o 200).1 = false := by
      unfold St.writeHeader Writer.writeHeader
      by_cases hw : s.ctx.written <;> simp [hw, h200]
    obtain ⟨s', g1, g2, g3, g4, g5⟩ := hq (s.writeHeader o 200).2 (by rw [hf.1]; exact hl) (hh.mono (by omega) (by omega) hf.1)
      (by rw [hf.2.2.1]; exact hi) hf.2.2.2
    refine ⟨s', ?_, by rw [g2, hf.2.1], g3, g4, by rw [g5, hf.1]⟩
    rcases hx : s.writeHeader o 200 with ⟨b, s1⟩
    rw [hx] at hp g1
    simp only at hp g1
    subst hp
    simp only [Prog.do, exec, doCall, hx]
    exact g1
  | @next i j w es j' w' es' p j'' w'' h1 h2 ih ih' =>
    obtain ⟨hs, hq⟩ := ih
    obtain ⟨hs', q, hq'⟩ := ih'
    have hmono := h1.mono
    have hmono' := h2.mono
    refine ⟨upTo j' hs hs', .next q, fun s hl hh hi hw => ?_⟩
    obtain ⟨s1, g1, g2, g3, g4, g5⟩ := hq (s.log (.next i)).bump hl
      ((hh.mono (by omega) (by omega) rfl : Holds _ (j + 1) j' _).left (Nat.le_refl _)) (by simp [St.log, St.bump, hi]) hw
    have g5' : (s1.log (.back i)).ctx.handlers = s.ctx.handlers := g5
    obtain ⟨s2, k1, k2, k3, k4, k5⟩ := hq' (s1.log (.back i)) (by rw [g5']; exact hl)
      ((hh.mono (by omega) (by omega) g5' : Holds _ (j' + 1) j'' _).right (by omega)) g3 g4
    refine ⟨s2, ?_, ?_, k3, k4, by rw [k5, g5']⟩
    · simp only [exec, g1, ending, Bool.false_eq_true, if_false]
      exact k1
    · rw [k2]; simp only [St.log, St.bump] at g2 ⊢; rw [g2]; simp
  | @thrown i j w es j' w' es' p j'' w'' h1 h2 ih ih' =>
    obtain ⟨hs, hq⟩ := ih
    obtain ⟨hs', q, hq'⟩ := ih'
    have hmono := h1.mono
    have hmono' := h2.mono
    refine ⟨upTo j' hs hs', .scope (.next .ret) (fun _ => q), fun s hl hh hi hw => ?_⟩
    obtain ⟨s1, g1, g2, g3, g4, g5⟩ := hq (s.log (.next i)).bump hl
      ((hh.mono (by omega) (by omega) rfl : Holds _ (j + 1) j' _).left (Nat.le_refl _)) (by simp [St.log, St.bump, hi]) hw
    have g5' : (s1.log (.thrown i)).ctx.handlers = s.ctx.handlers := g5
    obtain ⟨s2, k1, k2, k3, k4, k5⟩ := hq' (s1.log (.thrown i)) (by rw [g5']; exact hl)
      ((hh.mono (by omega) (by omega) g5' : Holds _ (j' + 1) j'' _).right (by omega)) g3 g4
    refine ⟨s2, ?_, ?_, k3, k4, by rw [k5, g5']⟩
    · simp only [exec, g1, ending, if_true]
      exact k1
    · rw [k2]; simp only [St.log, St.bump] at g2 ⊢; rw [g2]; simp

/-! ### the theorems -/

/-- **C120 (every trace is a history).** What happens in a chain, whatever the handlers do, is a history of a chain of that length. -/
theorem C120_sound (o : Oracle) (req : Req) (s : St ω) (hs : AtStart s) :
    History s.ctx.handlers.length (runAll o req s).1.isPanic (runAll o req s).2.trace := by
  obtain ⟨v', -, h⟩ := (fresh_tr o req hs).read [] false (by simp)
  exact ⟨_, h, rfl, rfl⟩

/-- **C120 (every history happens).** For every history there are handlers that make it happen, on every request and from every state in
which a chain begins. -/
theorem C120_complete {o : Oracle} (h200 : o.bad 200 = false) (req : Req) {n : Nat} {panics : Bool} {es : List Event}
    (h : History n panics es) : ∃ hs : List (Prog ω), hs.length = n ∧ ∀ s : St ω, AtStart s → s.ctx.handlers = hs →
      (runAll o req s).2.trace = es ∧ (runAll o req s).1.isPanic = panics ∧ (runAll o req s).1 ≠ .fuel := by
  obtain ⟨m, h1, h2, h3⟩ := h
  have hm : AllOver m := ⟨h2, by cases panics <;> simp_all⟩
  obtain ⟨es1, es2, p, j', v', e1, e2, e3⟩ := (parse n hm es.length es (Nat.le_refl _)).1 [] 0 false h1
  have hnil : es2 = [] := by
    cases es2 with
    | nil => rfl
    | cons e es2 =>
      exfalso
      simp only [reads] at e3
      have : happens n (loopEnd [] j' v' p) e = none := by
        cases e with
        | stop k b => cases b <;> cases p <;> simp [happens, loopEnd]
        | _ => cases p <;> simp [happens, loopEnd]
      rw [this] at e3
      cases e3
  subst hnil
  simp only [List.append_nil] at e1
  subst e1
  simp only [reads, Option.some.injEq] at e3
  subst e3
  have hp : p = panics := by
    cases p <;> cases panics <;> simp [loopEnd] at h3 <;> rfl
  subst hp
  obtain ⟨hs, hq⟩ := Tr.made (ω := ω) h200 req e2
  refine ⟨(List.range n).map hs, by simp, fun s ha hh => ?_⟩
  obtain ⟨s', g1, g2, -⟩ := hq s (by rw [hh]; simp) (by
    intro k _ _ x hx
    rw [hh] at hx
    by_cases hk : k < n
    · rw [List.getElem?_map, List.getElem?_range hk] at hx
      cases hx
      rfl
    · rw [List.getElem?_eq_none (by simpa using hk)] at hx
      cases hx) ha.1 ha.2.1
  rw [g1]
  refine ⟨by rw [g2, ha.2.2]; rfl, ?_, ?_⟩
  · cases p <;> rfl
  · cases p <;> simp [ending]

/-- **C120.** A list of events is what happens in some chain of `n` handlers if and only if it is a history of such a chain. -/
theorem C120_exact {o : Oracle} (h200 : o.bad 200 = false) (req : Req) (s : St ω) (hs : AtStart s) (n : Nat) (panics : Bool)
    (es : List Event) :
    (∃ hs : List (Prog ω), hs.length = n ∧
      (runAll o req { s with ctx := { s.ctx with handlers := hs } }).2.trace = es ∧
      (runAll o req { s with ctx := { s.ctx with handlers := hs } }).1.isPanic = panics) ↔ History n panics es := by
  constructor
  · rintro ⟨hs', h1, h2, h3⟩
    have := C120_sound o req { s with ctx := { s.ctx with handlers := hs' } } hs
    rw [h2, h3] at this
    rw [← h1]
    exact this
  · intro h
    obtain ⟨hs', h1, h2⟩ := C120_complete (ω := ω) h200 req h
    obtain ⟨g1, g2, -⟩ := h2 { s with ctx := { s.ctx with handlers := hs' } } hs rfl
    exact ⟨hs', h1, g1, g2⟩

theorem steps_append (a b : List Event) : steps (a ++ b) = steps a + steps b := by
  induction a with
  | nil => simp [steps]
  | cons e a ih => cases e <;> simp [steps, ih] <;> omega

theorem reads_count {n : Nat} {es : List Event} : ∀ {m m' : Moment}, reads n m es = some m' → m'.count = m.count + steps es := by
  induction es with
  | nil => intro m m' h; simp only [reads, Option.some.injEq] at h; subst h; rfl
  | cons e es ih =>
    intro m m' h
    simp only [reads] at h
    cases hh : happens n m e with
    | none => rw [hh] at h; cases h
    | some m1 =>
      rw [hh] at h
      have := ih h
      have h1 : m1.count = m.count + steps [e] := by
        cases e with
        | stop k b =>
          cases b <;> (simp only [happens] at hh; split at hh <;> cases hh; rfl)
        | _ => simp only [happens] at hh; split at hh <;> cases hh; rfl
      have h2 : steps (e :: es) = steps [e] + steps es := steps_append [e] es
      omega

/-- **C120 (which handler starts).** The position of a handler that starts is the number of returns and calls of `Next` that came before,
however the handlers are nested and whoever made them. So a handler is passed over when two of these come without a start between them. -/
theorem C120_position (o : Oracle) (req : Req) (s : St ω) (hs : AtStart s) {pre post : List Event} {k : Nat}
    (h : (runAll o req s).2.trace = pre ++ .start k :: post) : k = steps pre := by
  obtain ⟨m, h1, -, -⟩ := C120_sound o req s hs
  rw [h, reads_append] at h1
  cases hm : reads s.ctx.handlers.length (goOn s.ctx.handlers.length [] 0 false) pre with
  | none => rw [hm] at h1; cases h1
  | some m1 =>
    rw [hm] at h1
    simp only [Option.bind_some, reads] at h1
    have hc := reads_count hm
    have : k = m1.count := by
      simp only [happens] at h1
      split at h1
      · rename_i hk; exact hk.2
      · cases h1
    simp only [goOn, Nat.zero_add] at hc
    omega

/-- **C120 (passed over).** Between the start of a handler and the next start, `d` returns and calls of `Next` pass over `d - 1` handlers. -/
theorem C120_gap (o : Oracle) (req : Req) (s : St ω) (hs : AtStart s) {pre mid post : List Event} {j k : Nat}
    (h : (runAll o req s).2.trace = pre ++ .start j :: (mid ++ .start k :: post)) : k = j + steps mid := by
  have h1 := C120_position o req s hs h
  have h2 := C120_position o req s hs (pre := pre ++ .start j :: mid) (post := post) (k := k) (by rw [h]; simp)
  rw [steps_append] at h2
  simp only [steps] at h2
  omega

/-- what is true at every moment of a history: without an answer, a loop is left only at the end of the chain -/
def Honest (n : Nat) (m : Moment) : Prop := m.phase = .leaving → m.answered = false → n ≤ m.count

theorem goOn_honest (n : Nat) (st : List Nat) (j : Nat) (v : Bool) : Honest n (goOn n st j v) := by
  intro h _
  by_cases hj : j < n
  · simp [goOn, hj] at h
  · exact Nat.not_lt.mp hj

theorem happens_honest {n : Nat} {m m' : Moment} {e : Event} (h : happens n m e = some m') (hk : ∀ k, e ≠ .stop k true) :
    Honest n m' ∧ m'.answered = m.answered := by
  cases e with
  | stop k b =>
    cases b
    · simp only [happens] at h
      split at h
      · rename_i h1
        cases h
        exact ⟨goOn_honest _ _ _ _, h1.2.2.symm⟩
      · cases h
    · exact absurd rfl (hk k)
  | next k =>
    simp only [happens] at h
    split at h
    · cases h; exact ⟨goOn_honest _ _ _ _, rfl⟩
    · cases h
  | _ =>
    simp only [happens] at h
    split at h
    · cases h
      exact ⟨fun hp => (nomatch hp), rfl⟩
    · cases h

theorem reads_honest {n : Nat} {es : List Event} : ∀ {m m' : Moment}, reads n m es = some m' → Honest n m → (∀ k, .stop k true ∉ es) →
    Honest n m' ∧ m'.answered = m.answered := by
  induction es with
  | nil => intro m m' h hm _; simp only [reads, Option.some.injEq] at h; subst h; exact ⟨hm, rfl⟩
  | cons e es ih =>
    intro m m' h hm hk
    simp only [reads] at h
    cases hh : happens n m e with
    | none => rw [hh] at h; cases h
    | some m1 =>
      rw [hh] at h
      obtain ⟨h1, h2⟩ := happens_honest hh (fun k hek => hk k (by simp [hek]))
      obtain ⟨h3, h4⟩ := ih h h1 (fun k hmem => hk k (List.mem_cons_of_mem _ hmem))
      exact ⟨h3, h4.trans h2⟩

/-- **C120 (the end of a chain).** If no panic leaves the chain and no handler returned with a response, there have been at least as many
returns and calls of `Next` as there are handlers: without an answer the chain does not end early. -/
theorem C120_end (o : Oracle) (req : Req) (s : St ω) (hs : AtStart s) (hr : (runAll o req s).1.isPanic = false)
    (hk : ∀ k, .stop k true ∉ (runAll o req s).2.trace) : s.ctx.handlers.length ≤ steps (runAll o req s).2.trace := by
  obtain ⟨m, h1, -, h3⟩ := C120_sound o req s hs
  obtain ⟨h4, h5⟩ := reads_honest h1 (goOn_honest _ _ _ _) hk
  rw [hr] at h3
  have h6 := h4 h3 h5
  have h7 := reads_count h1
  simp only [goOn, Nat.zero_add] at h7
  omega

/-! ### examples -/

/-- the hypotheses of `C120_exact` and of `C120_end` are met -/
example : Demo.chainO.bad 200 = false ∧ AtStart (Demo.chainSt [Demo.idleH, Demo.twiceH, Demo.idleH]) ∧
    (runAll Demo.chainO Demo.chainReq (Demo.chainSt [Demo.idleH, Demo.twiceH, Demo.idleH])).2.trace =
      [.start 0, .stop 0 false, .start 1, .next 1, .start 2, .stop 2 false, .back 1, .next 1, .back 1, .stop 1 false] := by
  refine ⟨rfl, ⟨rfl, rfl, rfl⟩, ?_⟩
  decide +kernel

/-- a handler that calls `Next` twice: the second call passes over a handler, since the first was ended by an answer -/
example : (runAll Demo.chainO Demo.chainReq (Demo.chainSt [Demo.twiceH, Demo.writeH, Demo.idleH, Demo.writeH])).2.trace =
    [.start 0, .next 0, .start 1, .stop 1 true, .back 0, .next 0, .start 3, .stop 3 true, .back 0, .stop 0 true] ∧
    History 4 false [.start 0, .next 0, .start 1, .stop 1 true, .back 0, .next 0, .start 3, .stop 3 true, .back 0, .stop 0 true] := by
  decide +kernel

/-- the same with the handler at position 2 started is no history of a chain of four; and neither is a handler that is started again, or
a chain that goes on by itself after an answer -/
example : ¬ History 4 false [.start 0, .next 0, .start 1, .stop 1 true, .back 0, .next 0, .start 2, .stop 2 true, .back 0, .stop 0 true] ∧
    ¬ History 2 false [.start 0, .stop 0 true, .start 1, .stop 1 true] ∧
    ¬ History 2 false [.start 0, .next 0, .back 0, .stop 0 false] ∧
    History 2 true [.start 0, .next 0, .start 1, .crash 1, .thrown 0, .crash 0] := by
  decide +kernel

end Water
