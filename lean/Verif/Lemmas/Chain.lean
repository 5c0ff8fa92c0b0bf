import Verif.Spec.Chain
/- The handler chain refines an abstract event grammar; consequences of the grammar. -/
namespace Water
open Spec
variable {ω : Type}

inductive Mode where
  | loop
  | body (i : Nat)

/-- `Tr n m j w es p j' w'`: in a chain of `n` handlers, starting with `index = j` and `written = w`, the driver
loop (or part of the code of handler `i`) produces the events `es`, ends by panic iff `p`, with `index = j'`
and `written = w'`. -/
inductive Tr (n : Nat) : Mode → Nat → Bool → List Event → Bool → Nat → Bool → Prop
  | done {j w} : n ≤ j → Tr n .loop j w [] false j w
  | stop {j w es j'} : j < n → Tr n (.body j) j w es false j' true →
      Tr n .loop j w (.start j :: (es ++ [.stop j true])) false (j' + 1) true
  | go {j w es j' es' p j'' w''} : j < n → Tr n (.body j) j w es false j' false →
      Tr n .loop (j' + 1) false es' p j'' w'' →
      Tr n .loop j w (.start j :: (es ++ .stop j false :: es')) p j'' w''
  | crash {j w es j' w'} : j < n → Tr n (.body j) j w es true j' w' →
      Tr n .loop j w (.start j :: (es ++ [.crash j])) true j' w'
  | nil {i j w p} : Tr n (.body i) j w [] p j w
  | write {i j w es p j' w'} : Tr n (.body i) j true es p j' w' → Tr n (.body i) j w es p j' w'
  | next {i j w es j' w' es' p j'' w''} : Tr n .loop (j + 1) w es false j' w' →
      Tr n (.body i) j' w' es' p j'' w'' → Tr n (.body i) j w (.next i :: (es ++ .back i :: es')) p j'' w''
  | thrown {i j w es j' w' es' p j'' w''} : Tr n .loop (j + 1) w es true j' w' →
      Tr n (.body i) j' w' es' p j'' w'' → Tr n (.body i) j w (.next i :: (es ++ .thrown i :: es')) p j'' w''

theorem Tr.trans {n i j w es p j' w'} (h : Tr n (.body i) j w es p j' w') {es' p' j'' w''}
    (h' : Tr n (.body i) j' w' es' p' j'' w'') : Tr n (.body i) j w (es ++ es') p' j'' w'' := by
  generalize hm : Mode.body i = m at h
  induction h with
  | done | stop | go | crash => cases hm
  | nil => cases hm; simpa using h'
  | write _ ih => exact .write (ih h' hm)
  | next h1 _ _ ih =>
    cases hm
    have := Tr.next h1 (ih h' rfl)
    simpa using this
  | thrown h1 _ _ ih =>
    cases hm
    have := Tr.thrown h1 (ih h' rfl)
    simpa using this

theorem Tr.mono {n m j w es p j' w'} (h : Tr n m j w es p j' w') : j ≤ j' := by
  induction h with
  | done | nil => exact Nat.le_refl _
  | write _ ih => exact ih
  | stop _ _ ih => omega
  | go _ _ _ ih1 ih2 => omega
  | crash _ _ ih => omega
  | next _ _ ih1 ih2 => omega
  | thrown _ _ ih1 ih2 => omega

/-- whether code ended by panic -/
def Out.isPanic : Out → Bool
  | .panic _ => true
  | _ => false

/-- `nx` behaves as the driver loop from any index `≥ m`. -/
def Drives (n m : Nat) (nx : St ω → Out × St ω) : Prop :=
  ∀ s, s.ctx.handlers.length = n → m ≤ s.ctx.index →
    (nx s).1 ≠ .fuel ∧ (nx s).2.ctx.handlers = s.ctx.handlers ∧
    ∃ es, (nx s).2.trace = s.trace ++ es ∧
      Tr n .loop s.ctx.index s.ctx.written es (nx s).1.isPanic (nx s).2.ctx.index (nx s).2.ctx.written

theorem St.writeHeader_frame (o : Oracle) (s : St ω) (code : Int) :
    (s.writeHeader o code).2.ctx.handlers = s.ctx.handlers ∧ (s.writeHeader o code).2.trace = s.trace ∧
    (s.writeHeader o code).2.ctx.index = s.ctx.index ∧ (s.writeHeader o code).2.ctx.written = true := by
  unfold St.writeHeader
  by_cases hw : s.ctx.written <;> simp [hw]

theorem St.write_frame (o : Oracle) (s : St ω) (data : Str) :
    (s.write o data).2.ctx.handlers = s.ctx.handlers ∧ (s.write o data).2.trace = s.trace ∧
    (s.write o data).2.ctx.index = s.ctx.index ∧ (s.write o data).2.ctx.written = true := by
  unfold St.write
  by_cases hw : s.ctx.written
  · simp [hw]
  · simp only [hw]
    generalize hs1 : (if data.length > 0 ∧ s.rw.header.get kContentType = [] then
        ({ s with rw := { s.rw with header := s.rw.header.put kContentType (o.detect data) } } : St ω) else s) = s1
    have h1 : s1.ctx = s.ctx ∧ s1.trace = s.trace := by subst hs1; split <;> exact ⟨rfl, rfl⟩
    have h2 := St.writeHeader_frame o s1 200
    rw [h1.1, h1.2] at h2
    rcases h3 : s1.writeHeader o 200 with ⟨p, s2⟩
    rw [h3] at h2
    cases p <;> simpa [h3] using h2

/-- A call leaves the chain, the index and the trace alone, and never clears `written`. -/
theorem doCall_frame (o : Oracle) (req : Req) (s : St ω) (c : Call ω) :
    (doCall o req s c).2.ctx.handlers = s.ctx.handlers ∧ (doCall o req s c).2.trace = s.trace ∧
    (doCall o req s c).2.ctx.index = s.ctx.index ∧
    ((doCall o req s c).2.ctx.written = s.ctx.written ∨ (doCall o req s c).2.ctx.written = true) := by
  cases c with
  | writeHeader code =>
    have h := St.writeHeader_frame o s code
    simp only [doCall]
    rcases h1 : s.writeHeader o code with ⟨p, s2⟩
    rw [h1] at h
    cases p <;> exact ⟨h.1, h.2.1, h.2.2.1, .inr h.2.2.2⟩
  | write data =>
    have h := St.write_frame o s data
    simp only [doCall]
    rcases h1 : s.write o data with ⟨p, s2⟩
    rw [h1] at h
    cases p <;> exact ⟨h.1, h.2.1, h.2.2.1, .inr h.2.2.2⟩
  | rawWriteHeader code =>
    simp only [doCall]
    rcases h1 : s.rw.writeHeader o.bad code with ⟨p, rw⟩
    cases p <;> simp
  | param k => simp only [doCall]; split <;> simp
  | envSet k v => simp only [doCall]; split <;> simp
  | envGet k => simp only [doCall]; split <;> simp
  | readBody l => simp only [doCall]; split <;> simp
  | parseForm =>
    simp only [doCall, St.parseForm]
    cases hp : s.ctx.parsedParams
    · simp only [Bool.false_eq_true, if_false]
      cases (o.parse req (wantsMultipart req) s.body).fails <;> simp
    · simp
  | readForm f =>
    simp only [doCall, St.parseForm]
    cases hp : s.ctx.parsedParams
    · simp only [Bool.false_eq_true, if_false]
      cases (o.parse req (wantsMultipart req) s.body).fails <;> simp
    · simp
  | _ => simp [doCall]

theorem exec_tr (o : Oracle) (req : Req) (nx : St ω → Out × St ω) {n m : Nat} (hnx : Drives n (m + 1) nx) (i : Nat)
    (p : Prog ω) : ∀ s, s.ctx.handlers.length = n → m ≤ s.ctx.index →
    (exec o req nx i p s).1 ≠ .fuel ∧ (exec o req nx i p s).2.ctx.handlers = s.ctx.handlers ∧
    ∃ es, (exec o req nx i p s).2.trace = s.trace ++ es ∧
      Tr n (.body i) s.ctx.index s.ctx.written es (exec o req nx i p s).1.isPanic (exec o req nx i p s).2.ctx.index
        (exec o req nx i p s).2.ctx.written := by
  induction p with
  | ret => intro s _ _; exact ⟨by simp [exec], rfl, [], by simp [exec], .nil⟩
  | panic v => intro s _ _; exact ⟨by simp [exec], rfl, [], by simp [exec], .nil⟩
  | next k ih =>
    intro s hl hm
    obtain ⟨h1, h2, es, h3, h4⟩ := hnx (s.log (.next i)).bump hl (by simp [St.bump, St.log]; omega)
    simp only [exec]
    rcases hr : nx (s.log (.next i)).bump with ⟨out, s1⟩
    rw [hr] at h1 h2 h3 h4
    simp only [St.bump, St.log, Out.isPanic] at h2 h3 h4
    cases out with
    | fuel => exact absurd rfl h1
    | ret =>
      have hmono := h4.mono
      obtain ⟨g1, g2, es', g3, g4⟩ := ih (s1.log (.back i)) (by simp [St.log, h2, hl]) (by simp [St.log]; omega)
      refine ⟨g1, by rw [g2]; exact h2, .next i :: (es ++ .back i :: es'), ?_, .next h4 g4⟩
      rw [g3]; simp [St.log, h3]
    | panic v =>
      refine ⟨by simp, h2, .next i :: (es ++ [.thrown i]), by simp [St.log, h3], ?_⟩
      exact .thrown h4 .nil
  | call c k ih =>
    intro s hl hm
    obtain ⟨h1, h2, h3, h4⟩ := doCall_frame o req s c
    simp only [exec]
    rcases hr : doCall o req s c with ⟨out, s1⟩
    rw [hr] at h1 h2 h3 h4
    simp only at h1 h2 h3 h4
    cases out with
    | error v =>
      refine ⟨by simp, h1, [], by simp [h2], ?_⟩
      simp only
      rw [h3]
      rcases h4 with h4 | h4 <;> rw [h4]
      · exact .nil
      · exact .write .nil
    | ok r =>
      obtain ⟨g1, g2, es', g3, g4⟩ := ih r s1 (by rw [h1, hl]) (by omega)
      refine ⟨g1, by rw [g2]; exact h1, es', by rw [g3, h2], ?_⟩
      rw [h3] at g4
      rcases h4 with h4 | h4 <;> rw [h4] at g4
      · exact g4
      · exact .write g4
  | scope body fin ihb ihf =>
    intro s hl hm
    obtain ⟨h1, h2, es, h3, h4⟩ := ihb s hl hm
    simp only [exec]
    rcases hr : exec o req nx i body s with ⟨out, s1⟩
    rw [hr] at h1 h2 h3 h4
    simp only at h1 h2 h3 h4
    have hmono := h4.mono
    cases out with
    | fuel => exact absurd rfl h1
    | ret =>
      obtain ⟨g1, g2, es', g3, g4⟩ := ihf none s1 (by rw [h2, hl]) (by omega)
      exact ⟨g1, by rw [g2, h2], es ++ es', by rw [g3, h3]; simp, h4.trans g4⟩
    | panic v =>
      obtain ⟨g1, g2, es', g3, g4⟩ := ihf (some v) s1 (by rw [h2, hl]) (by omega)
      exact ⟨g1, by rw [g2, h2], es ++ es', by rw [g3, h3]; simp, h4.trans g4⟩

theorem run_drives (o : Oracle) (req : Req) (n fuel : Nat) :
    ∀ m, m ≤ n → n + 1 ≤ m + fuel → Drives n m (run (ω := ω) o req fuel) := by
  induction fuel with
  | zero =>
    intro m hn hm
    omega
  | succ fuel ih =>
    intro m hn hm s hl hi
    simp only [run]
    by_cases hj : s.ctx.index < s.ctx.handlers.length
    · rw [List.getElem?_eq_getElem hj]
      simp only
      obtain ⟨h1, h2, es, h3, h4⟩ := exec_tr o req (run o req fuel) (ih (m + 1) (by omega) (by omega)) s.ctx.index
        s.ctx.handlers[s.ctx.index] (s.log (.start s.ctx.index)) hl hi
      rcases hr : exec o req (run o req fuel) s.ctx.index s.ctx.handlers[s.ctx.index] (s.log (.start s.ctx.index)) with ⟨out, s1⟩
      rw [hr] at h1 h2 h3 h4
      simp only [St.log] at h1 h2 h3 h4
      have hmono := h4.mono
      cases out with
      | fuel => exact absurd rfl h1
      | panic v =>
        refine ⟨by simp, h2, .start s.ctx.index :: (es ++ [.crash s.ctx.index]), by simp [St.log, h3], ?_⟩
        exact .crash (hl ▸ hj) h4
      | ret =>
        simp only
        have f1 : (s1.log (.stop s.ctx.index s1.ctx.written)).bump.ctx.handlers = s1.ctx.handlers := rfl
        have f2 : (s1.log (.stop s.ctx.index s1.ctx.written)).bump.ctx.index = s1.ctx.index + 1 := rfl
        have f3 : (s1.log (.stop s.ctx.index s1.ctx.written)).bump.ctx.written = s1.ctx.written := rfl
        have f4 : (s1.log (.stop s.ctx.index s1.ctx.written)).bump.trace =
            s1.trace ++ [.stop s.ctx.index s1.ctx.written] := rfl
        generalize (s1.log (.stop s.ctx.index s1.ctx.written)).bump = s2 at f1 f2 f3 f4 ⊢
        by_cases hw : s1.ctx.written = true
        · rw [hw] at f3 f4 h4
          simp only [f3, if_true]
          refine ⟨by simp, by rw [f1, h2], .start s.ctx.index :: (es ++ [.stop s.ctx.index true]), ?_, ?_⟩
          · rw [f4, h3]; simp
          · rw [f2]; exact .stop (hl ▸ hj) h4
        · rw [Bool.not_eq_true] at hw
          rw [hw] at f3 f4 h4
          simp only [f3, Bool.false_eq_true, if_false]
          obtain ⟨g1, g2, es', g3, g4⟩ := ih (m + 1) (by omega) (by omega) s2 (by rw [f1, h2, hl]) (by omega)
          rw [f2, f3] at g4
          refine ⟨g1, by rw [g2, f1, h2], .start s.ctx.index :: (es ++ .stop s.ctx.index false :: es'), ?_, ?_⟩
          · rw [g3, f4, h3]; simp
          · exact .go (hl ▸ hj) h4 g4
    · rw [List.getElem?_eq_none (by omega)]
      exact ⟨by simp, rfl, [], by simp, .done (by omega)⟩

/-! ### Consequences of the grammar -/

theorem starts_append (a b : List Event) : starts (a ++ b) = starts a ++ starts b := by
  induction a with
  | nil => rfl
  | cons e es ih => cases e <;> simp [starts, ih]

theorem nexts_append (i : Nat) (a b : List Event) : nexts i (a ++ b) = nexts i a + nexts i b := by
  induction a with
  | nil => simp [nexts]
  | cons e es ih => cases e <;> simp [nexts, ih]; omega

theorem finishes_append (i : Nat) (a b : List Event) : finishes i (a ++ b) = finishes i a + finishes i b := by
  induction a with
  | nil => simp [finishes]
  | cons e es ih => cases e <;> simp [finishes, ih] <;> omega

/-- lower end of the starts -/
def Mode.low : Mode → Nat → Nat
  | .loop, j => j
  | .body _, j => j + 1

theorem Tr.increasing {n m j w es p j' w'} (h : Tr n m j w es p j' w') :
    (starts es).Pairwise (· < ·) ∧ ∀ k ∈ starts es, m.low j ≤ k ∧ k ≤ j' ∧ k < n := by
  induction h with
  | done | nil => simp [starts]
  | write _ ih => exact ih
  | @stop j w es j' hj h ih =>
    have hm := h.mono
    simp only [starts, starts_append, List.append_nil, List.pairwise_cons, List.mem_cons, Mode.low] at ih ⊢
    refine ⟨⟨fun k hk => ?_, ih.1⟩, ?_⟩
    · have := ih.2 k hk; omega
    · rintro k (rfl | hk)
      · omega
      · have := ih.2 k hk; omega
  | @crash j w es j' w' hj h ih =>
    have hm := h.mono
    simp only [starts, starts_append, List.append_nil, List.pairwise_cons, List.mem_cons, Mode.low] at ih ⊢
    refine ⟨⟨fun k hk => ?_, ih.1⟩, ?_⟩
    · have := ih.2 k hk; omega
    · rintro k (rfl | hk)
      · omega
      · have := ih.2 k hk; omega
  | @go j w es j' es' p j'' w'' hj h h' ih ih' =>
    have hm := h.mono
    have hm' := h'.mono
    simp only [starts, starts_append, List.pairwise_cons, List.mem_cons, Mode.low, List.pairwise_append,
      List.mem_append] at ih ih' ⊢
    refine ⟨⟨?_, ih.1, ih'.1, fun a ha b hb => ?_⟩, ?_⟩
    · rintro k (hk | hk)
      · have := ih.2 k hk; omega
      · have := ih'.2 k hk; omega
    · have := ih.2 a ha; have := ih'.2 b hb; omega
    · rintro k (rfl | hk | hk)
      · omega
      · have := ih.2 k hk; omega
      · have := ih'.2 k hk; omega
  | @next i j w es j' w' es' p j'' w'' h h' ih ih' =>
    have hm := h.mono
    have hm' := h'.mono
    simp only [starts, starts_append, Mode.low, List.pairwise_append, List.mem_append] at ih ih' ⊢
    refine ⟨⟨ih.1, ih'.1, fun a ha b hb => ?_⟩, ?_⟩
    · have := ih.2 a ha; have := ih'.2 b hb; omega
    · rintro k (hk | hk)
      · have := ih.2 k hk; omega
      · have := ih'.2 k hk; omega
  | @thrown i j w es j' w' es' p j'' w'' h h' ih ih' =>
    have hm := h.mono
    have hm' := h'.mono
    simp only [starts, starts_append, Mode.low, List.pairwise_append, List.mem_append] at ih ih' ⊢
    refine ⟨⟨ih.1, ih'.1, fun a ha b hb => ?_⟩, ?_⟩
    · have := ih.2 a ha; have := ih'.2 b hb; omega
    · rintro k (hk | hk)
      · have := ih.2 k hk; omega
      · have := ih'.2 k hk; omega

/-- Code that does not call `Next` has no events. -/
theorem Tr.quiet {n i j w es p j' w'} (h : Tr n (.body i) j w es p j' w') (h0 : nexts i es = 0) :
    es = [] ∧ j' = j ∧ (w = true → w' = true) := by
  generalize hm : Mode.body i = m at h
  induction h with
  | done | stop | go | crash => cases hm
  | nil => exact ⟨rfl, rfl, id⟩
  | write _ ih =>
    have := ih h0 hm
    exact ⟨this.1, this.2.1, fun _ => this.2.2 rfl⟩
  | next => cases hm; simp [nexts] at h0
  | thrown => cases hm; simp [nexts] at h0

/-- What is known at the end of a piece of the chain when the first `t` handlers have started. -/
def Reached (n t j : Nat) (w : Bool) : Prop :=
  t ≤ n ∧ (j + 1 = t ∨ (t ≤ j ∧ (w = true ∨ t = n)))

theorem Reached.mono {n t j w w'} (h : Reached n t j w) (hw : w = true → w' = true) : Reached n t j w' := by
  refine ⟨h.1, h.2.imp id fun h => ⟨h.1, h.2.imp hw id⟩⟩

/-- Without repeated `Next` calls, the handlers that start are consecutive. -/
theorem Tr.consecutive {n m j w es p j' w'} (h : Tr n m j w es p j' w') (h1 : ∀ i, nexts i es ≤ 1) :
    match m with
    | .loop => ∃ k, starts es = List.range' (min j n) k ∧ Reached n (min j n + k) j' w' ∧
        (p = false → w' = true ∨ min j n + k = n)
    | .body _ => j < n → ∃ k, starts es = List.range' (j + 1) k ∧ Reached n (j + 1 + k) j' w' := by
  induction h with
  | @done j w hj => exact ⟨0, rfl, ⟨by omega, by omega⟩, fun _ => by omega⟩
  | nil => exact fun hj => ⟨0, rfl, ⟨by omega, by omega⟩⟩
  | write _ ih => exact ih h1
  | @stop j w es j' hj h ih =>
    obtain ⟨k, hk, hr⟩ := ih (fun i => by have := h1 i; simp [nexts, nexts_append] at this; omega) hj
    have hmin : min j n = j := by omega
    refine ⟨k + 1, ?_, ?_, fun _ => .inl rfl⟩
    · simp only [starts, starts_append, hk, hmin, List.append_nil, List.range'_succ]
    · rw [hmin]
      obtain ⟨hr1, hr2⟩ := hr
      exact ⟨by omega, .inr ⟨by omega, .inl rfl⟩⟩
  | @crash j w es j' w' hj h ih =>
    obtain ⟨k, hk, hr⟩ := ih (fun i => by have := h1 i; simp [nexts, nexts_append] at this; omega) hj
    have hmin : min j n = j := by omega
    refine ⟨k + 1, ?_, ?_, by simp⟩
    · simp only [starts, starts_append, hk, hmin, List.append_nil, List.range'_succ]
    · rw [hmin, show j + (k + 1) = j + 1 + k by omega]; exact hr
  | @go j w es j' es' p j'' w'' hj h h' ih ih' =>
    obtain ⟨k, hk, hr⟩ := ih (fun i => by have := h1 i; simp [nexts, nexts_append] at this; omega) hj
    obtain ⟨k', hk', hr', hp'⟩ := ih' (fun i => by have := h1 i; simp [nexts, nexts_append] at this; omega)
    have hmin : min j n = j := by omega
    have hmin' : min (j' + 1) n = j + 1 + k := by obtain ⟨hr1, hr2⟩ := hr; simp at hr2; omega
    rw [hmin'] at hk' hr' hp'
    refine ⟨k + 1 + k', ?_, ?_, fun hp => ?_⟩
    · simp only [starts, starts_append, hk, hk', hmin]
      rw [show k + 1 + k' = (k + k') + 1 by omega, List.range'_succ, List.range'_append_1]
    · rw [hmin, show j + (k + 1 + k') = j + 1 + k + k' by omega]; exact hr'
    · rw [hmin]; exact (hp' hp).imp id (by omega)
  | @next i j w es j' w' es' p j'' w'' h h' ih ih' =>
    intro hj
    have hi := h1 i
    simp [nexts, nexts_append] at hi
    obtain ⟨rfl, rfl, hw⟩ := h'.quiet (by omega)
    obtain ⟨k, hk, hr, _⟩ := ih (fun i => by have := h1 i; simp [nexts, nexts_append] at this; omega)
    have hmin : min (j + 1) n = j + 1 := by omega
    rw [hmin] at hk hr
    exact ⟨k, by simp [starts, starts_append, hk], hr.mono hw⟩
  | @thrown i j w es j' w' es' p j'' w'' h h' ih ih' =>
    intro hj
    have hi := h1 i
    simp [nexts, nexts_append] at hi
    obtain ⟨rfl, rfl, hw⟩ := h'.quiet (by omega)
    obtain ⟨k, hk, hr, _⟩ := ih (fun i => by have := h1 i; simp [nexts, nexts_append] at this; omega)
    have hmin : min (j + 1) n = j + 1 := by omega
    rw [hmin] at hk hr
    exact ⟨k, by simp [starts, starts_append, hk], hr.mono hw⟩

theorem onion_append (a b : List Event) : ∀ st, onion st (a ++ b) = (onion st a).bind (fun st => onion st b) := by
  induction a with
  | nil => intro st; simp [onion]
  | cons e es ih =>
    rintro ⟨st, p⟩
    cases p <;> cases e <;> rcases st with _ | ⟨⟨_⟩ | ⟨_⟩, st⟩ <;> simp only [List.cons_append, onion, ih] <;>
      first | rfl | (split <;> simp)

/-- outside, or inside a call of `Next` -/
def Frame.outside : List Frame → Prop
  | [] => True
  | .call _ :: _ => True
  | .handler _ :: _ => False

theorem Tr.nested {n m j w es p j' w'} (h : Tr n m j w es p j' w') :
    match m with
    | .loop => ∀ st, Frame.outside st → onion (st, false) es = some (st, p)
    | .body i => ∀ st, onion (.handler i :: st, false) es = some (.handler i :: st, false) := by
  induction h with
  | done => exact fun _ _ => rfl
  | nil => exact fun _ => rfl
  | write _ ih => exact ih
  | @stop j w es j' hj h ih =>
    intro st hst
    rcases st with _ | ⟨⟨_⟩ | ⟨_⟩, st⟩
    · simp only [onion, onion_append]; simp [ih, onion]
    · exact hst.elim
    · simp only [onion, onion_append]; simp [ih, onion]
  | @crash j w es j' w' hj h ih =>
    intro st hst
    rcases st with _ | ⟨⟨_⟩ | ⟨_⟩, st⟩
    · simp only [onion, onion_append]; simp [ih, onion]
    · exact hst.elim
    · simp only [onion, onion_append]; simp [ih, onion]
  | @go j w es j' es' p j'' w'' hj h h' ih ih' =>
    intro st hst
    rcases st with _ | ⟨⟨_⟩ | ⟨_⟩, st⟩
    · simp only [onion, onion_append]; simp [ih, onion, ih' _ hst]
    · exact hst.elim
    · simp only [onion, onion_append]; simp [ih, onion, ih' _ hst]
  | @next i j w es j' w' es' p j'' w'' h h' ih ih' =>
    intro st
    simp only [onion, onion_append, if_true]
    simp [ih (.call i :: .handler i :: st) trivial, onion, ih']
  | @thrown i j w es j' w' es' p j'' w'' h h' ih ih' =>
    intro st
    simp only [onion, onion_append, if_true]
    simp [ih (.call i :: .handler i :: st) trivial, onion, ih']

/-- every start finishes -/
theorem Tr.finishes_eq {n m j w es p j' w'} (h : Tr n m j w es p j' w') (i : Nat) :
    finishes i es = (starts es).count i := by
  induction h with
  | done | nil => rfl
  | write _ ih => exact ih
  | stop _ _ ih => simp [finishes, starts, starts_append, finishes_append, ih, List.count_cons]
  | crash _ _ ih => simp [finishes, starts, starts_append, finishes_append, ih, List.count_cons]
  | go _ _ _ ih ih' => simp [finishes, starts, starts_append, finishes_append, ih, ih', List.count_cons]; omega
  | next _ _ ih ih' => simp [finishes, starts, starts_append, finishes_append, ih, ih']
  | thrown _ _ ih ih' => simp [finishes, starts, starts_append, finishes_append, ih, ih']

/-- `written` is never cleared, and once it is set handlers return with it set. -/
theorem Tr.written_mono {n m j w es p j' w'} (h : Tr n m j w es p j' w') :
    (w = true → w' = true ∧ ∀ i, .stop i false ∉ es) ∧ (∀ i, .stop i true ∈ es → w' = true) := by
  induction h with
  | done | nil => simp
  | write _ ih => exact ⟨fun _ => ih.1 rfl, ih.2⟩
  | stop _ _ ih =>
    refine ⟨fun hw => ⟨rfl, fun i hi => ?_⟩, fun _ _ => rfl⟩
    simp at hi
    exact (ih.1 hw).2 i hi
  | crash _ _ ih =>
    refine ⟨fun hw => ⟨(ih.1 hw).1, fun i hi => ?_⟩, fun i hi => ?_⟩
    · simp at hi; exact (ih.1 hw).2 i hi
    · simp at hi; exact ih.2 i hi
  | go _ _ _ ih ih' =>
    refine ⟨fun hw => by simpa using (ih.1 hw).1, fun i hi => ?_⟩
    simp at hi
    rcases hi with hi | hi
    · simpa using ih.2 i hi
    · exact ih'.2 i hi
  | next _ _ ih ih' =>
    refine ⟨fun hw => ⟨(ih'.1 (ih.1 hw).1).1, fun i hi => ?_⟩, fun i hi => ?_⟩
    · simp at hi
      rcases hi with hi | hi
      · exact (ih.1 hw).2 i hi
      · exact (ih'.1 (ih.1 hw).1).2 i hi
    · simp at hi
      rcases hi with hi | hi
      · exact (ih'.1 (ih.2 i hi)).1
      · exact ih'.2 i hi
  | thrown _ _ ih ih' =>
    refine ⟨fun hw => ⟨(ih'.1 (ih.1 hw).1).1, fun i hi => ?_⟩, fun i hi => ?_⟩
    · simp at hi
      rcases hi with hi | hi
      · exact (ih.1 hw).2 i hi
      · exact (ih'.1 (ih.1 hw).1).2 i hi
    · simp at hi
      rcases hi with hi | hi
      · exact (ih'.1 (ih.2 i hi)).1
      · exact ih'.2 i hi

theorem halting_append (a b : List Event) : ∀ st, halting st (a ++ b) = (halting st a).bind (fun st => halting st b) := by
  induction a with
  | nil => intro st; simp [halting]
  | cons e es ih =>
    intro st
    cases e with
    | stop i w => cases w <;> simp [halting, ih]
    | start i => cases st <;> simp [halting, ih]
    | _ => simp [halting, ih]

theorem Tr.halts {n m j w es p j' w'} (h : Tr n m j w es p j' w') :
    match m with
    | .loop => ∃ b, halting false es = some b ∧ (b = true → w' = true)
    | .body _ => ∀ b, (b = true → w = true) → ∃ b', halting b es = some b' ∧ (b' = true → w' = true) := by
  induction h with
  | done => exact ⟨false, rfl, by simp⟩
  | nil => exact fun b hb => ⟨b, rfl, hb⟩
  | write _ ih => exact fun b _ => ih b (fun _ => rfl)
  | stop hj h ih =>
    obtain ⟨b', h1, h2⟩ := ih false (by simp)
    exact ⟨true, by simp [halting, halting_append, h1], by simp⟩
  | crash hj h ih =>
    obtain ⟨b', h1, h2⟩ := ih false (by simp)
    exact ⟨b', by simp [halting, halting_append, h1], h2⟩
  | go hj h h' ih ih' =>
    obtain ⟨b', h1, h2⟩ := ih false (by simp)
    obtain ⟨b'', h3, h4⟩ := ih'
    have hb : b' = false := by cases b' <;> simp_all
    subst hb
    exact ⟨b'', by simp [halting, halting_append, h1, h3], h4⟩
  | next h h' ih ih' =>
    intro b hb
    obtain ⟨b', h1, h2⟩ := ih
    obtain ⟨b'', h3, h4⟩ := ih' b' h2
    exact ⟨b'', by simp [halting, halting_append, h1, h3], h4⟩
  | thrown h h' ih ih' =>
    intro b hb
    obtain ⟨b', h1, h2⟩ := ih
    obtain ⟨b'', h3, h4⟩ := ih' b' h2
    exact ⟨b'', by simp [halting, halting_append, h1, h3], h4⟩

theorem halting_true_next (mid : List Event) (k : Nat) (post : List Event)
    (h : halting true (mid ++ .start k :: post) ≠ none) : ∃ m, .next m ∈ mid := by
  induction mid with
  | nil => simp [halting] at h
  | cons e es ih =>
    cases e with
    | next m => exact ⟨m, by simp⟩
    | stop i w =>
      obtain ⟨m, hm⟩ := ih (by cases w <;> simpa [halting] using h)
      exact ⟨m, by simp [hm]⟩
    | start i => simp [halting] at h
    | _ =>
      obtain ⟨m, hm⟩ := ih (by simpa [halting] using h)
      exact ⟨m, by simp [hm]⟩

/-! ### Fuel -/

theorem exec_mono (o : Oracle) (req : Req) (nx nx' : St ω → Out × St ω)
    (h : ∀ s, (nx s).1 ≠ .fuel → nx' s = nx s) (i : Nat) (p : Prog ω) :
    ∀ s, (exec o req nx i p s).1 ≠ .fuel → exec o req nx' i p s = exec o req nx i p s := by
  induction p with
  | ret => intro s _; rfl
  | panic v => intro s _; rfl
  | next k ih =>
    intro s hs
    simp only [exec] at hs ⊢
    rcases hr : nx (s.log (.next i)).bump with ⟨out, s1⟩
    rw [hr] at hs
    have h1 := h (s.log (.next i)).bump
    rw [hr] at h1
    cases out with
    | fuel => exact absurd rfl hs
    | ret => rw [h1 (by simp)]; exact ih _ hs
    | panic v => rw [h1 (by simp)]
  | call c k ih =>
    intro s hs
    simp only [exec] at hs ⊢
    rcases hr : doCall o req s c with ⟨out, s1⟩
    rw [hr] at hs
    cases out with
    | error v => rfl
    | ok r => exact ih r s1 hs
  | scope b f ihb ihf =>
    intro s hs
    simp only [exec] at hs ⊢
    have h1 := ihb s
    rcases hr : exec o req nx i b s with ⟨out, s1⟩
    rw [hr] at hs h1
    cases out with
    | fuel => exact absurd rfl hs
    | ret => rw [h1 (by simp)]; exact ihf _ _ hs
    | panic v => rw [h1 (by simp)]; exact ihf _ _ hs

theorem run_succ (o : Oracle) (req : Req) (fuel : Nat) :
    ∀ s : St ω, (run o req fuel s).1 ≠ .fuel → run o req (fuel + 1) s = run o req fuel s := by
  induction fuel with
  | zero => intro s hs; exact absurd rfl hs
  | succ fuel ih =>
    intro s hs
    rw [run] at hs ⊢
    rw [run]
    rcases hh : s.ctx.handlers[s.ctx.index]? with _ | h
    · rfl
    · simp only [hh] at hs ⊢
      have h1 := exec_mono o req (run o req fuel) (run o req (fuel + 1)) ih s.ctx.index h (s.log (.start s.ctx.index))
      rcases hr : exec o req (run o req fuel) s.ctx.index h (s.log (.start s.ctx.index)) with ⟨out, s1⟩
      rw [hr] at hs h1
      cases out with
      | fuel => exact absurd rfl hs
      | panic v => rw [h1 (by simp)]
      | ret =>
        rw [h1 (by simp)]
        simp only at hs ⊢
        split
        · rfl
        · rename_i hw
          simp only [hw] at hs
          exact ih _ hs

theorem run_more (o : Oracle) (req : Req) (s : St ω) (fuel k : Nat) (h : (run o req fuel s).1 ≠ .fuel) :
    run o req (fuel + k) s = run o req fuel s := by
  induction k with
  | zero => rfl
  | succ k ih => rw [← Nat.add_assoc, run_succ o req (fuel + k) s (by rw [ih]; exact h), ih]

theorem runAll_drives (o : Oracle) (req : Req) (n : Nat) : Drives n 0 (runAll (ω := ω) o req) := by
  intro s hl hi
  subst hl
  exact run_drives o req _ _ 0 (by omega) (by omega) s rfl (by omega)

/-- Enough fuel is enough. -/
theorem run_eq_runAll (o : Oracle) (req : Req) (s : St ω) (fuel : Nat)
    (h : s.ctx.handlers.length + 1 ≤ min s.ctx.index s.ctx.handlers.length + fuel) : run o req fuel s = runAll o req s := by
  have h1 := (run_drives o req s.ctx.handlers.length fuel (min s.ctx.index s.ctx.handlers.length) (by omega) h s rfl (by omega)).1
  have h2 := (runAll_drives o req _ s rfl (by omega)).1
  unfold runAll at h2 ⊢
  rcases Nat.le_total fuel (s.ctx.handlers.length + 1) with hle | hle
  · obtain ⟨k, hk⟩ := Nat.exists_eq_add_of_le hle
    rw [hk, run_more o req s fuel k h1]
  · obtain ⟨k, hk⟩ := Nat.exists_eq_add_of_le hle
    rw [hk, run_more o req s _ k h2]

theorem exec_congr (o : Oracle) (req : Req) (nx nx' : St ω → Out × St ω) {n m : Nat} (hd : Drives n (m + 1) nx)
    (h : ∀ s, s.ctx.handlers.length = n → m + 1 ≤ s.ctx.index → nx' s = nx s) (i : Nat) (p : Prog ω) :
    ∀ s, s.ctx.handlers.length = n → m ≤ s.ctx.index → exec o req nx' i p s = exec o req nx i p s := by
  induction p with
  | ret => intro s _ _; rfl
  | panic v => intro s _ _; rfl
  | next k ih =>
    intro s hl hi
    have hi' : m + 1 ≤ (s.log (.next i)).bump.ctx.index := by simp [St.bump, St.log]; omega
    simp only [exec]
    rw [h (s.log (.next i)).bump hl hi']
    obtain ⟨-, h2, es, -, h4⟩ := hd (s.log (.next i)).bump hl hi'
    have hmono := h4.mono
    rcases hr : nx (s.log (.next i)).bump with ⟨out, s1⟩
    rw [hr] at h2 hmono
    cases out with
    | fuel => rfl
    | panic v => rfl
    | ret => exact ih _ ((congrArg List.length h2).trans hl) (by simp only [St.log]; simp only at hmono; omega)
  | call c k ih =>
    intro s hl hi
    simp only [exec]
    obtain ⟨h1, -, h3, -⟩ := doCall_frame o req s c
    rcases hr : doCall o req s c with ⟨out, s1⟩
    rw [hr] at h1 h3
    cases out with
    | error v => rfl
    | ok r => exact ih r s1 (by rw [← hl]; exact congrArg _ h1) (by simp only at h3; omega)
  | scope b f ihb ihf =>
    intro s hl hi
    simp only [exec]
    rw [ihb s hl hi]
    obtain ⟨-, h2, es, -, h4⟩ := exec_tr o req nx hd i b s hl hi
    have hmono := h4.mono
    rcases hr : exec o req nx i b s with ⟨out, s1⟩
    rw [hr] at h2 hmono
    simp only at h2 hmono
    cases out with
    | fuel => rfl
    | ret => exact ihf _ s1 (by rw [h2, hl]) (by omega)
    | panic v => exact ihf _ s1 (by rw [h2, hl]) (by omega)

/-- The driver satisfies the recursion of context.go:47-61, without fuel. -/
theorem runAll_unfold (o : Oracle) (req : Req) (s : St ω) :
    runAll o req s =
      match s.ctx.handlers[s.ctx.index]? with
      | none => (.ret, s)
      | some h =>
        match exec o req (runAll o req) s.ctx.index h (s.log (.start s.ctx.index)) with
        | (.ret, s1) =>
          let s2 := (s1.log (.stop s.ctx.index s1.ctx.written)).bump
          if s2.ctx.written then (.ret, s2) else runAll o req s2
        | (.panic v, s1) => (.panic v, s1.log (.crash s.ctx.index))
        | (.fuel, s1) => (.fuel, s1) := by
  by_cases hj : s.ctx.index < s.ctx.handlers.length
  · have hd : Drives s.ctx.handlers.length (s.ctx.index + 1) (run (ω := ω) o req s.ctx.handlers.length) :=
      run_drives o req _ _ _ (by omega) (by omega)
    have hc : ∀ s' : St ω, s'.ctx.handlers.length = s.ctx.handlers.length → s.ctx.index + 1 ≤ s'.ctx.index →
        runAll o req s' = run o req s.ctx.handlers.length s' := by
      intro s' h1 h2
      exact (run_eq_runAll o req s' _ (by omega)).symm
    conv => lhs; rw [runAll, run]
    rw [List.getElem?_eq_getElem hj]
    simp only
    rw [exec_congr o req _ _ hd hc _ _ _ (by exact rfl) (by exact Nat.le_refl _)]
    obtain ⟨-, h2, es, -, h4⟩ := exec_tr o req _ hd s.ctx.index s.ctx.handlers[s.ctx.index] (s.log (.start s.ctx.index)) rfl (Nat.le_refl _)
    have hmono := h4.mono
    rcases hr : exec o req (run o req s.ctx.handlers.length) s.ctx.index s.ctx.handlers[s.ctx.index] (s.log (.start s.ctx.index)) with ⟨out, s1⟩
    rw [hr] at h2 hmono
    cases out with
    | fuel => rfl
    | panic v => rfl
    | ret =>
      simp only
      split
      · rfl
      · refine (hc _ ?_ ?_).symm
        · exact congrArg List.length h2
        · simp only [St.log, St.bump] at hmono ⊢; omega
  · rw [runAll, run, List.getElem?_eq_none (by omega)]

/-! ### State invariants -/

/-- the events handler code itself causes -/
def Event.inner : Event → Prop
  | .next _ => True
  | .back _ => True
  | .thrown _ => True
  | _ => False

theorem exec_inv (o : Oracle) (req : Req) (P : St ω → Prop) (A : Call ω → Prop) (nx : St ω → Out × St ω)
    (hlog : ∀ s e, e.inner → P s → P (s.log e)) (hbump : ∀ s, P s → P s.bump)
    (hcall : ∀ s c, A c → P s → P (doCall o req s c).2) (hnx : ∀ s, P s → P (nx s).2) (i : Nat) (p : Prog ω) :
    CallsIn A p → ∀ s, P s → P (exec o req nx i p s).2 := by
  induction p with
  | ret => intro _ s hs; exact hs
  | panic v => intro _ s hs; exact hs
  | next k ih =>
    intro ha s hs
    simp only [exec]
    have h1 := hnx _ (hbump _ (hlog s (.next i) trivial hs))
    rcases hr : nx (s.log (.next i)).bump with ⟨out, s1⟩
    rw [hr] at h1
    cases out with
    | fuel => exact h1
    | panic v => exact hlog _ _ trivial h1
    | ret => exact ih ha _ (hlog _ _ trivial h1)
  | call c k ih =>
    intro ha s hs
    simp only [exec]
    have h1 := hcall s c ha.1 hs
    rcases hr : doCall o req s c with ⟨out, s1⟩
    rw [hr] at h1
    cases out with
    | error v => exact h1
    | ok r => exact ih r (ha.2 r) _ h1
  | scope b f ihb ihf =>
    intro ha s hs
    simp only [exec]
    have h1 := ihb ha.1 s hs
    rcases hr : exec o req nx i b s with ⟨out, s1⟩
    rw [hr] at h1
    cases out with
    | fuel => exact h1
    | ret => exact ihf _ (ha.2 _) _ h1
    | panic v => exact ihf _ (ha.2 _) _ h1

/-- A property of the state kept by all allowed calls is kept by the chain. -/
theorem run_inv (o : Oracle) (req : Req) (P : St ω → Prop) (A : Call ω → Prop)
    (hlog : ∀ s e, P s → P (s.log e)) (hbump : ∀ s, P s → P s.bump)
    (hcall : ∀ s c, A c → P s → P (doCall o req s c).2) (hP : ∀ s, P s → ∀ h ∈ s.ctx.handlers, CallsIn A h) (fuel : Nat) :
    ∀ s, P s → P (run o req fuel s).2 := by
  induction fuel with
  | zero => intro s hs; exact hs
  | succ fuel ih =>
    intro s hs
    simp only [run]
    rcases hh : s.ctx.handlers[s.ctx.index]? with _ | h
    · exact hs
    · simp only
      have h1 := exec_inv o req P A (run o req fuel) (fun s e _ => hlog s e) hbump hcall ih s.ctx.index h
        (hP s hs h (List.mem_of_getElem? hh)) _ (hlog s (.start s.ctx.index) hs)
      rcases hr : exec o req (run o req fuel) s.ctx.index h (s.log (.start s.ctx.index)) with ⟨out, s1⟩
      rw [hr] at h1
      cases out with
      | fuel => exact h1
      | panic v => exact hlog _ _ h1
      | ret =>
        have h2 := hbump _ (hlog s1 (.stop s.ctx.index s1.ctx.written) h1)
        simp only
        split
        · exact h2
        · exact ih _ h2

/-- `run_inv` with the chain fixed. -/
theorem runAll_inv (o : Oracle) (req : Req) (P : St ω → Prop) (A : Call ω → Prop)
    (hlog : ∀ s e, P s → P (s.log e)) (hbump : ∀ s, P s → P s.bump)
    (hcall : ∀ s c, A c → P s → P (doCall o req s c).2) (s : St ω) (hA : ∀ h ∈ s.ctx.handlers, CallsIn A h) (hs : P s) :
    P (runAll o req s).2 := by
  refine (run_inv o req (fun s' => P s' ∧ s'.ctx.handlers = s.ctx.handlers) A ?_ ?_ ?_ ?_ _ s ⟨hs, rfl⟩).1
  · exact fun s' e h => ⟨hlog _ _ h.1, h.2⟩
  · exact fun s' h => ⟨hbump _ h.1, h.2⟩
  · exact fun s' c ha h => ⟨hcall _ _ ha h.1, by rw [(doCall_frame o req s' c).1, h.2]⟩
  · exact fun s' h => by rw [h.2]; exact hA

end Water
