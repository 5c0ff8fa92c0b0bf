import Verif.Lemmas.Observe
/-
C24-C28: the handler chain, for all chains of arbitrary handlers, all requests and all states at the beginning
of the chain.
-/
namespace Water
open Spec
variable {ω : Type}

/-- At the beginning of a chain (engine.go:97, 127-129). -/
def AtStart (s : St ω) : Prop := s.ctx.index = 0 ∧ s.ctx.written = false ∧ s.trace = []

theorem fresh_tr (o : Oracle) (req : Req) {s : St ω} (hs : AtStart s) :
    Tr s.ctx.handlers.length .loop 0 false (runAll o req s).2.trace (runAll o req s).1.isPanic
      (runAll o req s).2.ctx.index (runAll o req s).2.ctx.written := by
  obtain ⟨-, -, es, h3, h4⟩ := runAll_drives o req _ s rfl (by omega)
  rw [hs.2.2, List.nil_append] at h3
  rw [hs.1, hs.2.1] at h4
  rw [h3]; exact h4

/-! ### Examples -/
namespace Demo

def chainSt (hs : List (Prog Unit)) : St Unit where
  ctx := { (Ctx.new : Ctx Unit) with handlers := hs }
  rw := Writer.new
  body := none
  forms := []
  world := ()
  trace := []

def chainReq : Req where
  protoMajor := 1
  protoMinor := 1
  requestURI := b!"/"
  method := b!"GET"
  path := b!"/"
  header := Map.empty

def chainO : Oracle where
  bad := fun c => decide (c < 100 ∨ c > 999)
  detect := fun _ => b!"text/plain; charset=utf-8"
  crashText := fun v => match v with
    | .nil => b!"nil"
    | .val m => b!"crashed: " ++ m
  stable := false
  parse := fun _ _ _ => ⟨[], false, 0⟩

theorem chainSt_fresh (hs : List (Prog Unit)) : AtStart (chainSt hs) := ⟨rfl, rfl, rfl⟩

/-- a handler that calls `Next` and then writes -/
def wrapH : Prog Unit := .next (.do (.write b!"w") .ret)
/-- a handler that writes -/
def writeH : Prog Unit := .do (.write b!"x") .ret
/-- a handler that does nothing -/
def idleH : Prog Unit := .ret
/-- a handler that calls `Next` twice -/
def twiceH : Prog Unit := .next (.next .ret)
/-- a handler that panics -/
def panicH : Prog Unit := .panic (.val b!"boom")
/-- a handler that recovers whatever happens downstream -/
def catchH : Prog Unit := .scope (.next .ret) (fun _ => .ret)

/-- the events of a chain -/
def traceOf (hs : List (Prog Unit)) : List Event := (runAll chainO chainReq (chainSt hs)).2.trace

end Demo
open Demo

/-! ### C24 -/

/-- C24. The handlers that start do so in strictly increasing position, so none starts twice or before an earlier
one, and only handlers of the chain start. -/
theorem C24_in_order (o : Oracle) (req : Req) (s : St ω) (hs : AtStart s) :
    (starts (runAll o req s).2.trace).Pairwise (· < ·) ∧
    ∀ k ∈ starts (runAll o req s).2.trace, k < s.ctx.handlers.length := by
  have h := (fresh_tr o req hs).increasing
  exact ⟨h.1, fun k hk => (h.2 k hk).2.2⟩

/-- The events recorded are the ones the handlers see themselves: if every handler keeps a diary, the diaries
together are the trace, and apart from that nothing changes. -/
theorem C24_observed (o : Oracle) (req : Req) (s : St ω) (hs : AtStart s) :
    runAll o req (upSt s []) = ((runAll o req s).1, upSt (runAll o req s).2 (runAll o req s).2.trace) := by
  have h := run_lift o req (s.ctx.handlers.length + 1) s
  rw [hs.2.2] at h
  have hl : (upSt s ([] : List Event)).ctx.handlers.length = s.ctx.handlers.length := by simp [upSt, upCtx]
  unfold runAll
  rw [hl]; exact h

/-- the diary of a chain in which a handler calls `Next` twice, with a panic and a recover -/
example : (starts (traceOf [catchH, twiceH, idleH, panicH, idleH]) = [0, 1, 2, 3, 4]) ∧
    traceOf [twiceH, writeH, idleH, idleH] = [.start 0, .next 0, .start 1, .stop 1 true, .back 0, .next 0,
      .start 3, .stop 3 true, .back 0, .stop 0 true] := by decide +kernel

/-! ### C25 -/

/-- C25. If in this execution every handler calls `Next` at most once, then the handlers that start are the first
`k` of the chain; if the chain returns without panic and without a response, all have started. -/
theorem C25_no_skip (o : Oracle) (req : Req) (s : St ω) (hs : AtStart s)
    (h1 : ∀ i, nexts i (runAll o req s).2.trace ≤ 1) :
    ∃ k ≤ s.ctx.handlers.length, starts (runAll o req s).2.trace = List.range k ∧
      ((runAll o req s).1 = .ret → (runAll o req s).2.ctx.written = false → k = s.ctx.handlers.length) := by
  obtain ⟨k, hk, hr, hp⟩ := (fresh_tr o req hs).consecutive h1
  simp only [Nat.zero_min, Nat.zero_add] at hk hr hp
  refine ⟨k, hr.1, by rw [hk, List.range_eq_range'], fun ho hw => ?_⟩
  rw [ho] at hp
  rcases hp rfl with h | h
  · rw [hw] at h; cases h
  · exact h

/-- The hypothesis is needed: a handler calling `Next` twice around a response skips handler 2. -/
example : starts (traceOf [twiceH, writeH, idleH, idleH]) = [0, 1, 3] := by decide +kernel

/-- a chain meeting the hypothesis, with a panic that is recovered -/
example : (∀ i, nexts i (traceOf [wrapH, catchH, idleH, panicH, idleH]) ≤ 1) ∧
    starts (traceOf [wrapH, catchH, idleH, panicH, idleH]) = List.range 5 := by
  have h : traceOf [wrapH, catchH, idleH, panicH, idleH] = [.start 0, .next 0, .start 1, .next 1, .start 2,
    .stop 2 false, .start 3, .crash 3, .thrown 1, .stop 1 false, .start 4, .stop 4 false, .back 0, .stop 0 true] := by
    decide +kernel
  rw [h]
  refine ⟨fun i => ?_, by decide⟩
  simp only [nexts]
  split <;> split <;> omega

/-! ### C26 -/

theorem onion_next {st : List Frame × Bool} {m : Nat} {es : List Event} (h : onion st (.next m :: es) ≠ none) :
    ∃ st', st = (.handler m :: st', false) := by
  rcases st with ⟨_ | ⟨⟨j⟩ | ⟨j⟩, st⟩, p⟩ <;> cases p <;> simp [onion] at h
  exact ⟨st, by rw [h.1]⟩

/-- C26. Between a return of a handler with a response written and the start of another handler, there is a call of
`Next` by a handler `m` that is still running: after the events up to that call, `m` is the innermost open frame. -/
theorem C26_written_stops (o : Oracle) (req : Req) (s : St ω) (hs : AtStart s) (pre mid post : List Event) (i k : Nat)
    (h : (runAll o req s).2.trace = pre ++ .stop i true :: (mid ++ .start k :: post)) :
    ∃ m mid₁ mid₂, mid = mid₁ ++ .next m :: mid₂ ∧
      ∃ st, onion ([], false) (pre ++ .stop i true :: mid₁) = some (.handler m :: st, false) := by
  have ht := fresh_tr o req hs
  rw [h] at ht
  obtain ⟨b, hb, -⟩ := ht.halts
  have ho := ht.nested [] trivial
  rw [halting_append] at hb
  have hm : ∃ m, .next m ∈ mid := by
    cases hp : halting false pre with
    | none => rw [hp] at hb; cases hb
    | some b' =>
      rw [hp] at hb
      refine halting_true_next mid k post ?_
      simp only [Option.bind_some, halting] at hb
      rw [hb]; simp
  obtain ⟨m, hm⟩ := hm
  obtain ⟨mid₁, mid₂, rfl⟩ := List.append_of_mem hm
  refine ⟨m, mid₁, mid₂, rfl, ?_⟩
  have e : pre ++ Event.stop i true :: (mid₁ ++ .next m :: mid₂ ++ .start k :: post) =
      (pre ++ .stop i true :: mid₁) ++ .next m :: (mid₂ ++ .start k :: post) := by simp
  rw [e, onion_append] at ho
  cases hst : onion ([], false) (pre ++ .stop i true :: mid₁) with
  | none => rw [hst] at ho; cases ho
  | some st =>
    rw [hst] at ho
    simp only [Option.bind_some] at ho
    obtain ⟨st', rfl⟩ := onion_next (by rw [ho]; simp)
    exact ⟨st', rfl⟩

/-- a trace of the form in question, and a chain that a response stops -/
example : traceOf [twiceH, writeH, idleH, idleH] = [.start 0, .next 0, .start 1] ++ .stop 1 true ::
      ([.back 0, .next 0] ++ .start 3 :: [.stop 3 true, .back 0, .stop 0 true]) ∧
    starts (traceOf [idleH, writeH, idleH]) = [0, 1] := by decide +kernel

/-! ### C27 -/

/-- C27. The events form an onion: the stack machine `onion` accepts them, from nothing open to nothing open, and a
panic is left at the end exactly if the chain panicked; and every handler that starts finishes exactly once. -/
theorem C27_onion (o : Oracle) (req : Req) (s : St ω) (hs : AtStart s) :
    onion ([], false) (runAll o req s).2.trace = some ([], (runAll o req s).1.isPanic) ∧
    ∀ i, finishes i (runAll o req s).2.trace = if i ∈ starts (runAll o req s).2.trace then 1 else 0 := by
  have ht := fresh_tr o req hs
  refine ⟨ht.nested [] trivial, fun i => ?_⟩
  rw [ht.finishes_eq]
  have hn : (starts (runAll o req s).2.trace).Nodup := ht.increasing.1.imp (fun h => Nat.ne_of_lt h)
  exact hn.count

example : onion ([], false) (traceOf [catchH, twiceH, idleH, panicH, idleH]) = some ([], false) ∧
    onion ([], false) (traceOf [wrapH, panicH]) = some ([], true) ∧
    onion ([], false) [.start 0, .start 1, .stop 0 false, .stop 1 false] = none := by decide +kernel

/-! ### C28 -/

theorem length_le_of_increasing {l : List Nat} {a n : Nat} (h : l.Pairwise (· < ·)) (hl : ∀ k ∈ l, a ≤ k ∧ k < n) :
    l.length ≤ n - a := by
  induction l generalizing a with
  | nil => simp
  | cons x xs ih =>
    have hx := hl x (by simp)
    rw [List.pairwise_cons] at h
    have := ih (a := x + 1) h.2 (fun k hk => ⟨h.1 k hk, (hl k (by simp [hk])).2⟩)
    simp only [List.length_cons]; omega

/-- C28. Handlers are well-founded programs here, i.e. terminating whenever the calls they make do; then the chain
terminates: the bound on nesting that the model needs as a recursion measure is never hit, any larger bound gives the
same result, and at most as many handlers start as the chain has. -/
theorem C28_terminates (o : Oracle) (req : Req) (s : St ω) (hs : AtStart s) :
    (runAll o req s).1 ≠ .fuel ∧
    (∀ fuel, s.ctx.handlers.length < fuel → run o req fuel s = runAll o req s) ∧
    (starts (runAll o req s).2.trace).length ≤ s.ctx.handlers.length := by
  refine ⟨(runAll_drives o req _ s rfl (by omega)).1, fun fuel hf => run_eq_runAll o req s fuel ?_, ?_⟩
  · rw [hs.1]; omega
  · have h := C24_in_order o req s hs
    have := length_le_of_increasing (a := 0) h.1 (fun k hk => ⟨by omega, h.2 k hk⟩)
    omega

/-- C28. The driver obeys the recursion of context.go:47-61 as written, without any bound: run the handler at
`index`, increment, return if written, else repeat; `Next` increments and does the same. -/
theorem C28_recursion (o : Oracle) (req : Req) (s : St ω) :
    runAll o req s =
      match s.ctx.handlers[s.ctx.index]? with
      | none => (.ret, s)
      | some h =>
        match exec o req (runAll o req) s.ctx.index h (s.log (.start s.ctx.index)) with
        | (.ret, s1) =>
          let s2 := (s1.log (.stop s.ctx.index s1.ctx.written)).bump
          if s2.ctx.written then (.ret, s2) else runAll o req s2
        | (.panic v, s1) => (.panic v, s1.log (.crash s.ctx.index))
        | (.fuel, s1) => (.fuel, s1) :=
  runAll_unfold o req s

example : (runAll chainO chainReq (chainSt [twiceH, twiceH, twiceH, twiceH])).1 = .ret ∧
    starts (traceOf [twiceH, twiceH, twiceH, twiceH]) = [0, 1, 2, 3] := by decide +kernel

end Water
