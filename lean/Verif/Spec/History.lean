import Verif.Spec.Chain
/-
The histories of a chain of handlers: which lists of events a request can produce, told by a machine that reads them one by one. It knows
nothing of what handlers do; it only counts returns and calls of `Next`.
-/
namespace Water.Spec

/-- What may come next: a handler starts, the innermost handler does something, the innermost `Next` returns, or a panic goes up. -/
inductive Phase where
  | starting
  | inside
  | leaving
  | throwing
  deriving DecidableEq, Repr

/-- The handlers that are running, innermost first; how many returns and calls of `Next` there have been; whether a handler has returned
with a response; and what comes next. -/
structure Moment where
  open_ : List Nat
  count : Nat
  answered : Bool
  phase : Phase
  deriving DecidableEq, Repr

/-- One more return or call of `Next`, after which the chain of `n` handlers goes on, if it is not over. -/
def goOn (n : Nat) (running : List Nat) (count : Nat) (answered : Bool) : Moment :=
  ⟨running, count, answered, if count < n then .starting else .leaving⟩

/-- One event in a chain of `n` handlers. The handler that starts is the one whose position is the number of returns and calls of `Next` so
far. A handler that returns with a response ends the loop that started it; `Next` returns when the loop it has begun is over. -/
def happens (n : Nat) (m : Moment) : Event → Option Moment
  | .start k => if m.phase = .starting ∧ k = m.count then some ⟨k :: m.open_, m.count, m.answered, .inside⟩ else none
  | .next k => if m.phase = .inside ∧ m.open_.head? = some k then some (goOn n m.open_ (m.count + 1) m.answered) else none
  | .stop k true => if m.phase = .inside ∧ m.open_.head? = some k then some ⟨m.open_.tail, m.count + 1, true, .leaving⟩ else none
  | .stop k false =>
    if m.phase = .inside ∧ m.open_.head? = some k ∧ m.answered = false then some (goOn n m.open_.tail (m.count + 1) false) else none
  | .crash k => if m.phase = .inside ∧ m.open_.head? = some k then some ⟨m.open_.tail, m.count, m.answered, .throwing⟩ else none
  | .back k => if m.phase = .leaving ∧ m.open_.head? = some k then some { m with phase := .inside } else none
  | .thrown k => if m.phase = .throwing ∧ m.open_.head? = some k then some { m with phase := .inside } else none

/-- Reading a list of events. -/
def reads (n : Nat) : Moment → List Event → Option Moment
  | m, [] => some m
  | m, e :: es => (happens n m e).bind (fun m => reads n m es)

/-- A history of a chain of `n` handlers, from its beginning until no handler is running any more; `panics`: it ends with a panic. -/
def History (n : Nat) (panics : Bool) (es : List Event) : Prop :=
  ∃ m, reads n (goOn n [] 0 false) es = some m ∧ m.open_ = [] ∧ m.phase = (if panics then .throwing else .leaving)

instance (n : Nat) (panics : Bool) (es : List Event) : Decidable (History n panics es) :=
  match h : reads n (goOn n [] 0 false) es with
  | none => isFalse (fun ⟨_, h1, _⟩ => by rw [h] at h1; cases h1)
  | some m =>
    if h2 : m.open_ = [] ∧ m.phase = (if panics then .throwing else .leaving) then isTrue ⟨m, h, h2⟩
    else isFalse (fun ⟨m', h1, h3⟩ => by rw [h] at h1; cases h1; exact h2 h3)

/-- The number of returns and calls of `Next`. -/
def steps : List Event → Nat
  | [] => 0
  | .stop _ _ :: es => steps es + 1
  | .next _ :: es => steps es + 1
  | _ :: es => steps es

end Water.Spec
