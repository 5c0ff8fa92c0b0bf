import Verif.Lemmas.Body
import Verif.Props.Middleware
/- C96: bodies are read whole or not at all. -/
namespace Water
open Spec

/-- C96: `BodyBytes` returns the whole text or an error: the text and nil if it is complete, nothing and the error of the
connection if it is not. -/
theorem C96_body {b : Body} {text : Str} {fin : Option Str} (h : Arrives b text fin) {q : Sched} {fuel : Nat}
    {data : Str} {err : Option RdErr} {b' : Body} (hr : bodyBytesF q fuel b = some ((data, err), b')) :
    (fin = none → data = text ∧ err = none) ∧ (∀ e, fin = some e → data = [] ∧ err = some (.failed e)) := by
  unfold bodyBytesF at hr
  rcases hx : readAllF (Body.read q) q fuel 0 b [] with _ | r
  · rw [hx] at hr; cases hr
  · rw [hx] at hr
    rcases h with rfl | ⟨rfl, rfl⟩
    · cases readAll_net q fin hx
      cases fin <;> simp at hr <;> simp [← hr]
    · cases readAll_buf q hx
      simp at hr
      simp [← hr]

/-- C96: nil means the text is complete. -/
theorem C96_whole {b : Body} {text : Str} {fin : Option Str} (h : Arrives b text fin) {q : Sched} {fuel : Nat}
    {data : Str} {b' : Body} (hr : bodyBytesF q fuel b = some ((data, none), b')) : fin = none ∧ data = text := by
  obtain ⟨h1, h2⟩ := C96_body h hr
  cases fin with
  | none => exact ⟨rfl, (h1 rfl).1⟩
  | some e => exact absurd (h2 e rfl).2 (by simp)

/-- C96: it returns if the network goes on. -/
theorem C96_returns {q : Sched} (hq : Live q) (b : Body) : ∃ fuel r, bodyBytesF q fuel b = some r := by
  obtain ⟨f, r, h⟩ := readAll_body_ends hq b
  refine ⟨f, ?_⟩
  unfold bodyBytesF
  rw [h]
  obtain ⟨⟨d, _ | e⟩, b'⟩ := r <;> exact ⟨_, rfl⟩

/-- C96: reading the body of net/http again is an error, never an empty text: the body is closed after it was read whole, and a
failed connection fails again. -/
theorem C96_again {text : Str} {fin : Option Str} {q q' : Sched} {fuel fuel' : Nat} {r r' : Str × Option RdErr} {b' b'' : Body}
    (hr : bodyBytesF q fuel (.net text fin false) = some (r, b')) (hr' : bodyBytesF q' fuel' b' = some (r', b'')) :
    r'.2 = some (match fin with | none => .closed | some e => .failed e) ∧ r'.1 = [] := by
  unfold bodyBytesF at hr
  rcases hx : readAllF (Body.read q) q fuel 0 (.net text fin false) [] with _ | x
  · rw [hx] at hr; cases hr
  · rw [hx] at hr
    cases readAll_net q fin hx
    cases fin with
    | none =>
      simp [Body.close] at hr
      obtain ⟨-, rfl⟩ := hr
      unfold bodyBytesF at hr'
      rcases hy : readAllF (Body.read q') q' fuel' 0 (.net [] none true) [] with _ | y
      · rw [hy] at hr'; cases hr'
      · rw [hy] at hr'
        cases readAll_closed q' hy
        simp at hr'
        simp [← hr'.1]
    | some e =>
      simp at hr
      obtain ⟨-, rfl⟩ := hr
      exact ⟨((C96_body (.inl rfl) hr').2 e rfl).2, ((C96_body (.inl rfl) hr').2 e rfl).1⟩

/-! ### behind Logger -/

/-- what Logger reads and puts in place of the body -/
theorem logBody_spec {b : Body} {text : Str} {fin : Option Str} (h : Arrives b text fin) {q : Sched} {fuel : Nat} {r : Str × Body}
    (hr : logBodyF q fuel b = some r) : r = (10 :: text.take (2 ^ 20), .buf (text.take (2 ^ 20))) := by
  unfold logBodyF at hr
  rcases hx : readAllF (limitedRead q) q fuel 0 (b, logLimit) [] with _ | ⟨⟨d, e⟩, x⟩
  · rw [hx] at hr; cases hr
  · rw [hx] at hr
    have hd : d = text.take logLimit := by
      rcases h with rfl | ⟨rfl, rfl⟩
      · simpa using (limited_net q fin hx).1
      · simpa using limited_buf q hx
    simp at hr
    rw [← hr, hd]
    rfl

/-- C96, partial: behind a Logger that logs JSON bodies, a JSON body is read as the first MiB of what arrives, without an
error. Missing: whether that is all (`C96_refuted`). Other bodies are read as if there were no Logger. -/
theorem C96_logged_partial {b : Body} {text : Str} {fin : Option Str} (h : Arrives b text fin) {q q' : Sched} {fuel : Nat}
    {data : Str} {err : Option RdErr} {b' : Body} :
    (loggedBytesF q q' fuel true b = some ((data, err), b') → data = text.take (2 ^ 20) ∧ err = none) ∧
    loggedBytesF q q' fuel false b = bodyBytesF q' fuel b := by
  refine ⟨fun hr => ?_, rfl⟩
  unfold loggedBytesF at hr
  rcases hx : logBodyF q fuel b with _ | ⟨l, b1⟩
  · simp [hx] at hr
  · simp only [hx, if_true] at hr
    have := logBody_spec h hx
    simp only [Prod.mk.injEq] at this
    rw [this.2] at hr
    exact (C96_body (.inr ⟨rfl, rfl⟩) hr).1 rfl

/-- C96: behind Logger nil means that the text is complete exactly if the connection did not fail and the body is no longer
than 1 MiB. -/
theorem C96_logged_iff {b : Body} {text : Str} {fin : Option Str} (h : Arrives b text fin) {q q' : Sched} {fuel : Nat}
    {data : Str} {err : Option RdErr} {b' : Body} (hr : loggedBytesF q q' fuel true b = some ((data, err), b')) :
    (fin = none ∧ data = text) ↔ (fin = none ∧ text.length ≤ 2 ^ 20) := by
  rw [((C96_logged_partial h).1 hr).1]
  constructor
  · rintro ⟨h1, h2⟩
    exact ⟨h1, by rw [← h2]; exact List.length_take_le _ _⟩
  · rintro ⟨h1, h2⟩
    exact ⟨h1, List.take_of_length_le h2⟩

/-- the whole claim of C96, with Logger -/
def C96_claim : Prop :=
  ∀ (b : Body) (text : Str) (fin : Option Str), Arrives b text fin → text.length ≤ 2 ^ 20 → ∀ (q q' : Sched) (fuel : Nat) (data : Str) (b' : Body),
    loggedBytesF q q' fuel true b = some ((data, none), b') → fin = none

namespace Demo

/-- a network that gives three bytes at a time -/
def slow : Sched := ⟨fun k => if k = 0 then 0 else 3, fun _ => false, fun _ => 0⟩

example : Live slow := fun k => ⟨k + 1, by omega, by simp [slow]⟩

/-- the client wanted to send `{"n":1,"m":2}` and the connection broke -/
def cutOff : Body := .net b!"{\"n\":1" (some b!"unexpected EOF") false

/-- without Logger the handler gets the error, and again; with Logger it gets the beginning without an error, and then nothing -/
example : (bodyBytesF slow 9 cutOff).map (·.1) = some ([], some (.failed b!"unexpected EOF")) := by decide +kernel
example : (loggedBytesF slow slow 9 true cutOff).map (·.1) = some (b!"{\"n\":1", none) := by decide +kernel
/-- a complete body -/
example : (bodyBytesF slow 9 (.net b!"{\"n\":1}" none false)).map (·.1) = some (b!"{\"n\":1}", none) := by decide +kernel
example : (loggedBytesF slow slow 9 true (.net b!"{\"n\":1}" none false)).map (·.1) = some (b!"{\"n\":1}", none) := by decide +kernel

end Demo

open Demo in
/-- C96, as stated, is false: Logger throws the error of the connection away, and the handler behind it takes the beginning of a
JSON body for a complete body. -/
theorem C96_refuted : ¬ C96_claim := by
  intro h
  exact absurd (h cutOff _ _ (.inl rfl) (by decide) slow slow 9 b!"{\"n\":1" (.buf []) (by decide +kernel)) (by decide)

/-! ### the bodies of `Context` -/

/-- C96, refinement: on complete bodies, Logger's reading and `BodyBytes` give what the calls of `Model/Context.lean` give
that stand for them in `Model/Middleware.lean` and in handler code. -/
theorem C96_refines {ω : Type} (o : Oracle) (req : Req) (s : St ω) {b : Body} {text : Str} (h : Arrives b text none)
    (hs : s.body = some text) {q : Sched} {fuel : Nat} :
    (∀ r, logBodyF q fuel b = some r → ∃ d, (doCall o req s (.readBody (some logLimit))).1 = .ok (.str d) ∧
      r.1 = 10 :: d ∧ Arrives r.2 d none) ∧
    (∀ data err b', bodyBytesF q fuel b = some ((data, err), b') →
      (doCall o req s (.readBody none)).1 = .ok (.str data) ∧ err = none) := by
  constructor
  · intro r hr
    refine ⟨text.take logLimit, ?_, ?_⟩
    · simp [doCall, hs]
    · rw [logBody_spec h hr]
      exact ⟨rfl, .inr ⟨rfl, rfl⟩⟩
  · intro data err b' hr
    obtain ⟨h1, h2⟩ := (C96_body h hr).1 rfl
    subst h1
    exact ⟨by simp [doCall, hs], h2⟩

end Water
