import Verif.Spec.BodyBind
import Verif.Lemmas.Body
import Verif.Props.Body
/- C105: `Bind` of JSON and XML bodies. -/
namespace Water
open Spec

variable {D : Decoding} {q : Sched} {obj : Target} {check : Target → Option Nat}

theorem decode_net (hD : OneValue D) (fin : Option Str) {f k : Nat} {rest acc : Str} {r : (Option Nat × Target) × Body}
    (h : decodeF D q obj f k (.net rest fin false) acc = some r) :
    r.1 = decoded D (acc ++ rest) fin obj ∧ ∃ x, r.2 = .net x fin false := by
  induction f generalizing k rest acc with
  | zero => cases h
  | succ f ih =>
    unfold decodeF at h
    cases he : D.early acc obj with
    | some v =>
      rw [he] at h
      cases h
      refine ⟨?_, _, rfl⟩
      unfold decoded
      rw [hD.stable acc rest obj v he]
    | none =>
      rw [he] at h
      by_cases hr : rest = []
      · subst hr
        simp only [Body.read, Bool.false_eq_true, if_false, if_true] at h
        cases h
        refine ⟨?_, _, rfl⟩
        unfold decoded
        rw [List.append_nil, he]
        cases fin <;> rfl
      · simp only [Body.read, Bool.false_eq_true, if_false, if_neg hr] at h
        rcases ht : rest.take (min D.size (q.chunk k)) with _ | ⟨c, cs⟩
        · rw [ht] at h
          have hd : rest.drop (min D.size (q.chunk k)) = rest := by
            have := List.take_append_drop (min D.size (q.chunk k)) rest
            rwa [ht, List.nil_append] at this
          rw [hd] at h
          simp only [hr, false_and, if_false] at h
          exact ih h
        · rw [ht] at h
          have := ih h
          rw [← ht, List.append_assoc, List.take_append_drop] at this
          exact this

theorem decode_buf (hD : OneValue D) {f k : Nat} {rest acc : Str} {r : (Option Nat × Target) × Body}
    (h : decodeF D q obj f k (.buf rest) acc = some r) :
    r.1 = decoded D (acc ++ rest) none obj ∧ ∃ x, r.2 = .buf x := by
  induction f generalizing k rest acc with
  | zero => cases h
  | succ f ih =>
    unfold decodeF at h
    cases he : D.early acc obj with
    | some v =>
      rw [he] at h
      cases h
      refine ⟨?_, _, rfl⟩
      unfold decoded
      rw [hD.stable acc rest obj v he]
    | none =>
      rw [he] at h
      by_cases hr : rest = []
      · subst hr
        simp only [Body.read, if_true] at h
        cases h
        refine ⟨?_, _, rfl⟩
        unfold decoded
        rw [List.append_nil, he]
      · simp only [Body.read, if_neg hr] at h
        rcases ht : rest.take D.size with _ | ⟨c, cs⟩
        · exact absurd ht (by
            have := hD.room
            cases rest with
            | nil => exact absurd rfl hr
            | cons a l => cases hs : D.size with
              | zero => omega
              | succ n => simp)
        · rw [ht] at h
          have := ih h
          rw [← ht, List.append_assoc, List.take_append_drop] at this
          exact this

theorem decode_arrives (hD : OneValue D) {b : Body} {text : Str} {fin : Option Str} (h : Arrives b text fin) {f : Nat}
    {r : (Option Nat × Target) × Body} (hr : decodeF D q obj f 0 b [] = some r) :
    r.1 = decoded D text fin obj ∧ ((∃ x, b = .net text fin false ∧ r.2 = .net x fin false) ∨ ∃ x, b = .buf text ∧ r.2 = .buf x) := by
  rcases h with rfl | ⟨rfl, rfl⟩
  · obtain ⟨h1, x, h2⟩ := decode_net hD fin hr
    exact ⟨h1, .inl ⟨x, rfl, h2⟩⟩
  · obtain ⟨h1, x, h2⟩ := decode_buf hD hr
    exact ⟨h1, .inr ⟨x, rfl, h2⟩⟩

theorem bind_result {b : Body} {f : Nat} {r : (Option JErr × Target) × Option Body} (hr : bindBodyF D q f check obj (some b) = some r) :
    ∃ x, decodeF D q obj f 0 b [] = some x ∧ r.1 = bound check x.1 ∧ r.2 = some x.2.close := by
  simp only [bindBodyF] at hr
  rcases hd : decodeF D q obj f 0 b [] with _ | ⟨⟨_ | e, o⟩, b'⟩
  · rw [hd] at hr; cases hr
  · rw [hd] at hr
    cases hr
    refine ⟨_, rfl, ?_, rfl⟩
    unfold bound
    simp only []
    cases check o <;> rfl
  · rw [hd] at hr
    cases hr
    exact ⟨_, rfl, rfl, rfl⟩

/-- **C105.** What `Bind` returns for a JSON or XML body, and what it leaves in the target, is what the decoder makes of the text that
arrives, taken at once, and then the validator's verdict: however the text is cut by the network and whatever was read at a time. -/
theorem C105_result (hD : OneValue D) {b : Body} {text : Str} {fin : Option Str} (h : Arrives b text fin) {fuel : Nat}
    {r : Option JErr × Target} {b' : Option Body} (hr : bindBodyF D q fuel check obj (some b) = some (r, b')) :
    r = bound check (decoded D text fin obj) := by
  obtain ⟨x, h1, h2, -⟩ := bind_result hr
  rw [show r = _ from h2, (decode_arrives hD h h1).1]

theorem read_left (q : Sched) {k n : Nat} {b b' : Body} {d : Str} {e : Option RdErr} (h : b.read q k n = ((d, e), b')) :
    b'.left + d.length = b.left := by
  cases b with
  | net rest fin closed =>
    simp only [Body.read] at h
    split at h
    · simp only [Prod.mk.injEq] at h; obtain ⟨⟨rfl, -⟩, rfl⟩ := h; rfl
    · split at h
      · simp only [Prod.mk.injEq] at h; obtain ⟨⟨rfl, -⟩, rfl⟩ := h; rfl
      · simp only [Prod.mk.injEq] at h
        obtain ⟨⟨rfl, -⟩, rfl⟩ := h
        simp only [Body.left, List.length_drop, List.length_take]
        omega
  | buf rest =>
    simp only [Body.read] at h
    split at h
    · simp only [Prod.mk.injEq] at h; obtain ⟨⟨rfl, -⟩, rfl⟩ := h; rfl
    · simp only [Prod.mk.injEq] at h
      obtain ⟨⟨rfl, -⟩, rfl⟩ := h
      simp only [Body.left, List.length_drop, List.length_take]
      omega

theorem decode_ends (hD : OneValue D) (hq : Live q) (obj : Target) (b : Body) (acc : Str) (k : Nat) :
    ∃ f r, decodeF D q obj f k b acc = some r := by
  have hsize := hD.room
  have main : ∀ n (b : Body), b.left ≤ n → ∀ k acc, ∃ f r, decodeF D q obj f k b acc = some r := by
    intro n
    induction n using Nat.strongRecOn with
    | _ n ih =>
      intro b hb k acc
      obtain ⟨j, hj, hc⟩ := hq k
      obtain ⟨g, rfl⟩ : ∃ g, j = k + g := ⟨j - k, by omega⟩
      clear hj
      induction g generalizing k b acc with
      | zero =>
        cases he : D.early acc obj with
        | some v => exact ⟨1, _, by unfold decodeF; rw [he]⟩
        | none =>
          rcases hr : b.read q k D.size with ⟨⟨_ | ⟨c, d⟩, _ | e⟩, b'⟩
          · have h1 := (read_progress q hsize hr).2 hc
            obtain ⟨f, r, h2⟩ := ih b'.left (by omega) b' (Nat.le_refl _) (k + 1) acc
            exact ⟨f + 1, r, by unfold decodeF; rw [he, hr]; exact h2⟩
          · exact ⟨1, _, by unfold decodeF; rw [he, hr]⟩
          all_goals
            have h1 := read_left q hr
            simp only [List.length_cons] at h1
            obtain ⟨f, r, h2⟩ := ih b'.left (by omega) b' (Nat.le_refl _) (k + 1) (acc ++ c :: d)
            exact ⟨f + 1, r, by unfold decodeF; rw [he, hr]; exact h2⟩
      | succ g ihg =>
        cases he : D.early acc obj with
        | some v => exact ⟨1, _, by unfold decodeF; rw [he]⟩
        | none =>
          rcases hr : b.read q k D.size with ⟨⟨_ | ⟨c, d⟩, _ | e⟩, b'⟩
          · have h1 := (read_progress q hsize hr).1
            obtain ⟨f, r, h2⟩ := ihg b' (by omega) (k + 1) acc (by rwa [show k + 1 + g = k + (g + 1) by omega])
            exact ⟨f + 1, r, by unfold decodeF; rw [he, hr]; exact h2⟩
          · exact ⟨1, _, by unfold decodeF; rw [he, hr]⟩
          all_goals
            have h1 := read_left q hr
            simp only [List.length_cons] at h1
            obtain ⟨f, r, h2⟩ := ih b'.left (by omega) b' (Nat.le_refl _) (k + 1) (acc ++ c :: d)
            exact ⟨f + 1, r, by unfold decodeF; rw [he, hr]; exact h2⟩
  exact main _ b (Nat.le_refl _) k acc

/-- C105: it returns if the network goes on. Without a body it is an error. -/
theorem C105_returns (hD : OneValue D) (hq : Live q) (check : Target → Option Nat) (obj : Target) :
    (∀ b, ∃ fuel r, bindBodyF D q fuel check obj (some b) = some r) ∧
    ∀ fuel, bindBodyF D q fuel check obj none = some ((some .noBody, obj), none) := by
  refine ⟨fun b => ?_, fun _ => rfl⟩
  obtain ⟨f, r, h⟩ := decode_ends hD hq obj b [] 0
  refine ⟨f, ?_⟩
  simp only [bindBodyF]
  rw [h]
  obtain ⟨⟨_ | e, o⟩, b'⟩ := r <;> exact ⟨_, rfl⟩

/-- C105, partial: nil means that a value was decoded and is valid; and if the connection failed, that the value was complete before.
Missing: that the connection did not fail (`C105_refuted`). -/
theorem C105_whole_partial (hD : OneValue D) {b : Body} {text : Str} {fin : Option Str} (h : Arrives b text fin) {fuel : Nat}
    {obj' : Target} {b' : Option Body} (hr : bindBodyF D q fuel check obj (some b) = some ((none, obj'), b')) :
    decoded D text fin obj = (none, obj') ∧ check obj' = none ∧ (fin ≠ none → D.early text obj = some (none, obj')) := by
  have h1 := C105_result hD h hr
  rcases hd : decoded D text fin obj with ⟨_ | e, o⟩
  · rw [hd] at h1
    simp only [bound] at h1
    cases hc : check o with
    | some e => rw [hc] at h1; cases h1
    | none =>
      rw [hc] at h1
      cases h1
      refine ⟨rfl, hc, fun hf => ?_⟩
      unfold decoded at hd
      cases he : D.early text obj with
      | some v => rw [he] at hd; rw [show v = _ from hd]
      | none =>
        rw [he] at hd
        cases fin with
        | none => exact absurd rfl hf
        | some e =>
          obtain ⟨n, hn⟩ := hD.broken text e obj
          simp only [] at hd
          rw [hd] at hn
          cases hn
  · rw [hd] at h1
    cases h1

/-- C105: whatever follows a complete value, and also a connection that fails then, changes nothing. -/
theorem C105_trailing (hD : OneValue D) {text : Str} {v : Option Nat × Target} (hv : D.early text obj = some v) {b : Body} {more : Str}
    {fin : Option Str} (h : Arrives b (text ++ more) fin) {fuel : Nat} {r : Option JErr × Target} {b' : Option Body}
    (hr : bindBodyF D q fuel check obj (some b) = some (r, b')) : r = bound check v := by
  rw [C105_result hD h hr]
  unfold decoded
  rw [hD.stable text more obj v hv]

theorem decode_closed (hD : OneValue D) {f : Nat} {rest : Str} {fin : Option Str} {r : (Option Nat × Target) × Body}
    (h : decodeF D q obj f 0 (.net rest fin true) [] = some r) : ∃ n, r.1.1 = some n := by
  cases f with
  | zero => cases h
  | succ f =>
    simp only [decodeF, hD.start, Body.read, if_true, Option.some.injEq] at h
    rw [← h]
    exact hD.empty .closed obj

/-- C105, partial: without Logger, a body that was bound cannot be bound or read again: both are errors. -/
theorem C105_again_partial (hD : OneValue D) {text : Str} {fin : Option Str} {fuel : Nat} {r : Option JErr × Target} {b' : Option Body}
    (hr : bindBodyF D q fuel check obj (some (.net text fin false)) = some (r, b')) {q' : Sched} {fuel' : Nat} :
    (∀ obj' r', bindBodyF D q' fuel' check obj' b' = some r' → ∃ n, r'.1.1 = some (.decode n)) ∧
    ∃ c, b' = some c ∧ ∀ r', bodyBytesF q' fuel' c = some r' → r'.1 = ([], some .closed) := by
  obtain ⟨x, h1, h2, h3⟩ := bind_result hr
  simp only [] at h3
  rcases (decode_arrives hD (.inl rfl) h1).2 with ⟨y, -, hy⟩ | ⟨y, hy, -⟩
  · rw [hy] at h3
    subst h3
    refine ⟨fun obj' r' hr' => ?_, _, rfl, fun r' hr' => ?_⟩
    · obtain ⟨x', g1, g2, -⟩ := bind_result hr'
      obtain ⟨n, hn⟩ := decode_closed hD g1
      rcases hx : x'.1 with ⟨a, c⟩
      rw [hx] at hn g2
      simp only [] at hn
      rw [hn] at g2
      exact ⟨n, by rw [g2]; rfl⟩
    · unfold bodyBytesF at hr'
      rcases hz : readAllF (Body.read q') q' fuel' 0 (Body.close (.net y fin false)) [] with _ | z
      · rw [hz] at hr'; cases hr'
      · rw [hz] at hr'
        have := readAll_closed q' hz
        subst this
        cases hr'
        rfl
  · cases hy

/-- C105: after `BodyBytes` there is nothing to bind: an error, and never an empty value, also behind Logger. -/
theorem C105_read_first (hD : OneValue D) {b : Body} {text : Str} {fin : Option Str} (h : Arrives b text fin) {fuel : Nat} {data : Str} {b' : Body}
    (hr : bodyBytesF q fuel b = some ((data, none), b')) {q' : Sched} {fuel' : Nat} {r' : (Option JErr × Target) × Option Body}
    (hr' : bindBodyF D q' fuel' check obj (some b') = some r') : ∃ n, r'.1.1 = some (.decode n) := by
  have key : ∃ x, decodeF D q' obj fuel' 0 b' [] = some x ∧ r'.1 = bound check x.1 ∧ ∃ n, x.1.1 = some n := by
    obtain ⟨x, g1, g2, -⟩ := bind_result hr'
    refine ⟨x, g1, g2, ?_⟩
    unfold bodyBytesF at hr
    rcases hx : readAllF (Body.read q) q fuel 0 b [] with _ | y
    · rw [hx] at hr; cases hr
    · rw [hx] at hr
      rcases h with rfl | ⟨rfl, rfl⟩
      · cases readAll_net q fin hx
        cases fin with
        | none =>
          simp [Body.close] at hr
          rw [← hr.2] at g1
          exact decode_closed hD g1
        | some e => simp at hr
      · cases readAll_buf q hx
        simp [Body.close] at hr
        rw [← hr.2] at g1
        rw [(decode_buf hD g1).1]
        unfold decoded
        rw [List.append_nil, hD.start]
        exact hD.empty .eof obj
  obtain ⟨x, -, g2, n, hn⟩ := key
  rcases hx : x.1 with ⟨a, c⟩
  rw [hx] at hn g2
  simp only [] at hn
  rw [hn] at g2
  exact ⟨n, by rw [g2]; rfl⟩

/-- C105, behind a Logger that logs JSON bodies: what is bound is the first MiB of what arrives, as if that were all. -/
theorem C105_logged (hD : OneValue D) {b : Body} {text : Str} {fin : Option Str} (h : Arrives b text fin) {q' : Sched} {fuel : Nat}
    {r : Option JErr × Target} {b' : Option Body} (hr : loggedBindF D q q' fuel check obj b = some (r, b')) :
    r = bound check (decoded D (text.take (2 ^ 20)) none obj) := by
  unfold loggedBindF at hr
  rcases hx : logBodyF q fuel b with _ | ⟨l, b1⟩
  · rw [hx] at hr; cases hr
  · rw [hx] at hr
    have := logBody_spec h hx
    simp only [Prod.mk.injEq] at this
    rw [this.2] at hr
    exact C105_result hD (.inr ⟨rfl, rfl⟩) hr

/-! ### cases -/

namespace Demo

/-- a decoder for texts that end with a brace -/
def braces : Decoding where
  size := 512
  early := fun p _ => if p.contains 125 then some (none, .value) else none
  late := fun _ _ obj => (some 1, obj)

theorem braces_one : OneValue braces where
  room := by decide
  start := fun _ => rfl
  stable := by
    intro p x obj r h
    simp only [braces] at h ⊢
    split at h
    · rename_i hc
      rw [if_pos (by
        rw [List.contains_iff_mem] at hc ⊢
        exact List.mem_append_left _ hc)]
      exact h
    · cases h
  empty := fun _ _ => ⟨1, rfl⟩
  broken := fun _ _ _ => ⟨1, rfl⟩

/-- no error -/
def fine (r : Option ((Option JErr × Target) × Option Body)) : Bool :=
  match r with
  | some ((none, _), _) => true
  | _ => false

/-- complete; cut off; cut off behind Logger; cut off after the value -/
example : [bindBodyF braces slow 9 (fun _ => none) .nil (some (.net b!"{\"n\":1}" none false)),
    bindBodyF braces slow 9 (fun _ => none) .nil (some cutOff),
    loggedBindF braces slow slow 9 (fun _ => none) .nil cutOff,
    bindBodyF braces slow 9 (fun _ => none) .nil (some (.net b!"{\"n\":1}, {" (some b!"unexpected EOF") false))].map fine =
    [true, false, false, true] := by
  decide +kernel

/-- a JSON body of more than 512 bytes: a value, spaces, and half a value -/
def long : Str := b!"{}" ++ List.replicate 510 32 ++ b!"\"x\"}"

end Demo

open Demo

/-- the claim of C105 that nil is returned only for bodies that arrive whole -/
def C105_claim : Prop :=
  ∀ (D : Decoding), OneValue D → ∀ (b : Body) (text : Str) (fin : Option Str), Arrives b text fin →
    ∀ (q : Sched) (fuel : Nat) (obj obj' : Target) (b' : Option Body),
      bindBodyF D q fuel (fun _ => none) obj (some b) = some ((none, obj'), b') → fin = none

/-- C105, as stated, is false: a connection that fails after the value is not noticed. -/
theorem C105_refuted : ¬ C105_claim := by
  intro h
  have hf : fine (bindBodyF braces slow 9 (fun _ => none) .nil (some (.net b!"{\"n\":1}, {" (some b!"unexpected EOF") false))) = true := by
    decide +kernel
  rcases hr : bindBodyF braces slow 9 (fun _ => none) .nil (some (.net b!"{\"n\":1}, {" (some b!"unexpected EOF") false)) with _ | ⟨⟨_ | e, o⟩, b'⟩
  · rw [hr] at hf; cases hf
  · exact absurd (h braces braces_one _ _ _ (.inl rfl) slow 9 .nil o b' hr) (by decide)
  · rw [hr] at hf; cases hf

/-- the claim of C105 that a body can be bound once, behind Logger -/
def C105_claim_again : Prop :=
  ∀ (D : Decoding), OneValue D → ∀ (b : Body) (q q' : Sched) (fuel : Nat) (obj : Target) (r r' : (Option JErr × Target) × Option Body),
    loggedBindF D q q' fuel (fun _ => none) obj b = some r → bindBodyF D q' fuel (fun _ => none) obj r.2 = some r' → r'.1.1 ≠ none

/-- C105, as stated, is false behind Logger: `Close` does nothing there, so a second `Bind` goes on where the buffer of the first one
ended, in the middle of the text, and may succeed. -/
theorem C105_refuted_again : ¬ C105_claim_again := by
  intro h
  have hf : (match loggedBindF braces slow slow 400 (fun _ => none) .nil (.net long none false) with
      | some r => fine (bindBodyF braces slow 400 (fun _ => none) .nil r.2)
      | none => false) = true := by decide +kernel
  rcases hr : loggedBindF braces slow slow 400 (fun _ => none) .nil (.net long none false) with _ | r
  · rw [hr] at hf; cases hf
  · rw [hr] at hf
    simp only [] at hf
    rcases hr' : bindBodyF braces slow 400 (fun _ => none) .nil r.2 with _ | ⟨⟨_ | e, o⟩, b'⟩
    · rw [hr'] at hf; cases hf
    · exact h braces braces_one _ slow slow 400 .nil r _ hr hr' rfl
    · rw [hr'] at hf; cases hf

end Water
