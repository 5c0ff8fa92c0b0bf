import Verif.Model.Status
import Verif.Lemmas.Guard
import Verif.Props.Compose
import Verif.Props.Values
/- C104: a refusal ends the request. -/
namespace Water
open Spec Demo
variable {ω : Type}

/-- the state with the chain `L` -/
theorem chained_self (s : St ω) : s.chained s.ctx.handlers = s := rfl

/-- **C104 (partial).** A chain with a handler that refuses the request, behind handlers that call `Next` at most once: how it ends, what
is sent, what it does to the world and which handlers run does not depend on what comes after that handler; none of it starts; and if the
chain returns there is a response. `P` is whatever the refusal depends on that the handlers before it cannot change. Missing: handlers
that call `Next` twice, or recover without a response. -/
theorem C104_refused_partial (o : Oracle) (req : Req) {P : St ω → Prop} (hP : Lasting o req P) {pre post : List (Prog ω)} {g : Prog ω}
    (hpre : ∀ h ∈ pre, Single h) (hg : Refuses o req P g) (s : St ω) (h0 : AtStart s) (hs : P s) (hL : s.ctx.handlers = pre ++ g :: post)
    (post' : List (Prog ω)) (s' : St ω) (h0' : AtStart s') (hL' : s'.ctx.handlers = pre ++ g :: post') (he : unchained s = unchained s') :
    (runAll o req s').1 = (runAll o req s).1 ∧ unchained (runAll o req s').2 = unchained (runAll o req s).2 ∧
    (runAll o req s').2.trace = (runAll o req s).2.trace ∧
    (∀ k ∈ starts (runAll o req s).2.trace, k ≤ pre.length) ∧
    ((runAll o req s).1 = .ret → (runAll o req s).2.ctx.written = true) := by
  have key : ∀ (post' : List (Prog ω)) (s' : St ω), AtStart s' → s'.ctx.handlers = pre ++ g :: post' → unchained s = unchained s' →
      runAll o req s' = ((runAll o req s).1, (runAll o req s).2.chained (pre ++ g :: post')) ∧
      ((runAll o req s).1 = .ret → (runAll o req s).2.ctx.written = true) := by
    intro post' s' h0' hL' he
    have h := run_ends o req hP (post := post) (post' := post') hpre hg pre.length (Nat.le_refl _) (s.ctx.handlers.length + 1)
      (s'.ctx.handlers.length + 1) (by rw [hL]; simp; omega) (by rw [hL']; simp; omega) s hs hL (by rw [h0.1]; omega)
    have hs' : s.chained (pre ++ g :: post') = s' := by
      obtain ⟨i1, -, t1⟩ := h0
      obtain ⟨i2, -, t2⟩ := h0'
      rcases s with ⟨⟨e1, p1, l1, j1, w1, x1, f1, q1⟩, rw1, b1, fs1, o1, tr1, fm1⟩
      rcases s' with ⟨⟨e2, p2, l2, j2, w2, x2, f2, q2⟩, rw2, b2, fs2, o2, tr2, fm2⟩
      simp only [unchained, St.mk.injEq, Ctx.mk.injEq] at he
      simp only [] at i1 i2 t1 t2 hL'
      simp only [St.chained, St.mk.injEq, Ctx.mk.injEq]
      obtain ⟨⟨a1, a2, -, -, a3, a4, a5, a6⟩, a7, a8, a9, a10, -, a11⟩ := he
      exact ⟨⟨a1, a2, hL'.symm, i1.trans i2.symm, a3, a4, a5, a6⟩, a7, a8, a9, a10, t1.trans t2.symm, a11⟩
    rw [hs'] at h
    exact ⟨h.1, h.2.2⟩
  obtain ⟨h1, h2⟩ := key post' s' h0' hL' he
  refine ⟨by rw [h1], by rw [h1]; rfl, by rw [h1]; rfl, ?_, h2⟩
  have h0e : AtStart (s.chained (pre ++ [g])) := h0
  obtain ⟨e1, -⟩ := key [] (s.chained (pre ++ [g])) h0e rfl rfl
  intro k hk
  have := (C24_in_order o req (s.chained (pre ++ [g])) h0e).2 k (by rw [e1]; exact hk)
  simp at this
  omega

theorem doCall_params (o : Oracle) (req : Req) (s : St ω) (c : Call ω) : (doCall o req s c).2.ctx.params = s.ctx.params := by
  have hsh : ∀ (s : St ω) (code : Int), (s.writeHeader o code).2.ctx.params = s.ctx.params := by
    intro s code
    unfold St.writeHeader
    split <;> rfl
  cases c with
  | writeHeader code =>
    have := hsh s code
    simp only [doCall]
    rcases hr : s.writeHeader o code with ⟨p, s1⟩
    rw [hr] at this
    cases p <;> exact this
  | write data =>
    have : (s.write o data).2.ctx.params = s.ctx.params := by
      unfold St.write
      split
      · rfl
      · generalize hs1 : (if data.length > 0 ∧ s.rw.header.get kContentType = [] then
          ({ s with rw := { s.rw with header := s.rw.header.put kContentType (o.detect data) } } : St ω) else s) = s1
        have h1 : s1.ctx = s.ctx := by subst hs1; split <;> rfl
        have he := hsh s1 200
        simp only []
        rcases hr : s1.writeHeader o 200 with ⟨p, s2⟩
        rw [hr, h1] at he
        cases p <;> exact he
    simp only [doCall]
    rcases hr : s.write o data with ⟨p, s1⟩
    rw [hr] at this
    cases p <;> exact this
  | rawWriteHeader code =>
    simp only [doCall]
    rcases hr : s.rw.writeHeader o.bad code with ⟨p, w1⟩
    cases p <;> rfl
  | param k => simp only [doCall]; split <;> rfl
  | envSet k v => simp only [doCall]; split <;> rfl
  | envGet k => simp only [doCall]; split <;> rfl
  | readBody l => simp only [doCall]; split <;> rfl
  | parseForm =>
    simp only [doCall, St.parseForm]
    split <;> (rename_i h; split at h <;> (injection h with _ h; subst h; rfl))
  | readForm f =>
    simp only [doCall, St.parseForm]
    split <;> (rename_i h; split at h <;> (injection h with _ h; subst h; rfl))
  | _ => rfl

/-- What a refusal may depend on: the request alone; -/
theorem lasting_true (o : Oracle) (req : Req) : Lasting o req (fun _ : St ω => True) := ⟨fun _ _ _ _ => trivial, fun _ _ _ => trivial⟩

/-- the parameters; -/
theorem lasting_params (o : Oracle) (req : Req) (ps : Params) : Lasting o req (fun s : St ω => s.ctx.params = ps) := by
  refine ⟨fun s s' h hs => ?_, fun s c hs => ?_⟩
  · have : (unchained s).ctx.params = (unchained s').ctx.params := by rw [h]
    exact this.symm.trans hs
  · exact (doCall_params o req s c).trans hs

/-- a value that was put into `Environ`. -/
theorem lasting_env (o : Oracle) (req : Req) (k : Str) (v : EVal) : Lasting o req (fun s : St ω => s.ctx.environ k = some v) := by
  refine ⟨fun s s' h hs => ?_, fun s c hs => ?_⟩
  · have : (unchained s).ctx.environ k = (unchained s').ctx.environ k := by rw [h]
    exact this.symm.trans hs
  · exact doCall_environ o req s c k v hs

/-! ### the helpers -/

/-- The helpers that refuse, and their codes (content.go:53-84). -/
inductive Refusal : Prog ω → Int → Prop where
  | notModified : Refusal (.notModified .ret) 304
  | badRequest : Refusal (.badRequest .ret) 400
  | unauthorized : Refusal (.unauthorized .ret) 401
  | forbidden : Refusal (.forbidden .ret) 403
  | notFound : Refusal (.notFound .ret) 404
  | internalServerError : Refusal (.internalServerError .ret) 500
  | abort (code : Int) : Refusal (.abort code .ret) code

theorem Refusal.is_abort {p : Prog ω} {c : Int} (h : Refusal p c) : p = .abort c .ret := by
  cases h <;> rfl

/-- C104. Every helper refuses, whatever the state and whatever its code. -/
theorem C104_helpers (o : Oracle) (req : Req) {p : Prog ω} {c : Int} (h : Refusal p c) : Refuses o req (fun _ => True) p := by
  rw [h.is_abort]
  intro next s _
  have hf := St.writeHeader_frame o s c
  simp only [Prog.abort, Prog.do, asFunction, doCall]
  rcases hw : s.writeHeader o c with ⟨b, s1⟩
  rw [hw] at hf
  cases b
  · exact ⟨rfl, fun _ => hf.2.2.2⟩
  · exact ⟨rfl, fun h => (by cases h)⟩

/-- C104. On an untouched response a helper sends exactly its code, with the headers set so far and no body. -/
theorem C104_status (o : Oracle) (req : Req) (nx : St ω → Out × St ω) (i : Nat) (s : St ω) {p : Prog ω} {c : Int} (h : Refusal p c)
    (hc : o.bad c = false) (hw : s.ctx.written = false) (hl : s.rw.log = []) :
    ∃ s', exec o req nx i p s = (.ret, s') ∧ s'.rw.log = [.status true c s.rw.header] ∧ s'.ctx.written = true ∧ s'.ctx.status = c ∧
      s'.world = s.world := by
  rw [h.is_abort]
  simp only [Prog.abort, Prog.do, exec, doCall, St.writeHeader_fresh hw, Writer.writeHeader_ok hc]
  exact ⟨_, rfl, by simp [hl], rfl, rfl, rfl⟩

/-- C104. On a response that was started a helper changes nothing at all. -/
theorem C104_late (o : Oracle) (req : Req) (nx : St ω → Out × St ω) (i : Nat) (s : St ω) {p : Prog ω} {c : Int} (h : Refusal p c)
    (hw : s.ctx.written = true) : exec o req nx i p s = (.ret, s) := by
  rw [h.is_abort]
  simp only [Prog.abort, Prog.do, exec, doCall, St.writeHeader, hw, if_true]

/-- C104. `NoCache` sets the two headers and nothing else. -/
theorem C104_noCache (o : Oracle) (req : Req) (nx : St ω → Out × St ω) (i : Nat) (s : St ω) (k : Prog ω) :
    ∃ h, exec o req nx i (.noCache k) s = exec o req nx i k { s with rw := { s.rw with header := h } } ∧
      h b!"Cache-Control" = some [b!"no-cache, max-age=0, s-max-age=0, must-revalidate"] ∧ h b!"Expires" = some [b!"0"] ∧
      ∀ x, x ≠ b!"Cache-Control" → x ≠ b!"Expires" → h x = s.rw.header x := by
  have c1 : canonKey b!"Cache-Control" = b!"Cache-Control" := by decide
  have c2 : canonKey b!"Expires" = b!"Expires" := by decide
  have c3 : (b!"Cache-Control" : Str) ≠ b!"Expires" := by decide
  refine ⟨_, rfl, ?_, ?_, ?_⟩
  · simp only [Header.put, Map.set, c1, c2, if_neg c3, if_true]
  · simp only [Header.put, Map.set, c1, c2, if_true]
  · intro x h1 h2
    simp only [Header.put, Map.set, c1, c2, if_neg h1, if_neg h2]

/-! ### the code stays -/

theorem received_append {a b : List WEvent} {c : Int} (h : received a = some c) : received (a ++ b) = some c := by
  induction a with
  | nil => cases h
  | cons e a ih =>
    cases e with
    | status x c' h' => exact h
    | body d => exact ih h

theorem log_grows (o : Oracle) (req : Req) (s : St ω) (c : Call ω) : ∃ es, (doCall o req s c).2.rw.log = s.rw.log ++ es := by
  have hwh : ∀ (w : Writer) (code : Int), ∃ es, (w.writeHeader o.bad code).2.log = w.log ++ es := by
    intro w code
    unfold Writer.writeHeader
    split
    · exact ⟨[], (List.append_nil _).symm⟩
    · exact ⟨_, rfl⟩
  have hww : ∀ (w : Writer) (d : Str), ∃ es, (w.write d).log = w.log ++ es := by
    intro w d
    unfold Writer.write
    split
    · rename_i h
      exact ⟨_, by rw [List.isEmpty_iff.1 h]; exact (List.nil_append _).symm⟩
    · exact ⟨_, rfl⟩
  have hsh : ∀ (s : St ω) (code : Int), ∃ es, (s.writeHeader o code).2.rw.log = s.rw.log ++ es := by
    intro s code
    unfold St.writeHeader
    split
    · exact ⟨[], by simp⟩
    · exact hwh s.rw code
  cases c with
  | writeHeader code =>
    have := hsh s code
    simp only [doCall]
    rcases hr : s.writeHeader o code with ⟨p, s1⟩
    rw [hr] at this
    cases p <;> exact this
  | write data =>
    have : ∃ es, (s.write o data).2.rw.log = s.rw.log ++ es := by
      unfold St.write
      split
      · exact hww s.rw data
      · generalize hs1 : (if data.length > 0 ∧ s.rw.header.get kContentType = [] then
          ({ s with rw := { s.rw with header := s.rw.header.put kContentType (o.detect data) } } : St ω) else s) = s1
        have h1 : s1.rw.log = s.rw.log := by subst hs1; split <;> rfl
        obtain ⟨es, he⟩ := hsh s1 200
        simp only []
        rcases hr : s1.writeHeader o 200 with ⟨p, s2⟩
        rw [hr] at he
        cases p with
        | true => exact ⟨es, by rw [← h1]; exact he⟩
        | false =>
          obtain ⟨es2, he2⟩ := hww s2.rw data
          exact ⟨es ++ es2, by rw [← List.append_assoc, ← h1, ← he]; exact he2⟩
    simp only [doCall]
    rcases hr : s.write o data with ⟨p, s1⟩
    rw [hr] at this
    cases p <;> exact this
  | rawWriteHeader code =>
    have := hwh s.rw code
    simp only [doCall]
    rcases hr : s.rw.writeHeader o.bad code with ⟨p, w1⟩
    rw [hr] at this
    cases p <;> exact this
  | rawWrite data => exact hww s.rw data
  | param k => simp only [doCall]; split <;> exact ⟨[], by simp⟩
  | envSet k v => simp only [doCall]; split <;> exact ⟨[], by simp⟩
  | envGet k => simp only [doCall]; split <;> exact ⟨[], by simp⟩
  | readBody l => simp only [doCall]; split <;> exact ⟨[], by simp⟩
  | parseForm =>
    simp only [doCall, St.parseForm]
    split <;> (rename_i h; split at h <;> (injection h with _ h; subst h; exact ⟨[], by simp⟩))
  | readForm f =>
    simp only [doCall, St.parseForm]
    split <;> (rename_i h; split at h <;> (injection h with _ h; subst h; exact ⟨[], by simp⟩))
  | _ => exact ⟨[], by simp [doCall]⟩

/-- C104. Once the client is sent a code, no handler can change it, in whatever way they go about it. -/
theorem C104_stays (o : Oracle) (req : Req) (s : St ω) {c : Int} (h : received s.rw.log = some c) :
    received (runAll o req s).2.rw.log = some c := by
  refine runAll_inv o req (fun s => received s.rw.log = some c) (fun _ => True) (fun _ _ h => h) (fun _ h => h) ?_ s
    (fun h _ => callsIn_true h) h
  intro s' call _ hs
  obtain ⟨es, he⟩ := log_grows o req s' call
  rw [he]
  exact received_append hs

/-! ### a request -/

/-- **C104 (served, partial).** A request whose chain has a handler that refuses it, behind handlers that call `Next` at most once: no
handler after it starts. -/
theorem C104_served_partial {rx : Regex} {o : Oracle} {e : Engine (Prog ω)} {req : Req} (hr : Routed req) {n : EndNode (Prog ω)}
    (hn : routeOf rx e req.method req.path = some n) {pre post : List (Prog ω)} {g : Prog ω} (hh : n.handlers = pre ++ g :: post)
    (hpre : ∀ h ∈ pre, Single h) (hg : Refuses o req (fun _ => True) g) (c : Ctx ω) (rw : Writer) (body : Option Str) (w : ω) :
    ∀ k ∈ starts (serve rx o e c req rw body w).trace, k ≤ pre.length := by
  obtain ⟨i, hi⟩ := hr.index
  simp only [routeOf, hi] at hn
  rw [serve_routed hr.ungated hi, serveRouted_chain (hs := n.handlers) (by rw [hn]; rfl)]
  have h0 : AtStart (startSt c n.handlers ((lookup rx e i req.path).1.map (·.uri)) (lookup rx e i req.path).2 rw body w) := ⟨rfl, rfl, rfl⟩
  exact (C104_refused_partial o req (lasting_true o req) hpre hg _ h0 trivial hh post _ h0 hh rfl).2.2.2.1

/-! ### cases -/

namespace Demo

/-- a handler that lets nobody in who has no Authorization header -/
def gateH : Prog Unit := .call (.reqHeader b!"Authorization") (fun r => if r = .str [] then .unauthorized .ret else .next .ret)

/-- a handler that lets in only the owner of `:id` -/
def ownH : Prog Unit := .call (.param b!"id") (fun r => if r = .str b!"7" then .next .ret else .forbidden .ret)

theorem gate_refuses (o : Oracle) (req : Req) (h : req.header.get b!"Authorization" = []) : Refuses o req (fun _ => True) gateH := by
  intro next s hs
  simp only [gateH, asFunction, doCall, h, if_true]
  exact C104_helpers o req .unauthorized next s hs

theorem own_refuses (o : Oracle) (req : Req) (ps : Params) (h : ps b!"id" ≠ some b!"7") :
    Refuses o req (fun s => s.ctx.params = ps) ownH := by
  intro next s hs
  simp only [ownH, asFunction, doCall]
  rw [hs]
  cases hp : ps b!"id" with
  | none => exact ⟨rfl, fun h => (by cases h)⟩
  | some v =>
    have : Res.str v ≠ .str b!"7" := fun e => h (by rw [hp]; injection e with e; rw [e])
    simp only [if_neg this]
    exact C104_helpers o req .forbidden next s trivial

end Demo

/-- a chain behind Recovery and a handler that works after `Next`: with the guard the last handler does not run -/
example : (∀ h ∈ [recovery chainO, wrapH], Single h) ∧ chainReq.header.get b!"Authorization" = [] ∧
    received (runAll chainO chainReq (chainSt [recovery chainO, wrapH, gateH, panicH])).2.rw.log = some 401 ∧
    starts (runAll chainO chainReq (chainSt [recovery chainO, wrapH, gateH, panicH])).2.trace = [0, 1, 2] := by
  refine ⟨?_, by decide +kernel, by decide +kernel, by decide +kernel⟩
  intro h hh
  simp only [List.mem_cons, List.not_mem_nil, or_false] at hh
  rcases hh with rfl | rfl
  · exact single_recovery _
  · exact fun _ => trivial

/-- a refusal that depends on a parameter -/
example :
    let s := chainSt [wrapH, ownH, writeH]
    let at' (v : Str) : St Unit := { s with ctx := { s.ctx with params := Map.set Map.empty b!"id" v } }
    starts (runAll chainO chainReq (at' b!"8")).2.trace = [0, 1] ∧ received (runAll chainO chainReq (at' b!"8")).2.rw.log = some 403 ∧
    starts (runAll chainO chainReq (at' b!"7")).2.trace = [0, 1, 2] ∧ received (runAll chainO chainReq (at' b!"7")).2.rw.log = some 200 := by
  decide +kernel

/-- the claim of C104, for all chains -/
def C104_claim : Prop :=
  ∀ (o : Oracle) (req : Req) (s : St Unit) (pre post : List (Prog Unit)) (g : Prog Unit), AtStart s → s.ctx.handlers = pre ++ g :: post →
    Refuses o req (fun _ => True) g → ∀ k ∈ starts (runAll o req s).2.trace, k ≤ pre.length

/-- C104, as stated, is false: a handler that calls `Next` twice runs what comes after the refusal. The one next
to it is left out, the others run. -/
theorem C104_refuted : ¬ C104_claim := by
  intro h
  exact absurd (h chainO chainReq (chainSt [twiceH, gateH, idleH, writeH]) [twiceH] [idleH, writeH] gateH ⟨rfl, rfl, rfl⟩ rfl
    (gate_refuses _ _ (by decide +kernel)) 3 (by decide +kernel)) (by decide)

/-- So does a handler that recovers without a response, if the handler that refuses panics: here it asks for a parameter that is not
there. -/
theorem C104_refuted_recover : ¬ C104_claim := by
  intro h
  have hg : Refuses chainO chainReq (fun _ => True) panicH := fun _ _ _ => ⟨rfl, fun h => (by cases h)⟩
  exact absurd (h chainO chainReq (chainSt [catchH, panicH, writeH]) [catchH] [writeH] panicH ⟨rfl, rfl, rfl⟩ rfl hg 2
    (by decide +kernel)) (by decide)

end Water
