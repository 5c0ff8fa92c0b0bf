import Verif.Spec.Render
import Verif.Props.Stream
/- C158: which render makes the pages of an application. -/
namespace Water
open Spec
variable {ω δ : Type}

/-- what `_render` is after some operations -/
theorem runProc_append (o : Oracle) (p : List (ProcOp δ ω)) : ∀ (g : Option (RenderCode δ ω)), ∃ g', ∀ q,
    runProc o g (p ++ q) = runProc o g p ++ runProc o g' q ∧
      ((∃ b u v, p = u ++ .setRender b g' :: v ∧ ∀ c r, .setRender c r ∉ v) ∨ ((∀ c r, .setRender c r ∉ p) ∧ g' = g)) := by
  induction p with
  | nil => intro g; exact ⟨g, fun q => ⟨rfl, .inr ⟨fun _ _ h => (nomatch h), rfl⟩⟩⟩
  | cons op p ih =>
    intro g
    cases op with
    | setRender a r =>
      obtain ⟨g', h⟩ := ih r
      refine ⟨g', fun q => ⟨(h q).1, .inl ?_⟩⟩
      rcases (h q).2 with ⟨b, u, v, rfl, hv⟩ | ⟨hn, rfl⟩
      · exact ⟨b, .setRender a r :: u, v, rfl, hv⟩
      · exact ⟨a, [], p, rfl, hn⟩
    | request a req s chain =>
      obtain ⟨g', h⟩ := ih g
      refine ⟨g', fun q => ⟨by simp only [List.cons_append, runProc, (h q).1], ?_⟩⟩
      rcases (h q).2 with ⟨b, u, v, rfl, hv⟩ | ⟨hn, rfl⟩
      · exact .inl ⟨b, .request a req s chain :: u, v, rfl, hv⟩
      · refine .inr ⟨fun c r hm => ?_, rfl⟩
        rcases List.mem_cons.1 hm with hm | hm
        · cases hm
        · exact hn c r hm

/-- Every request, of any application and at any time, is served with the render that was set last in the process. -/
theorem C158_last (o : Oracle) (before after : List (ProcOp δ ω)) (a : Nat) (req : Req) (s : St ω)
    (chain : Option (RenderCode δ ω) → List (Prog ω)) :
    ∃ g, InUse before g ∧ ∃ earlier later, earlier = process o before ∧
      process o (before ++ .request a req s chain :: after) =
        earlier ++ (a, runAll o req { s with ctx := { s.ctx with handlers := chain g } }) :: later := by
  obtain ⟨g, h⟩ := runProc_append o before (some defaultRender)
  exact ⟨g, (h []).2, process o before, runProc o g after, rfl, (h _).1⟩

/-- C158 (partial: the property is false, see `C158_refuted`). If no other application calls `SetRender`, an application gives in a process
with others, whatever they do, the answers that it gives alone. -/
theorem C158_partial (o : Oracle) (a : Nat) (ops : List (ProcOp δ ω)) (h : ∀ b r, .setRender b r ∈ ops → b = a) :
    resultsOf a (process o ops) = process o (doneBy a ops) := by
  unfold process
  generalize (some defaultRender : Option (RenderCode δ ω)) = g
  induction ops generalizing g with
  | nil => rfl
  | cons op ops ih =>
    have ih := fun g => ih (fun b r hm => h b r (List.mem_cons_of_mem _ hm)) g
    cases op with
    | setRender b r =>
      obtain rfl := h b r List.mem_cons_self
      have hd : doneBy b (.setRender b r :: ops) = .setRender b r :: doneBy b ops := by simp [doneBy, ProcOp.app]
      rw [hd]
      exact ih r
    | request b req s chain =>
      by_cases hb : b = a
      · subst hb
        have hd : doneBy b (.request b req s chain :: ops) = .request b req s chain :: doneBy b ops := by simp [doneBy, ProcOp.app]
        rw [hd]
        simp only [runProc, ← ih g]
        simp [resultsOf]
      · have hd : doneBy a (.request b req s chain :: ops) = doneBy a ops := by simp [doneBy, ProcOp.app, hb]
        rw [hd, ← ih g]
        simp [runProc, resultsOf, hb]

/-- An application that makes no pages with `HTML` is not disturbed either. -/
theorem C158_unused (o : Oracle) (a : Nat) (ops : List (ProcOp δ ω))
    (h : ∀ req s chain, .request a req s chain ∈ ops → ∀ g g', chain g = chain g') :
    resultsOf a (process o ops) = process o (doneBy a ops) := by
  have key : ∀ ops : List (ProcOp δ ω), (∀ req s chain, .request a req s chain ∈ ops → ∀ g g', chain g = chain g') →
      ∀ g g', resultsOf a (runProc o g ops) = runProc o g' (doneBy a ops) := by
    intro ops
    induction ops with
    | nil => intro _ _ _; rfl
    | cons op ops ih =>
      intro h g g'
      have ih := ih (fun req s chain hm => h req s chain (List.mem_cons_of_mem _ hm))
      cases op with
      | setRender b r =>
        by_cases hb : b = a
        · have hd : doneBy a (.setRender b r :: ops) = .setRender b r :: doneBy a ops := by simp [doneBy, ProcOp.app, hb]
          rw [hd]
          exact ih r r
        · have hd : doneBy a (.setRender b r :: ops) = doneBy a ops := by simp [doneBy, ProcOp.app, hb]
          rw [hd]
          exact ih r g'
      | request b req s chain =>
        by_cases hb : b = a
        · subst hb
          have hd : doneBy b (.request b req s chain :: ops) = .request b req s chain :: doneBy b ops := by simp [doneBy, ProcOp.app]
          rw [hd]
          simp only [runProc, ← ih g g', h req s chain List.mem_cons_self g g']
          simp [resultsOf]
        · have hd : doneBy a (.request b req s chain :: ops) = doneBy a ops := by simp [doneBy, ProcOp.app, hb]
          rw [hd, ← ih g g']
          simp [runProc, resultsOf, hb]
  exact key ops h _ _

/-- The render gets what the handler gave: the code, the set (none for `HTML`), the template and the data. -/
theorem C158_args (o : Oracle) (req : Req) (nx : St ω → Out × St ω) (i : Nat) (s : St ω) (r : RenderCode δ ω) (code : Int) (set tpl : Str)
    (data : δ) (k : Prog ω) :
    exec o req nx i (.htmlPage (some r) code tpl data k) s = exec o req nx i (r code [] tpl data k) s ∧
    exec o req nx i (.htmlSet (some r) code set tpl data k) s = exec o req nx i (r code set tpl data k) s := ⟨rfl, rfl⟩

/-- The default render sends the code and no page, and the media type comes too late to be sent. -/
theorem C158_default {o : Oracle} (req : Req) (nx : St ω → Out × St ω) (i : Nat) {s : St ω} (hw : s.ctx.written = false) (hl : s.rw.log = [])
    {code : Int} (hc : o.bad code = false) (tpl : Str) (data : δ) :
    ∃ s', exec o req nx i (.htmlPage (some defaultRender) code tpl data .ret) s = (.ret, s') ∧ s'.rw.log = [.status true code s.rw.header] := by
  obtain ⟨s', h1, h2, -⟩ := C31_helpers_partial o req nx i s (.html (code := code)) hc hw hl
  exact ⟨s', h1, h2⟩

/-- After `SetRender(nil)` every page of every application is a panic. -/
theorem C158_nil (o : Oracle) (req : Req) (nx : St ω → Out × St ω) (i : Nat) (s : St ω) (code : Int) (set tpl : Str) (data : δ) (k : Prog ω) :
    exec o req nx i (.htmlPage none code tpl data k) s = (.panic callPanic, s) ∧
    exec o req nx i (.htmlSet none code set tpl data k) s = (.panic callPanic, s) := ⟨rfl, rfl⟩

/-- With `Recovery` in front the client receives 500. -/
theorem C158_nil_500 {o : Oracle} (h200 : o.bad 200 = false) (h500 : o.bad 500 = false) (req : Req) (s : St ω) (hs : AtStartW s)
    (code : Int) (set tpl : Str) (data : δ) (k : Prog ω) (rest : List (Prog ω)) (hrest : ∀ h ∈ rest, CallsIn (ValidCode o.bad) h)
    (hh : s.ctx.handlers = recovery o :: .htmlSet none code set tpl data k :: rest) :
    received (runAll o req s).2.rw.log = some 500 := by
  have hd : downstream o req s = (.panic callPanic, ((((s.log (.start 0)).log (.next 0)).bump).log (.start 1)).log (.crash 1)) := by
    unfold downstream runAll
    have hi : (((s.log (.start 0)).log (.next 0)).bump).ctx.index = 1 := by
      show s.ctx.index + 1 = 1
      rw [hs.1.1]
    have hh' : (((s.log (.start 0)).log (.next 0)).bump).ctx.handlers = recovery o :: .htmlSet none code set tpl data k :: rest := hh
    generalize ((s.log (.start 0)).log (.next 0)).bump = u at hi hh'
    rw [run, hi, hh']
    rfl
  refine C33_crash_partial o h200 h500 req s hs _ hh ?_ b!"panic" ?_ ?_
  · intro p hp
    rcases List.mem_cons.1 hp with rfl | hp
    · trivial
    · exact hrest p hp
  · rw [hd]
    rfl
  · rw [hd]
    exact hs.2

/-! ### witnesses -/
namespace Demo

/-- a render that names itself in its pages -/
def signed (name : Str) : RenderCode Str Unit := fun code _ tpl data k => .htmlRaw code (name ++ b!": " ++ tpl ++ b!" " ++ data) k

/-- a request for a page -/
def askPage (a : Nat) : ProcOp Str Unit := .request a chainReq (chainSt []) (fun g => [recovery chainO, .htmlPage g 200 b!"index" b!"today" .ret])

/-- the bodies that clients receive -/
def pagesOf (rs : List (Nat × Out × St Unit)) : List (Nat × Option Int × Str) := rs.map (fun r => (r.1, received r.2.2.rw.log, receivedBody r.2.2.rw.log))

/-- two applications, of which the first sets a render -/
theorem C158_demo : pagesOf (process chainO [askPage 0, .setRender 0 (some (signed b!"shop")), askPage 1, askPage 0]) =
    [(0, some 200, []), (1, some 200, b!"shop: index today"), (0, some 200, b!"shop: index today")] := by
  decide +kernel

/-- pages of a process without a render -/
theorem C158_nil_demo : (pagesOf (process chainO [.setRender 1 none, askPage 0])).map (fun r => (r.1, r.2.1)) = [(0, some 500)] := by
  decide +kernel

end Demo
open Demo

/-- C158 is false: two applications each set their render; the pages of the first are then made by the second one's. -/
theorem C158_refuted : ∃ ops : List (ProcOp Str Unit),
    pagesOf (resultsOf 0 (process chainO ops)) = [(0, some 200, b!"admin: index today")] ∧
    pagesOf (process chainO (doneBy 0 ops)) = [(0, some 200, b!"shop: index today")] :=
  ⟨[.setRender 0 (some (signed b!"shop")), .setRender 1 (some (signed b!"admin")), askPage 0], by decide +kernel, by decide +kernel⟩

end Water
