import Verif.Props.Mount
import Verif.Lemmas.Response
/- C161 with the `Recovery` of the outer application around the mounted one. -/
namespace Water
open Spec
variable {ω : Type}

private theorem serve_ends (rx : Regex) (o : Oracle) (e : Engine (Prog ω)) (c : Ctx ω) (req : Req) (rw : Writer) (body : Option Str) (w : ω) :
    (serve rx o e c req rw body w).out ≠ .fuel := by
  unfold serve
  split
  · simp only
    split <;> exact (nomatch ·)
  · rcases methodIndex req.method with _ | i
    · simp only
      split <;> exact (nomatch ·)
    · simp only [serveRouted]
      rcases chainFor e (lookup rx e i req.path).1 with _ | hs
      · simp only
        split <;> exact (nomatch ·)
      · exact (runAll_drives o req _ _ rfl (by simp [prepare, Ctx.reset])).1

/-- `Recovery` of the outer application around a mounted one whose handlers write through their context: no panic of the mounted application gets
through, and the request is answered. If the mounted application answered and returned, exactly its answer is sent; if it panicked before it
answered, status 500 is sent, and then body bytes at most; if it neither answered nor panicked, status 200. If it panicked after it had sent
something, body bytes are added at most, and no second status line. -/
theorem C161_recovered (rx : Regex) (o : Oracle) (h200 : o.bad 200 = false) (h500 : o.bad 500 = false) (e : Engine (Prog ω)) (c : Ctx ω) (req : Req)
    (s : St ω) (i : Nat) (hw : s.ctx.written = false) (hst : s.ctx.status = 0)
    (hn : ∀ i, ∀ n, (lookup rx e i req.path).1 = some n → ∀ p ∈ n.handlers, CallsIn (fun c => ¬ Bypass c) p)
    (hf : ∀ p ∈ e.noFound, CallsIn (fun c => ¬ Bypass c) p) :
    let alone := serve rx o e c req s.rw s.body s.world
    let r := exec o req (mounted rx o e c req) i (recovery o) s
    r.1 = .ret ∧ r.2.ctx.written = true ∧ r.2.world = alone.world ∧
      ((mounted rx o e c req s).2.ctx.written = true → alone.out = .ret → r.2.rw = alone.rw) ∧
      ((mounted rx o e c req s).2.ctx.written = false → ∃ code ds, (code = match alone.out with | .panic (.val _) => 500 | _ => 200) ∧
        r.2.rw.log = alone.rw.log ++ .status true code alone.rw.header :: (ds : List Str).map .body) ∧
      ((mounted rx o e c req s).2.ctx.written = true → alone.rw.log ≠ [] → ∃ ds, r.2.rw.log = alone.rw.log ++ (ds : List Str).map .body) := by
  simp only
  have hsame : ∀ (s' : St ω), s'.rw = s.rw → s'.body = s.body → s'.world = s.world → s'.ctx.written = s.ctx.written → s'.ctx.status = s.ctx.status →
      (mounted rx o e c req s').2.ctx.written = (mounted rx o e c req s).2.ctx.written := by
    intro s' h1 h2 h3 h4 h5
    unfold mounted
    simp only [h1, h2, h3, h4, h5]
    split
    · rfl
    · rcases methodIndex req.method with _ | j
      · rfl
      · simp only
        rcases chainFor e (lookup rx e j req.path).1 with _ | hs <;> rfl
  have h := C161 rx o e c req (s.log (.next i)).bump hw hst hn hf
  have hwr := hsame (s.log (.next i)).bump rfl rfl rfl rfl rfl
  have hfu := serve_ends rx o e c req s.rw s.body s.world
  obtain ⟨h1, h2, h3, -, -⟩ := h
  have e1 : (s.log (.next i)).bump.rw = s.rw := rfl
  have e2 : (s.log (.next i)).bump.body = s.body := rfl
  have e3 : (s.log (.next i)).bump.world = s.world := rfl
  rw [e1, e2, e3] at h1 h2 h3
  generalize serve rx o e c req s.rw s.body s.world = alone at h1 h2 h3 hfu
  generalize (mounted rx o e c req s).2.ctx.written = mw at hwr
  rcases hm : mounted rx o e c req (s.log (.next i)).bump with ⟨out, s1⟩
  rw [hm] at h1 h2 h3 hwr
  simp only at h1 h2 h3 hwr
  have hex := recovery_exec (req := req) h200 h500 hm
  rw [hex]
  have wWorld : ∀ r (t : St ω), (recovered o r t).world = t.world := by
    intro r t
    unfold recovered sendStatus
    split <;> simp only <;> split <;> first | rfl | (split <;> rfl)
  have send : ∀ (t : St ω) code, t.ctx.written = false → (sendStatus t code).rw.log = t.rw.log ++ [.status true code t.rw.header] := by
    intro t code ht
    simp [sendStatus, ht]
  cases out with
  | fuel => exact absurd h1.symm hfu
  | ret =>
    refine ⟨rfl, recovered_written o none _, (wWorld _ _).trans h3, fun hmw _ => ?_, fun hmw => ⟨200, [], ?_, ?_⟩, fun hmw _ => ⟨[], ?_⟩⟩
    · have : (s1.log (.back i)).ctx.written = true := hwr.trans hmw
      simp only [recovered, sendStatus, this, if_true]
      exact h2
    · rw [← h1]
    · simp only [recovered]
      rw [send _ _ (show (s1.log (.back i)).ctx.written = false from hwr.trans hmw), ← h2]
      rfl
    · have : (s1.log (.back i)).ctx.written = true := hwr.trans hmw
      simp only [recovered, sendStatus, this, if_true, List.map_nil, List.append_nil]
      exact congrArg Writer.log h2
  | panic v =>
    refine ⟨rfl, recovered_written o (some v) _, (wWorld _ _).trans h3, fun _ ho => ?_, fun hmw => ?_, fun hmw hne => ?_⟩
    · rw [← h1] at ho; cases ho
    · have hwf : (s1.log (.thrown i)).ctx.written = false := hwr.trans hmw
      cases v with
      | nil =>
        refine ⟨200, [], by rw [← h1], ?_⟩
        simp only [recovered]
        rw [send _ _ hwf, ← h2]
        rfl
      | val msg =>
        refine ⟨500, if o.stable then [] else [o.crashText (.val msg)], by rw [← h1], ?_⟩
        have hs := send (s1.log (.thrown i)) 500 hwf
        simp only [recovered]
        cases o.stable
        · simp only [Bool.false_eq_true, if_false, Writer.write]
          have he : (sendStatus (s1.log (.thrown i)) 500).rw.log.isEmpty = false := by rw [hs]; simp
          rw [if_neg (by rw [he]; simp)]
          simp only [hs, ← h2]
          simp [St.log]
        · simp only [if_true]
          rw [hs, ← h2]
          rfl
    · have hwt : (s1.log (.thrown i)).ctx.written = true := hwr.trans hmw
      have hl : (s1.log (.thrown i)).rw.log = alone.rw.log := congrArg Writer.log h2
      cases v with
      | nil =>
        refine ⟨[], ?_⟩
        simp only [recovered, sendStatus, hwt, if_true, List.map_nil, List.append_nil]
        exact hl
      | val msg =>
        refine ⟨if o.stable then [] else [o.crashText (.val msg)], ?_⟩
        simp only [recovered, sendStatus, hwt, if_true]
        cases o.stable
        · simp only [Bool.false_eq_true, if_false, Writer.write]
          have he : (s1.log (.thrown i)).rw.log.isEmpty = false := by rw [hl]; simpa using hne
          rw [if_neg (by rw [he]; simp)]
          simp only [hl, List.map_cons, List.map_nil]
        · simp only [if_true, List.map_nil, List.append_nil]
          exact hl

namespace Demo

/-- a mounted application that panics behind the outer `Recovery` -/
theorem C161_recovered_demo : (match runOps [] [.newRouter, .handle 0 mGET b!"/p" [.ctxFunc (.panic (.val b!"oh"))]] with
    | .ok heap => (match handler rx heap 0 [] with
      | .ok e => (match exec chainO (at' b!"/p") (mounted rx chainO e .new (at' b!"/p")) 0 (recovery chainO) (outerSt false) with
        | (.ret, r) => r.ctx.written && r.ctx.status == 500 && (mounted rx chainO e .new (at' b!"/p") (outerSt false)).2.ctx.written == false
        | _ => false)
      | _ => false)
    | _ => false) = true := by
  decide +kernel

end Demo
end Water
