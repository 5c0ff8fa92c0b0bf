import Verif.Model.Serve
import Verif.Lemmas.Response
/- Serving one request, by cases. -/
namespace Water
open Spec
variable {ω : Type}

/-- the request is turned away before routing -/
def Gated (req : Req) : Prop :=
  ¬ (req.protoMajor > 1 ∨ req.protoMajor = 1 ∧ req.protoMinor ≥ 1) ∨ req.requestURI = b!"*" ∨ req.method = b!"CONNECT"

theorem gate_iff (req : Req) :
    ((!protoAtLeast11 req || req.requestURI == b!"*" || req.method == b!"CONNECT") = true) ↔ Gated req := by
  simp only [Gated, protoAtLeast11, Bool.or_eq_true, Bool.not_eq_true', Bool.or_eq_false_iff, decide_eq_false_iff_not,
    Bool.and_eq_false_iff, beq_iff_eq, beq_eq_false_iff_ne, ne_eq, or_assoc]
  refine or_congr ?_ Iff.rfl
  omega

/-- the state in which the chain of a request begins -/
def startSt (c : Ctx ω) (hs : List (Prog ω)) (full : Option Str) (params : Option (Option Params)) (rw : Writer)
    (body : Option Str) (w : ω) : St ω :=
  { ctx := prepare c hs full params, rw, body, forms := [], world := w, trace := [] }

theorem serve_routed {rx : Regex} {o : Oracle} {e : Engine (Prog ω)} {c : Ctx ω} {req : Req} {rw : Writer}
    {body : Option Str} {w : ω} {i : Nat} (hg : ¬ Gated req) (hm : methodIndex req.method = some i) :
    serve rx o e c req rw body w =
      serveRouted o e c req rw body w (lookup rx e i req.path).1 (lookup rx e i req.path).2 := by
  have hg' := mt (gate_iff req).1 hg
  simp only [serve, hm]
  rw [if_neg hg']

theorem serveRouted_chain {o : Oracle} {e : Engine (Prog ω)} {c : Ctx ω} {req : Req} {rw : Writer}
    {body : Option Str} {w : ω} {n : Option (EndNode (Prog ω))} {params : Option (Option Params)} {hs : List (Prog ω)}
    (hc : chainFor e n = some hs) :
    serveRouted o e c req rw body w n params =
      let r := runAll o req (startSt c hs (n.map (·.uri)) params rw body w)
      { out := r.1, rw := r.2.rw, world := r.2.world, forms := r.2.forms, trace := r.2.trace, took := true,
        puts := if r.1 = .ret then [r.2.ctx] else [] } := by
  simp only [serveRouted, hc]
  rfl

theorem serveRouted_none {o : Oracle} {e : Engine (Prog ω)} {c : Ctx ω} {req : Req} {rw : Writer}
    {body : Option Str} {w : ω} {n : Option (EndNode (Prog ω))} {params : Option (Option Params)}
    (hc : chainFor e n = none) :
    ∃ cx : Ctx ω, serveRouted o e c req rw body w n params =
      { out := if (rw.writeHeader o.bad 404).1 then .panic callPanic else .ret, rw := (rw.writeHeader o.bad 404).2, world := w,
        forms := [], trace := [], took := true, puts := if (rw.writeHeader o.bad 404).1 then [] else [cx] } := by
  simp only [serveRouted, hc]
  rw [St.writeHeader_fresh (by rfl)]
  exact ⟨_, rfl⟩

theorem serve_gated {rx : Regex} {o : Oracle} {e : Engine (Prog ω)} {c : Ctx ω} {req : Req} {rw : Writer}
    {body : Option Str} {w : ω} (hg : Gated req) (h406 : o.bad 406 = false) :
    serve rx o e c req rw body w =
      { out := .ret, rw := { rw with log := rw.log ++ [.status true 406 rw.header] }, world := w, forms := [],
        trace := [], took := false, puts := [] } := by
  have hg' := (gate_iff req).2 hg
  simp only [serve]
  rw [if_pos hg', Writer.writeHeader_ok h406]
  rfl

theorem serve_unsupported {rx : Regex} {o : Oracle} {e : Engine (Prog ω)} {c : Ctx ω} {req : Req} {rw : Writer}
    {body : Option Str} {w : ω} (hg : ¬ Gated req) (hm : methodIndex req.method = none) (h405 : o.bad 405 = false) :
    serve rx o e c req rw body w =
      { out := .ret, rw := { rw with log := rw.log ++ [.status true 405 rw.header] }, world := w, forms := [],
        trace := [], took := false, puts := [] } := by
  have hg' := mt (gate_iff req).1 hg
  simp only [serve, hm]
  rw [if_neg hg', Writer.writeHeader_ok h405]
  rfl

theorem methodIndex_none {m : Str} : methodIndex m = none ↔ m ∉ methodNames := by
  unfold methodIndex methodNames
  simp only [List.mem_cons, List.not_mem_nil, or_false, not_or]
  repeat' split
  all_goals simp_all

/-! ### Independence of `Params` -/

/-- replace the parameters -/
def St.withParams (s : St ω) (ps : Params) : St ω := { s with ctx := { s.ctx with params := ps } }

/-- the call does not read the parameters -/
def NotParam : Call ω → Prop
  | .param _ => False
  | _ => True

theorem withParams_doCall (o : Oracle) (req : Req) (s : St ω) (ps : Params) (c : Call ω) (hc : NotParam c) :
    doCall o req (s.withParams ps) c = ((doCall o req s c).1, (doCall o req s c).2.withParams ps) := by
  have wh : ∀ (s : St ω) code, (s.withParams ps).writeHeader o code =
      ((s.writeHeader o code).1, (s.writeHeader o code).2.withParams ps) := by
    intro s code
    have e : (s.withParams ps).ctx.written = s.ctx.written := rfl
    simp only [St.writeHeader, e]
    by_cases hw : s.ctx.written = true
    · simp only [hw, if_true]
    · simp only [hw]; rfl
  cases c with
  | param k => exact hc.elim
  | writeHeader code =>
    simp only [doCall, wh]
    rcases s.writeHeader o code with ⟨p, s2⟩
    cases p <;> rfl
  | write data =>
    have hw : (s.withParams ps).write o data = ((s.write o data).1, (s.write o data).2.withParams ps) := by
      simp only [St.write]
      have e : (s.withParams ps).ctx.written = s.ctx.written := rfl
      rw [e]
      split
      · rfl
      · have e2 : (if data.length > 0 ∧ (s.withParams ps).rw.header.get kContentType = [] then
            ({ (s.withParams ps) with rw := { (s.withParams ps).rw with header := (s.withParams ps).rw.header.put kContentType (o.detect data) } } :
              St ω) else s.withParams ps) =
            (if data.length > 0 ∧ s.rw.header.get kContentType = [] then
              ({ s with rw := { s.rw with header := s.rw.header.put kContentType (o.detect data) } } : St ω) else s).withParams ps := by
          have e3 : (s.withParams ps).rw = s.rw := rfl
          rw [e3]
          split <;> rfl
        rw [e2, wh]
        rcases St.writeHeader o _ 200 with ⟨p, s2⟩
        cases p <;> rfl
    simp only [doCall, hw]
    rcases s.write o data with ⟨p, s2⟩
    cases p <;> rfl
  | rawWriteHeader code =>
    simp only [doCall]
    have e : (s.withParams ps).rw = s.rw := rfl
    rw [e]
    rcases s.rw.writeHeader o.bad code with ⟨p, rw⟩
    cases p <;> rfl
  | envSet k v =>
    simp only [doCall]
    have e : (s.withParams ps).ctx.environ = s.ctx.environ := rfl
    rw [e]
    split <;> rfl
  | envGet k =>
    simp only [doCall]
    have e : (s.withParams ps).ctx.environ = s.ctx.environ := rfl
    rw [e]
    split <;> rfl
  | readBody l =>
    simp only [doCall]
    have e : (s.withParams ps).body = s.body := rfl
    rw [e]
    split <;> rfl
  | parseForm =>
    simp only [doCall, St.parseForm]
    have e : (s.withParams ps).ctx.parsedParams = s.ctx.parsedParams := rfl
    have e2 : (s.withParams ps).body = s.body := rfl
    rw [e, e2]
    cases s.ctx.parsedParams
    · simp only [Bool.false_eq_true, if_false]
      cases (o.parse req (wantsMultipart req) s.body).fails <;> rfl
    · rfl
  | readForm f =>
    simp only [doCall, St.parseForm]
    have e : (s.withParams ps).ctx.parsedParams = s.ctx.parsedParams := rfl
    have e2 : (s.withParams ps).body = s.body := rfl
    rw [e, e2]
    cases s.ctx.parsedParams
    · simp only [Bool.false_eq_true, if_false]
      cases (o.parse req (wantsMultipart req) s.body).fails <;> rfl
    · rfl
  | _ => rfl

theorem withParams_exec (o : Oracle) (req : Req) (nx : St ω → Out × St ω) (ps : Params) (hs : List (Prog ω))
    (hnx : ∀ s, s.ctx.handlers = hs → nx (s.withParams ps) = ((nx s).1, (nx s).2.withParams ps) ∧ (nx s).2.ctx.handlers = hs)
    (i : Nat) (p : Prog ω) : ∀ s, s.ctx.handlers = hs → CallsIn NotParam p →
      exec o req nx i p (s.withParams ps) = ((exec o req nx i p s).1, (exec o req nx i p s).2.withParams ps) ∧
      (exec o req nx i p s).2.ctx.handlers = hs := by
  induction p with
  | ret => intro s h _; exact ⟨rfl, h⟩
  | panic v => intro s h _; exact ⟨rfl, h⟩
  | next k ih =>
    intro s h hp
    simp only [exec]
    have e : ((s.withParams ps).log (.next i)).bump = (s.log (.next i)).bump.withParams ps := rfl
    obtain ⟨e1, e2⟩ := hnx (s.log (.next i)).bump h
    rw [e, e1]
    rcases hr : nx (s.log (.next i)).bump with ⟨out, s1⟩
    rw [hr] at e2
    cases out with
    | ret => exact ih (s1.log (.back i)) e2 hp
    | panic v => exact ⟨rfl, e2⟩
    | fuel => exact ⟨rfl, e2⟩
  | call c k ih =>
    intro s h hp
    simp only [exec, withParams_doCall o req s ps c hp.1]
    have e2 := (doCall_frame o req s c).1
    rcases hr : doCall o req s c with ⟨out, s1⟩
    rw [hr] at e2
    simp only at e2
    rw [h] at e2
    cases out with
    | error v => exact ⟨rfl, e2⟩
    | ok r => exact ih r s1 e2 (hp.2 r)
  | scope b f ihb ihf =>
    intro s h hp
    obtain ⟨e1, e2⟩ := ihb s h hp.1
    simp only [exec, e1]
    rcases hr : exec o req nx i b s with ⟨out, s1⟩
    rw [hr] at e2
    cases out with
    | ret => exact ihf none s1 e2 (hp.2 _)
    | panic v => exact ihf (some v) s1 e2 (hp.2 _)
    | fuel => exact ⟨rfl, e2⟩

theorem withParams_run (o : Oracle) (req : Req) (ps : Params) (hs : List (Prog ω)) (hp : ∀ h ∈ hs, CallsIn NotParam h)
    (fuel : Nat) : ∀ s : St ω, s.ctx.handlers = hs →
      run o req fuel (s.withParams ps) = ((run o req fuel s).1, (run o req fuel s).2.withParams ps) ∧
      (run o req fuel s).2.ctx.handlers = hs := by
  induction fuel with
  | zero => intro s h; exact ⟨rfl, h⟩
  | succ fuel ih =>
    intro s h
    simp only [run]
    have e : (s.withParams ps).ctx.handlers[(s.withParams ps).ctx.index]? = s.ctx.handlers[s.ctx.index]? := rfl
    rw [e]
    rcases hh : s.ctx.handlers[s.ctx.index]? with _ | p
    · exact ⟨rfl, h⟩
    · simp only
      have ei : (s.withParams ps).ctx.index = s.ctx.index := rfl
      have e2 : (s.withParams ps).log (.start s.ctx.index) = (s.log (.start s.ctx.index)).withParams ps := rfl
      obtain ⟨e3, e4⟩ := withParams_exec o req (run o req fuel) ps hs ih s.ctx.index p (s.log (.start s.ctx.index)) h
        (hp p (by rw [← h]; exact List.mem_of_getElem? hh))
      rw [ei, e2, e3]
      rcases hr : exec o req (run o req fuel) s.ctx.index p (s.log (.start s.ctx.index)) with ⟨out, s1⟩
      rw [hr] at e4
      cases out with
      | fuel => exact ⟨rfl, e4⟩
      | panic v => exact ⟨rfl, e4⟩
      | ret =>
        simp only
        have e5 : ((s1.withParams ps).log (.stop s.ctx.index (s1.withParams ps).ctx.written)).bump =
          (s1.log (.stop s.ctx.index s1.ctx.written)).bump.withParams ps := rfl
        rw [e5]
        have h2 : (s1.log (.stop s.ctx.index s1.ctx.written)).bump.ctx.handlers = hs := e4
        generalize (s1.log (.stop s.ctx.index s1.ctx.written)).bump = s2 at h2 ⊢
        have e6 : (s2.withParams ps).ctx.written = s2.ctx.written := rfl
        rw [e6]
        split
        · exact ⟨rfl, h2⟩
        · exact ih s2 h2

end Water
