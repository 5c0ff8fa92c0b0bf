import Verif.Spec.Vary
import Verif.Props.Fetch
/- Headers to which the later handlers only add. -/
namespace Water
open Spec
variable {ω : Type}

/-- `x` is among the values of the header `key`, now and in everything sent -/
def HasSent (key : Str) (x : Str) (s : St ω) : Prop :=
  x ∈ (s.rw.header key).getD [] ∧ ∀ b code h, .status b code h ∈ s.rw.log → x ∈ (h key).getD []

theorem hasSent_header {key : Str} {x : Str} {s : St ω} (h : HasSent key x s) {h' : Header}
    (hk : ∀ v, v ∈ (s.rw.header key).getD [] → v ∈ (h' key).getD []) : HasSent key x (withHeader s h') := ⟨hk _ h.1, h.2⟩

theorem hasSent_writeHeader {key : Str} {x : Str} {s : St ω} (o : Oracle) (code : Int) (h : HasSent key x s) :
    x ∈ ((s.rw.writeHeader o.bad code).2.header key).getD [] ∧ ∀ b c h', .status b c h' ∈ (s.rw.writeHeader o.bad code).2.log → x ∈ (h' key).getD [] := by
  unfold Writer.writeHeader
  split
  · exact h
  · refine ⟨h.1, ?_⟩
    intro b c h' hm
    rcases List.mem_append.1 hm with hm | hm
    · exact h.2 b c h' hm
    · simp only [List.mem_singleton, WEvent.status.injEq] at hm
      rw [hm.2.2]; exact h.1

theorem hasSent_rawWrite {key : Str} {x : Str} {s : St ω} (d : Str) (h : HasSent key x s) :
    x ∈ ((s.rw.write d).header key).getD [] ∧ ∀ b c h', .status b c h' ∈ (s.rw.write d).log → x ∈ (h' key).getD [] := by
  unfold Writer.write
  split
  · refine ⟨h.1, ?_⟩
    intro b c h' hm
    simp only [List.mem_cons, WEvent.status.injEq, List.not_mem_nil, or_false, reduceCtorEq] at hm
    rw [hm.2.2]; exact h.1
  · refine ⟨h.1, ?_⟩
    intro b c h' hm
    rcases List.mem_append.1 hm with hm | hm
    · exact h.2 b c h' hm
    · simp at hm

theorem hasSent_ctxWriteHeader {key : Str} {x : Str} {s : St ω} (o : Oracle) (code : Int) (h : HasSent key x s) :
    HasSent key x (s.writeHeader o code).2 := by
  unfold St.writeHeader
  split
  · exact h
  · exact hasSent_writeHeader o code h

theorem hasSent_write {key : Str} {x : Str} {s : St ω} (hct : key ≠ kContentType) (o : Oracle) (d : Str)
    (h : HasSent key x s) : HasSent key x (s.write o d).2 := by
  unfold St.write
  split
  · exact hasSent_rawWrite d h
  · have h1 : HasSent key x (if d.length > 0 ∧ s.rw.header.get kContentType = [] then
        { s with rw := { s.rw with header := s.rw.header.put kContentType (o.detect d) } } else s) := by
      split
      · refine hasSent_header h (fun v hv => ?_)
        rw [put_canon (by decide), set_ne _ _ hct]
        exact hv
      · exact h
    have h2 := hasSent_ctxWriteHeader o 200 h1
    simp only
    rcases hr : St.writeHeader o (if d.length > 0 ∧ s.rw.header.get kContentType = [] then
        { s with rw := { s.rw with header := s.rw.header.put kContentType (o.detect d) } } else s) 200 with ⟨p, s2⟩
    rw [hr] at h2
    cases p
    · exact hasSent_rawWrite d h2
    · exact h2

theorem hasSent_doCall {key : Str} {x : Str} (hct : key ≠ kContentType) (o : Oracle) (req : Req) (s : St ω) (c : Call ω)
    (hc : Grows key c) (h : HasSent key x s) : HasSent key x (doCall o req s c).2 := by
  cases c with
  | writeHeader code =>
    have h1 := hasSent_ctxWriteHeader o code h
    simp only [doCall]
    rcases hr : s.writeHeader o code with ⟨_ | _, s2⟩ <;> rw [hr] at h1 <;> exact h1
  | write d =>
    have h1 := hasSent_write hct o d h
    simp only [doCall]
    rcases hr : s.write o d with ⟨_ | _, s2⟩ <;> rw [hr] at h1 <;> exact h1
  | setHeader k v =>
    refine hasSent_header h (fun y hy => ?_)
    simp only [Header.put]
    rw [set_ne _ _ (fun e => hc e.symm)]
    exact hy
  | header f => exact hasSent_header h (hc _)
  | rawWriteHeader code =>
    have h1 := hasSent_writeHeader o code h
    simp only [doCall]
    rcases hr : s.rw.writeHeader o.bad code with ⟨_ | _, rw⟩ <;> rw [hr] at h1 <;> exact h1
  | rawWrite d => exact hasSent_rawWrite d h
  | param k => simp only [doCall]; split <;> exact h
  | envSet k v => simp only [doCall]; split <;> exact h
  | envGet k => simp only [doCall]; split <;> exact h
  | readBody l => simp only [doCall]; split <;> exact h
  | parseForm =>
    simp only [doCall, St.parseForm]
    cases s.ctx.parsedParams
    · simp only [Bool.false_eq_true, if_false]
      cases (o.parse req (wantsMultipart req) s.body).fails <;> exact h
    · exact h
  | readForm f =>
    simp only [doCall, St.parseForm]
    cases s.ctx.parsedParams
    · simp only [Bool.false_eq_true, if_false]
      cases (o.parse req (wantsMultipart req) s.body).fails <;> exact h
    · exact h
  | _ => exact h

theorem hasSent_runAll {key : Str} {x : Str} (hct : key ≠ kContentType) (o : Oracle) (req : Req) (s : St ω)
    (hrest : ∀ (i : Nat) p, s.ctx.index ≤ i → s.ctx.handlers[i]? = some p → CallsIn (Grows key) p) (h : HasSent key x s) :
    HasSent key x (runAll o req s).2 := by
  refine (run_inv_at o req (fun s' => HasSent key x s' ∧ s'.ctx.handlers = s.ctx.handlers ∧ s.ctx.index ≤ s'.ctx.index)
    (Grows key) ?_ ?_ ?_ ?_ _ s ⟨h, rfl, Nat.le_refl _⟩).1
  · exact fun s' e h => h
  · exact fun s' h => ⟨h.1, h.2.1, by simp only [St.bump]; have := h.2.2; omega⟩
  · intro s' c hc h
    have f := doCall_frame o req s' c
    exact ⟨hasSent_doCall hct o req s' c hc h.1, f.1.trans h.2.1, by rw [f.2.2.1]; exact h.2.2⟩
  · intro s' h p hp
    rw [h.2.1] at hp
    exact hrest _ p h.2.2 hp

/-- everything sent behind CORS has what CORS puts into the header `key` -/
theorem cors_has {key : Str} (hct : key ≠ kContentType) (o : Oracle) (req : Req) (s : St ω) (cfg : CORSConfig)
    (hcors : s.ctx.handlers[s.ctx.index]? = some (cors cfg)) (hw : s.ctx.written = false) (hlog : s.rw.log = [])
    (hrest : ∀ (i : Nat) p, s.ctx.index < i → s.ctx.handlers[i]? = some p → CallsIn (Grows key) p) {x : Str}
    (hs : req.method ≠ b!"OPTIONS" → ∀ h, SimpleHeaders cfg req s.rw.header h → x ∈ (h key).getD [])
    (hp : req.method = b!"OPTIONS" → ∀ h, PreflightHeaders cfg req s.rw.header h → x ∈ (h key).getD []) :
    ∀ b code h, .status b code h ∈ (runAll o req s).2.rw.log → x ∈ (h key).getD [] := by
  by_cases hm : req.method = b!"OPTIONS"
  · intro b code h hh
    cases h204 : o.bad 204 with
    | true =>
      rw [runAll_unfold, hcors] at hh
      simp only at hh
      rw [cors_preflight o req _ _ cfg _ hm] at hh
      have e : ((withHeader (s.log (.start s.ctx.index)) (preflightH cfg req (s.log (.start s.ctx.index)).rw.header)).writeHeader o 204).1 = true ∧
          ((withHeader (s.log (.start s.ctx.index)) (preflightH cfg req (s.log (.start s.ctx.index)).rw.header)).writeHeader o 204).2.rw.log = [] := by
        simp [St.writeHeader, withHeader, St.log, hw, Writer.writeHeader, h204, hlog]
      simp only [Prog.do, exec, doCall] at hh
      revert hh e
      generalize (withHeader (s.log (.start s.ctx.index)) (preflightH cfg req (s.log (.start s.ctx.index)).rw.header)).writeHeader o 204 = r
      obtain ⟨p, s2⟩ := r
      rintro ⟨rfl, e⟩ hh
      simp only at e
      simp [St.log, e] at hh
    | false =>
      obtain ⟨h', h1, -, h2, -⟩ := C45_preflight o req s cfg hm hcors hw h204
      rw [h2, hlog] at hh
      simp only [List.nil_append, List.mem_singleton, WEvent.status.injEq] at hh
      rw [hh.2.2]
      exact hp hm h' h1
  · obtain ⟨h', h1, h2⟩ := C45_passes o req s cfg hm hcors
    simp only at h2
    rw [h2.2.1]
    refine (hasSent_runAll hct o req _ ?_ ⟨hs hm h' h1, ?_⟩).2
    · intro i p hi hp
      exact hrest i p (by simp only [St.bump, St.log, withHeader] at hi; omega) hp
    · intro b code h hh
      simp only [St.bump, St.log, withHeader, hlog] at hh
      cases hh

end Water
