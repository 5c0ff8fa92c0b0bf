import Verif.Spec.Response
import Verif.Lemmas.Chain
/- What is sent to the client. -/
namespace Water
open Spec
variable {ω : Type}

/-- the calls that touch neither `written`, `status` nor the log -/
def Calm : Call ω → Prop
  | .writeHeader _ => False
  | .write _ => False
  | .rawWriteHeader _ => False
  | .rawWrite _ => False
  | _ => True

theorem doCall_calm (o : Oracle) (req : Req) (s : St ω) (c : Call ω) (hc : Calm c) :
    (doCall o req s c).2.ctx.written = s.ctx.written ∧ (doCall o req s c).2.ctx.status = s.ctx.status ∧
    (doCall o req s c).2.rw.log = s.rw.log := by
  cases c with
  | writeHeader | write | rawWriteHeader | rawWrite => exact hc.elim
  | param k => simp only [doCall]; split <;> simp
  | envSet k v => simp only [doCall]; split <;> simp
  | envGet k => simp only [doCall]; split <;> simp
  | readBody l => simp only [doCall]; split <;> simp
  | parseForm =>
    simp only [doCall, St.parseForm]
    cases hp : s.ctx.parsedParams
    · simp only [Bool.false_eq_true, if_false]
      cases (o.parse req (wantsMultipart req) s.body).fails <;> simp
    · simp
  | readForm f =>
    simp only [doCall, St.parseForm]
    cases hp : s.ctx.parsedParams
    · simp only [Bool.false_eq_true, if_false]
      cases (o.parse req (wantsMultipart req) s.body).fails <;> simp
    · simp
  | _ => simp [doCall]

theorem St.writeHeader_written {o : Oracle} {s : St ω} {code : Int} (h : s.ctx.written = true) :
    s.writeHeader o code = (false, s) := by
  simp [St.writeHeader, h]

theorem St.writeHeader_fresh {o : Oracle} {s : St ω} {code : Int} (h : s.ctx.written = false) :
    s.writeHeader o code = ((s.rw.writeHeader o.bad code).1,
      { s with ctx := { s.ctx with written := true, status := code }, rw := (s.rw.writeHeader o.bad code).2 }) := by
  simp [St.writeHeader, h]

/-- the headers with which `ctx.Write` sends its implied status -/
def sniffed (o : Oracle) (h : Header) (data : Str) : Header :=
  if data.length > 0 ∧ h.get kContentType = [] then h.put kContentType (o.detect data) else h

theorem Writer.writeHeader_ok {bad : Int → Bool} {w : Writer} {code : Int} (h : bad code = false) :
    w.writeHeader bad code = (false, { w with log := w.log ++ [.status true code w.header] }) := by
  simp [Writer.writeHeader, h]

theorem Writer.writeHeader_late {bad : Int → Bool} {w : Writer} {code : Int} (h : w.log ≠ []) :
    w.writeHeader bad code = (false, { w with log := w.log ++ [.status true code w.header] }) := by
  cases hl : w.log with
  | nil => exact absurd hl h
  | cons a l => simp [Writer.writeHeader, hl]

theorem Writer.write_late {w : Writer} {data : Str} (h : w.log ≠ []) :
    w.write data = { w with log := w.log ++ [.body data] } := by
  cases hl : w.log with
  | nil => exact absurd hl h
  | cons a l => simp [Writer.write, hl]

theorem Writer.write_first {w : Writer} {data : Str} (h : w.log = []) :
    w.write data = { w with log := [.status false 200 w.header, .body data] } := by
  simp [Writer.write, h]

theorem St.write_written {o : Oracle} {s : St ω} {data : Str} (h : s.ctx.written = true) :
    s.write o data = (false, { s with rw := s.rw.write data }) := by
  simp [St.write, h]

/-- `ctx.Write` on a context that has not written yet, if 200 is a valid status code. -/
theorem St.write_fresh {o : Oracle} {s : St ω} {data : Str} (h : s.ctx.written = false) (h200 : o.bad 200 = false) :
    s.write o data = (false, { s with
      ctx := { s.ctx with written := true, status := 200 }
      rw := { header := sniffed o s.rw.header data,
              log := s.rw.log ++ [.status true 200 (sniffed o s.rw.header data), .body data] } }) := by
  unfold St.write
  simp only [h, Bool.false_eq_true, if_false]
  by_cases hc : data.length > 0 ∧ s.rw.header.get kContentType = []
  · simp only [hc, and_self, if_true]
    rw [St.writeHeader_fresh (by exact h), Writer.writeHeader_ok h200]
    simp [Writer.write_late, sniffed, hc]
  · simp only [hc, if_false]
    rw [St.writeHeader_fresh h, Writer.writeHeader_ok h200]
    simp [Writer.write_late, sniffed, hc]

/-- a log with one status line in front -/
def OneLine (log : List WEvent) : Prop :=
  ∃ x c h rest, log = .status x c h :: rest ∧ ∀ e ∈ rest, ∃ d, e = WEvent.body d

theorem OneLine.body {log : List WEvent} (h : OneLine log) (d : Str) : OneLine (log ++ [.body d]) := by
  obtain ⟨x, c, hd, rest, rfl, hr⟩ := h
  refine ⟨x, c, hd, rest ++ [.body d], rfl, fun e he => ?_⟩
  rcases List.mem_append.1 he with he | he
  · exact hr e he
  · simp at he; exact ⟨d, he⟩

theorem OneLine.ne_nil {log : List WEvent} (h : OneLine log) : log ≠ [] := by
  obtain ⟨x, c, hd, rest, rfl, hr⟩ := h; simp

/-- the log of a response made through the context -/
def Through (s : St ω) : Prop :=
  (s.ctx.written = false → s.rw.log = []) ∧ (s.rw.log = [] ∨ OneLine s.rw.log)

theorem Writer.writeHeader_through {bad : Int → Bool} {w : Writer} {code : Int} (h : w.log = []) :
    (w.writeHeader bad code).2.log = [] ∨ OneLine (w.writeHeader bad code).2.log := by
  by_cases hb : bad code
  · left; simp [Writer.writeHeader, h, hb]
  · right
    rw [Writer.writeHeader_ok (by simpa using hb), h]
    exact ⟨true, code, w.header, [], rfl, by simp⟩

theorem Writer.write_through {w : Writer} {data : Str} (h : w.log = [] ∨ OneLine w.log) : OneLine (w.write data).log := by
  rcases h with h | h
  · rw [Writer.write_first h]
    exact ⟨false, 200, w.header, [.body data], rfl, by simp⟩
  · rw [Writer.write_late h.ne_nil]
    exact h.body data

theorem through_call (o : Oracle) (req : Req) (s : St ω) (c : Call ω) (hc : ¬ Bypass c) (hs : Through s) :
    Through (doCall o req s c).2 := by
  by_cases hcalm : Calm c
  · obtain ⟨h1, -, h3⟩ := doCall_calm o req s c hcalm
    unfold Through; rw [h1, h3]; exact hs
  · cases c with
    | writeHeader code =>
      simp only [doCall]
      cases hw : s.ctx.written
      · rw [St.writeHeader_fresh hw]
        have h1 := Writer.writeHeader_through (bad := o.bad) (code := code) (hs.1 hw)
        rcases hr : s.rw.writeHeader o.bad code with ⟨p, rw'⟩
        rw [hr] at h1
        cases p <;> exact ⟨by simp, h1⟩
      · rw [St.writeHeader_written hw]; exact hs
    | write data =>
      have h : (s.write o data).2.ctx.written = true ∧
          ((s.write o data).2.rw.log = [] ∨ OneLine (s.write o data).2.rw.log) := by
        refine ⟨(St.write_frame o s data).2.2.2, ?_⟩
        cases hw : s.ctx.written
        · unfold St.write
          simp only [hw, Bool.false_eq_true, if_false]
          generalize hs1 : (if data.length > 0 ∧ s.rw.header.get kContentType = [] then
            ({ s with rw := { s.rw with header := s.rw.header.put kContentType (o.detect data) } } : St ω) else s) = s1
          have h1 : s1.ctx.written = false ∧ s1.rw.log = [] := by
            subst hs1; split
            · exact ⟨hw, hs.1 hw⟩
            · exact ⟨hw, hs.1 hw⟩
          rw [St.writeHeader_fresh h1.1]
          have h2 := Writer.writeHeader_through (bad := o.bad) (code := 200) h1.2
          rcases hr : s1.rw.writeHeader o.bad 200 with ⟨p, rw'⟩
          rw [hr] at h2
          cases p
          · exact .inr (Writer.write_through h2)
          · exact h2
        · rw [St.write_written hw]
          exact .inr (Writer.write_through hs.2)
      simp only [doCall]
      rcases hr : s.write o data with ⟨p, s2⟩
      rw [hr] at h
      cases p <;> exact ⟨fun hf => (by simp only at hf; rw [hf] at h; cases h.1), h.2⟩
    | rawWriteHeader code => exact absurd trivial hc
    | rawWrite d => exact absurd trivial hc
    | _ => exact absurd trivial hcalm

theorem log_through (s : St ω) (e : Event) (h : Through s) : Through (s.log e) := h
theorem bump_through (s : St ω) (h : Through s) : Through s.bump := h

/-- with valid codes, `Written` implies that something was sent, even if some calls bypass the context -/
theorem written_sent_call (o : Oracle) (h200 : o.bad 200 = false) (req : Req) (s : St ω) (c : Call ω)
    (hc : ValidCode o.bad c) (hs : s.ctx.written = true → s.rw.log ≠ []) :
    (doCall o req s c).2.ctx.written = true → (doCall o req s c).2.rw.log ≠ [] := by
  by_cases hcalm : Calm c
  · obtain ⟨h1, -, h3⟩ := doCall_calm o req s c hcalm
    rw [h1, h3]; exact hs
  · cases c with
    | writeHeader code =>
      simp only [doCall]
      cases hw : s.ctx.written
      · rw [St.writeHeader_fresh hw, Writer.writeHeader_ok hc]; simp
      · rw [St.writeHeader_written hw]; exact fun _ => hs hw
    | write data =>
      simp only [doCall]
      cases hw : s.ctx.written
      · rw [St.write_fresh hw h200]; simp
      · rw [St.write_written hw, Writer.write_late (hs hw)]; simp
    | rawWriteHeader code =>
      simp only [doCall]
      rw [Writer.writeHeader_ok hc]; simp
    | rawWrite d =>
      simp only [doCall]
      by_cases hl : s.rw.log = []
      · rw [Writer.write_first hl]; simp
      · rw [Writer.write_late hl]; simp
    | _ => exact absurd trivial hcalm

/-- whatever is called: a started response has a status, and `Written` with nothing sent means that `Status` is rejected -/
def Told (o : Oracle) (s : St ω) : Prop :=
  (s.rw.log ≠ [] → (received s.rw.log).isSome) ∧ (s.ctx.written = true → s.rw.log = [] → o.bad s.ctx.status = true)

theorem received_more {a : List WEvent} (h : (received a).isSome) (b : List WEvent) : received (a ++ b) = received a := by
  induction a with
  | nil => simp [received] at h
  | cons x xs ih =>
    cases x with
    | status => rfl
    | body d => exact ih h

theorem told_call (o : Oracle) (h200 : o.bad 200 = false) (req : Req) (s : St ω) (c : Call ω) (hs : Told o s) :
    Told o (doCall o req s c).2 := by
  obtain ⟨hs1, hs2⟩ := hs
  have keep : ∀ e, s.rw.log ≠ [] → (received (s.rw.log ++ e)).isSome := by
    intro e h; rw [received_more (hs1 h)]; exact hs1 h
  have more : ∀ code h, (received (s.rw.log ++ [.status true code h])).isSome := by
    intro code h
    by_cases hl : s.rw.log = []
    · rw [hl]; rfl
    · exact keep _ hl
  by_cases hcalm : Calm c
  · obtain ⟨h1, h2, h3⟩ := doCall_calm o req s c hcalm
    unfold Told; rw [h1, h2, h3]; exact ⟨hs1, hs2⟩
  · cases c with
    | writeHeader code =>
      simp only [doCall]
      cases hw : s.ctx.written
      · rw [St.writeHeader_fresh hw]
        by_cases hb : o.bad code = false
        · rw [Writer.writeHeader_ok hb]
          refine ⟨fun _ => more _ _, ?_⟩
          intro _ h; simp at h
        · have hb : o.bad code = true := by simpa using hb
          by_cases hl : s.rw.log = []
          · have e : s.rw.writeHeader o.bad code = (true, s.rw) := by simp [Writer.writeHeader, hb, hl]
            rw [e]; exact ⟨hs1, fun _ _ => hb⟩
          · rw [Writer.writeHeader_late hl]
            exact ⟨fun _ => more _ _, fun _ _ => hb⟩
      · rw [St.writeHeader_written hw]; exact ⟨hs1, hs2⟩
    | write data =>
      simp only [doCall]
      cases hw : s.ctx.written
      · rw [St.write_fresh hw h200]
        refine ⟨fun _ => ?_, ?_⟩
        · show (received (s.rw.log ++ _)).isSome
          by_cases hl : s.rw.log = []
          · rw [hl]; rfl
          · exact keep _ hl
        · intro _ h; simp at h
      · rw [St.write_written hw]
        by_cases hl : s.rw.log = []
        · rw [Writer.write_first hl]; exact ⟨fun _ => rfl, by intro _ h; simp at h⟩
        · rw [Writer.write_late hl]; exact ⟨fun _ => keep _ hl, by intro _ h; simp at h⟩
    | rawWriteHeader code =>
      simp only [doCall]
      by_cases hb : o.bad code = false
      · rw [Writer.writeHeader_ok hb]
        exact ⟨fun _ => more _ _, by intro _ h; simp at h⟩
      · have hb : o.bad code = true := by simpa using hb
        by_cases hl : s.rw.log = []
        · have e : s.rw.writeHeader o.bad code = (true, s.rw) := by simp [Writer.writeHeader, hb, hl]
          rw [e]; exact ⟨hs1, hs2⟩
        · rw [Writer.writeHeader_late hl]; exact ⟨fun _ => more _ _, by intro _ h; simp at h⟩
    | rawWrite d =>
      simp only [doCall]
      by_cases hl : s.rw.log = []
      · rw [Writer.write_first hl]; exact ⟨fun _ => rfl, by intro _ h; simp at h⟩
      · rw [Writer.write_late hl]; exact ⟨fun _ => keep _ hl, by intro _ h; simp at h⟩
    | _ => exact absurd trivial hcalm

/-- with valid codes and no bypass: nothing, or the status line of `Status` -/
def Sent (s : St ω) : Prop :=
  (s.ctx.written = false ∧ s.rw.log = []) ∨
  (s.ctx.written = true ∧ ∃ h rest, s.rw.log = .status true s.ctx.status h :: rest ∧ ∀ e ∈ rest, ∃ d, e = WEvent.body d)

theorem sent_call (o : Oracle) (h200 : o.bad 200 = false) (req : Req) (s : St ω) (c : Call ω) (hb : ¬ Bypass c)
    (hc : ValidCode o.bad c) (hs : Sent s) : Sent (doCall o req s c).2 := by
  by_cases hcalm : Calm c
  · obtain ⟨h1, h2, h3⟩ := doCall_calm o req s c hcalm
    unfold Sent; rw [h1, h2, h3]; exact hs
  · cases c with
    | writeHeader code =>
      simp only [doCall]
      rcases hs with ⟨hw, hl⟩ | ⟨hw, hl⟩
      · rw [St.writeHeader_fresh hw, Writer.writeHeader_ok hc]
        exact .inr ⟨rfl, s.rw.header, [], by simp [hl], by simp⟩
      · rw [St.writeHeader_written hw]; exact .inr ⟨hw, hl⟩
    | write data =>
      simp only [doCall]
      rcases hs with ⟨hw, hl⟩ | ⟨hw, h, rest, hl, hr⟩
      · rw [St.write_fresh hw h200]
        exact .inr ⟨rfl, sniffed o s.rw.header data, [.body data], by simp [hl], by simp⟩
      · rw [St.write_written hw, Writer.write_late (by simp [hl])]
        refine .inr ⟨hw, h, rest ++ [.body data], by simp [hl], fun e he => ?_⟩
        rcases List.mem_append.1 he with he | he
        · exact hr e he
        · simp at he; exact ⟨data, he⟩
    | rawWriteHeader code => exact absurd trivial hb
    | rawWrite d => exact absurd trivial hb
    | _ => exact absurd trivial hcalm

/-- no bypass, any codes: nothing, or the status line of `Status`, or a rejected `Status` and, if something was written since, 200 -/
def SentAny (o : Oracle) (s : St ω) : Prop :=
  (s.ctx.written = false ∧ s.rw.log = []) ∨
  (s.ctx.written = true ∧ o.bad s.ctx.status = false ∧
    ∃ h rest, s.rw.log = .status true s.ctx.status h :: rest ∧ ∀ e ∈ rest, ∃ d, e = WEvent.body d) ∨
  (s.ctx.written = true ∧ o.bad s.ctx.status = true ∧
    (s.rw.log = [] ∨ ∃ h d rest, s.rw.log = .status false 200 h :: .body d :: rest ∧ ∀ e ∈ rest, ∃ d, e = WEvent.body d))

theorem sentAny_call (o : Oracle) (h200 : o.bad 200 = false) (req : Req) (s : St ω) (c : Call ω) (hb : ¬ Bypass c) (hs : SentAny o s) :
    SentAny o (doCall o req s c).2 := by
  by_cases hcalm : Calm c
  · obtain ⟨h1, h2, h3⟩ := doCall_calm o req s c hcalm
    unfold SentAny; rw [h1, h2, h3]; exact hs
  · cases c with
    | writeHeader code =>
      simp only [doCall]
      by_cases hw : s.ctx.written = true
      · rw [St.writeHeader_written hw]; exact hs
      · have hw : s.ctx.written = false := by simpa using hw
        have hl : s.rw.log = [] := by
          rcases hs with hs | hs | hs
          · exact hs.2
          · rw [hw] at hs; simp at hs
          · rw [hw] at hs; simp at hs
        rw [St.writeHeader_fresh hw]
        by_cases hc : o.bad code = true
        · have : (s.rw.writeHeader o.bad code) = (true, s.rw) := by simp [Writer.writeHeader, hl, hc]
          rw [this]
          exact .inr (.inr ⟨rfl, hc, .inl hl⟩)
        · have hc : o.bad code = false := by simpa using hc
          rw [Writer.writeHeader_ok hc]
          exact .inr (.inl ⟨rfl, hc, s.rw.header, [], by simp [hl], by simp⟩)
    | write data =>
      simp only [doCall]
      have late : ∀ rest : List WEvent, (∀ e ∈ rest, ∃ d, e = WEvent.body d) → ∀ e ∈ rest ++ [.body data], ∃ d, e = WEvent.body d := by
        intro rest hr e he
        rcases List.mem_append.1 he with he | he
        · exact hr e he
        · simp at he; exact ⟨data, he⟩
      rcases hs with ⟨hw, hl⟩ | ⟨hw, hg, h, rest, hl, hr⟩ | ⟨hw, hg, hl⟩
      · rw [St.write_fresh hw h200]
        exact .inr (.inl ⟨rfl, h200, sniffed o s.rw.header data, [.body data], by simp [hl], by simp⟩)
      · rw [St.write_written hw, Writer.write_late (by simp [hl])]
        exact .inr (.inl ⟨hw, hg, h, rest ++ [.body data], by simp [hl], late rest hr⟩)
      · rw [St.write_written hw]
        rcases hl with hl | ⟨h, d, rest, hl, hr⟩
        · rw [Writer.write_first hl]
          exact .inr (.inr ⟨hw, hg, .inr ⟨s.rw.header, data, [], rfl, by simp⟩⟩)
        · rw [Writer.write_late (by simp [hl])]
          exact .inr (.inr ⟨hw, hg, .inr ⟨h, d, rest ++ [.body data], by simp [hl], late rest hr⟩⟩)
    | rawWriteHeader code => exact absurd trivial hb
    | rawWrite d => exact absurd trivial hb
    | _ => exact absurd trivial hcalm

/-! ### Recovery -/

/-- `ctx.WriteHeader(code)` for a valid code -/
def sendStatus (s : St ω) (code : Int) : St ω :=
  if s.ctx.written then s
  else { s with ctx := { s.ctx with written := true, status := code }
                rw := { s.rw with log := s.rw.log ++ [.status true code s.rw.header] } }

theorem doCall_writeHeader {o : Oracle} {req : Req} {s : St ω} {code : Int} (h : o.bad code = false) :
    doCall o req s (.writeHeader code) = (.ok .unit, sendStatus s code) := by
  cases hw : s.ctx.written
  · simp [doCall, St.writeHeader_fresh hw, Writer.writeHeader_ok h, sendStatus, hw]
  · simp [doCall, St.writeHeader_written hw, sendStatus, hw]

theorem sendStatus_written (s : St ω) (code : Int) : (sendStatus s code).ctx.written = true := by
  unfold sendStatus; split
  · rename_i h; exact h
  · rfl

/-- what the deferred function of `Recovery` does with what it recovers -/
def recovered (o : Oracle) (r : Option PVal) (s : St ω) : St ω :=
  match r with
  | some (.val msg) =>
    let s := sendStatus s 500
    if o.stable then s
    else
      let rw := { s.rw with header := s.rw.header.put kContentType mimeText }
      { s with rw := rw.write (o.crashText (.val msg)) }
  | _ => sendStatus s 200

theorem recovered_written (o : Oracle) (r : Option PVal) (s : St ω) : (recovered o r s).ctx.written = true := by
  unfold recovered
  split
  · simp only
    split
    · exact sendStatus_written s 500
    · exact sendStatus_written s 500
  · exact sendStatus_written s 200

/-- `Recovery` around any downstream behaviour `nx`. -/
theorem recovery_exec {o : Oracle} {req : Req} {nx : St ω → Out × St ω} {i : Nat} {s s1 : St ω} {out : Out}
    (h200 : o.bad 200 = false) (h500 : o.bad 500 = false) (h : nx (s.log (.next i)).bump = (out, s1)) :
    exec o req nx i (recovery o) s =
      match out with
      | .ret => (.ret, recovered o none (s1.log (.back i)))
      | .panic v => (.ret, recovered o (some v) (s1.log (.thrown i)))
      | .fuel => (.fuel, s1) := by
  have key200 : ∀ s2 : St ω, exec o req nx i (.call .written (fun w =>
      if w = .bool false then .do (.writeHeader 200) .ret else .ret)) s2 = (.ret, sendStatus s2 200) := by
    intro s2
    cases hw : s2.ctx.written
    · simp [exec, doCall, hw, Prog.do]
      have := doCall_writeHeader (req := req) (s := s2) h200
      simp only [doCall] at this
      rw [this]
    · simp [exec, doCall, hw, sendStatus]
  have key500 : ∀ msg (s2 : St ω), exec o req nx i (.call .written (fun w =>
        let rest : Prog ω := if o.stable then .ret else .string 500 (o.crashText (.val msg)) .ret
        if w = .bool false then .do (.writeHeader 500) rest else rest)) s2 = (.ret, recovered o (some (.val msg)) s2) := by
    intro msg s2
    have hrest : ∀ s3 : St ω, s3.ctx.written = true →
        exec o req nx i (if o.stable then .ret else .string 500 (o.crashText (.val msg)) .ret) s3 =
        (.ret, if o.stable then s3 else { s3 with rw := ({ s3.rw with header := s3.rw.header.put kContentType mimeText } : Writer).write (o.crashText (.val msg)) }) := by
      intro s3 h3
      split
      · rfl
      · have e1 : s3.writeHeader o 500 = (false, s3) := St.writeHeader_written h3
        have e2 : ∀ s4 : St ω, s4.ctx.written = true → s4.write o (o.crashText (.val msg)) =
          (false, { s4 with rw := s4.rw.write (o.crashText (.val msg)) }) := fun s4 h4 => St.write_written h4
        simp only [Prog.string, Prog.data, Prog.do, exec, doCall, e1]
        rw [e2 _ (by exact h3)]
    have hr : recovered o (some (.val msg)) s2 = if o.stable then sendStatus s2 500 else { sendStatus s2 500 with rw := ({ (sendStatus s2 500).rw with header := (sendStatus s2 500).rw.header.put kContentType mimeText } : Writer).write (o.crashText (.val msg)) } := rfl
    rw [hr, ← hrest _ (sendStatus_written s2 500)]
    cases hw : s2.ctx.written
    · have := doCall_writeHeader (req := req) (s := s2) h500
      have e : doCall o req s2 .written = (.ok (.bool false), s2) := by simp [doCall, hw]
      rw [exec, e]
      simp only [if_true, Prog.do]
      rw [exec, this]
    · have e : doCall o req s2 .written = (.ok (.bool true), s2) := by simp [doCall, hw]
      have e2 : sendStatus s2 500 = s2 := by simp [sendStatus, hw]
      rw [exec, e, e2]
      simp
  cases out with
  | fuel => simp [recovery, exec, h]
  | ret =>
    simp only [recovery, exec, h]
    exact key200 _
  | panic v =>
    simp only [recovery, exec, h]
    cases v with
    | nil => exact key200 _
    | val msg => exact key500 msg _

theorem callsIn_true (p : Prog ω) : CallsIn (fun _ => True) p := by
  induction p with
  | ret => trivial
  | panic v => trivial
  | next k ih => exact ih
  | call c k ih => exact ⟨trivial, ih⟩
  | scope b f ihb ihf => exact ⟨ihb, ihf⟩

/-- `Recovery` in a chain never panics, and never returns without a response. -/
theorem run_recovery (o : Oracle) (req : Req) (h200 : o.bad 200 = false) (h500 : o.bad 500 = false) (hs : List (Prog ω))
    (k : Nat) (hk : hs[k]? = some (recovery o)) (fuel : Nat) :
    ∀ s, (s.ctx.handlers = hs ∧ Event.crash k ∉ s.trace ∧ Event.stop k false ∉ s.trace) →
      ((run o req fuel s).2.ctx.handlers = hs ∧ Event.crash k ∉ (run o req fuel s).2.trace ∧
        Event.stop k false ∉ (run o req fuel s).2.trace) := by
  induction fuel with
  | zero => exact fun s hs => hs
  | succ fuel ih =>
    intro s hP
    simp only [run]
    rcases hh : s.ctx.handlers[s.ctx.index]? with _ | h
    · exact hP
    · simp only
      have hlog : ∀ (s : St ω) (e : Event), e ≠ .crash k → e ≠ .stop k false →
          (s.ctx.handlers = hs ∧ Event.crash k ∉ s.trace ∧ Event.stop k false ∉ s.trace) →
          ((s.log e).ctx.handlers = hs ∧ Event.crash k ∉ (s.log e).trace ∧ Event.stop k false ∉ (s.log e).trace) := by
        intro s e h1 h2 h3
        refine ⟨h3.1, ?_, ?_⟩
        · simp only [St.log, List.mem_append, List.mem_singleton, not_or]; exact ⟨h3.2.1, fun h => h1 h.symm⟩
        · simp only [St.log, List.mem_append, List.mem_singleton, not_or]; exact ⟨h3.2.2, fun h => h2 h.symm⟩
      have h1 := exec_inv o req (fun s => s.ctx.handlers = hs ∧ Event.crash k ∉ s.trace ∧ Event.stop k false ∉ s.trace)
        (fun _ => True) (run o req fuel)
        (fun s e he h => hlog s e (by rintro rfl; exact he) (by rintro rfl; exact he) h)
        (fun s h => h)
        (fun s c _ h => by
          obtain ⟨e1, e2, -, -⟩ := doCall_frame o req s c
          rw [e1, e2]; exact h)
        ih s.ctx.index h (callsIn_true h) (s.log (.start s.ctx.index))
        (hlog s _ (by simp) (by simp) hP)
      have h2 : s.ctx.index = k → (exec o req (run o req fuel) s.ctx.index h (s.log (.start s.ctx.index))).1.isPanic = false ∧
          ((exec o req (run o req fuel) s.ctx.index h (s.log (.start s.ctx.index))).1 = .ret →
           (exec o req (run o req fuel) s.ctx.index h (s.log (.start s.ctx.index))).2.ctx.written = true) := by
        intro hi
        have : h = recovery o := by
          rw [hP.1, hi, hk] at hh
          exact (Option.some.inj hh).symm
        subst this
        rcases hr : run o req fuel ((s.log (.start s.ctx.index)).log (.next s.ctx.index)).bump with ⟨out, s1⟩
        rw [recovery_exec h200 h500 hr]
        cases out with
        | ret => exact ⟨rfl, fun _ => recovered_written _ _ _⟩
        | panic v => exact ⟨rfl, fun _ => recovered_written _ _ _⟩
        | fuel => exact ⟨rfl, fun h => by cases h⟩
      rcases hr : exec o req (run o req fuel) s.ctx.index h (s.log (.start s.ctx.index)) with ⟨out, s1⟩
      rw [hr] at h1 h2
      cases out with
      | fuel => exact h1
      | panic v =>
        refine hlog s1 _ (fun he => ?_) (by simp) h1
        cases he
        exact absurd (h2 rfl).1 (by simp [Out.isPanic])
      | ret =>
        have h3 : ((s1.log (.stop s.ctx.index s1.ctx.written)).bump.ctx.handlers = hs ∧
            Event.crash k ∉ (s1.log (.stop s.ctx.index s1.ctx.written)).bump.trace ∧
            Event.stop k false ∉ (s1.log (.stop s.ctx.index s1.ctx.written)).bump.trace) := by
          refine hlog s1 _ (by simp) (fun he => ?_) h1
          injection he with e1 e2
          have := (h2 e1).2 rfl
          simp only at this
          rw [this] at e2; cases e2
        simp only
        split
        · exact h3
        · exact ih _ h3

theorem recovery_valid (o : Oracle) (h200 : o.bad 200 = false) (h500 : o.bad 500 = false) :
    CallsIn (ω := ω) (ValidCode o.bad) (recovery o) := by
  refine ⟨trivial, fun r => ?_⟩
  rcases r with _ | _ | m
  · refine ⟨trivial, fun r => ?_⟩
    dsimp only; split
    · exact ⟨h200, fun _ => trivial⟩
    · trivial
  · refine ⟨trivial, fun r => ?_⟩
    dsimp only; split
    · exact ⟨h200, fun _ => trivial⟩
    · trivial
  · have hrest : CallsIn (ω := ω) (ValidCode o.bad) (if o.stable then .ret else .string 500 (o.crashText (.val m)) .ret) := by
      split
      · trivial
      · exact ⟨h500, fun _ => ⟨trivial, fun _ => ⟨trivial, fun _ => trivial⟩⟩⟩
    refine ⟨trivial, fun r => ?_⟩
    dsimp only; split
    · exact ⟨h500, fun _ => hrest⟩
    · exact hrest

theorem exec_no_next (o : Oracle) (req : Req) (nx : St ω → Out × St ω) (i : Nat) (p : Prog ω) :
    ∀ s, Decent o req false p → (exec o req nx i p s).1 = .ret ∧
      (exec o req nx i p s).2.ctx.handlers = s.ctx.handlers ∧ (exec o req nx i p s).2.ctx.index = s.ctx.index ∧
      (s.ctx.written = true → (exec o req nx i p s).2.ctx.written = true) := by
  induction p with
  | ret => intro s _; exact ⟨rfl, rfl, rfl, id⟩
  | panic v => intro s h; exact h.elim
  | next k ih => intro s h; exact absurd h.1 (by simp)
  | call c k ih =>
    intro s h
    obtain ⟨e1, -, e3, e4⟩ := doCall_frame o req s c
    obtain ⟨r, hr⟩ := h.1 s
    rcases hd : doCall o req s c with ⟨out, s1⟩
    rw [hd] at hr e1 e3 e4
    simp only at hr e1 e3 e4
    subst hr
    obtain ⟨g1, g2, g3, g4⟩ := ih r s1 (h.2 r)
    simp only [exec, hd]
    refine ⟨g1, by rw [g2, e1], by rw [g3, e3], fun hw => g4 ?_⟩
    rcases e4 with e4 | e4
    · rw [e4, hw]
    · exact e4
  | scope b f ihb ihf =>
    intro s h
    have h' : Decent o req false b ∧ Decent o req false (f none) := by rcases h with h | h <;> exact h
    obtain ⟨e1, e2, e3, e4⟩ := ihb s h'.1
    rcases hd : exec o req nx i b s with ⟨out, s1⟩
    rw [hd] at e1 e2 e3 e4
    simp only at e1 e2 e3 e4
    subst e1
    obtain ⟨g1, g2, g3, g4⟩ := ihf none s1 h'.2
    simp only [exec, hd]
    exact ⟨g1, by rw [g2, e2], by rw [g3, e3], fun hw => g4 (e4 hw)⟩

/-- Code that does not panic itself and calls `Next` at most once, against a `Next` that does not panic and leaves a
response written. -/
theorem exec_decent (o : Oracle) (req : Req) (nx : St ω → Out × St ω) (hs : List (Prog ω)) (j : Nat)
    (hnx : ∀ s, s.ctx.handlers = hs → s.ctx.index = j + 1 → (nx s).1 = .ret ∧ (nx s).2.ctx.written = true)
    (i : Nat) (p : Prog ω) : ∀ s, Decent o req true p → s.ctx.handlers = hs → s.ctx.index = j →
    (exec o req nx i p s).1 = .ret ∧
    ((exec o req nx i p s).2.ctx.written = true ∨
      ((exec o req nx i p s).2.ctx.index = j ∧ (exec o req nx i p s).2.ctx.handlers = hs)) := by
  induction p with
  | ret => intro s _ h1 h2; exact ⟨rfl, .inr ⟨h2, h1⟩⟩
  | panic v => intro s h; exact h.elim
  | next k ih =>
    intro s h h1 h2
    obtain ⟨e1, e2⟩ := hnx (s.log (.next i)).bump h1 (by simp [St.bump, St.log, h2])
    rcases hd : nx (s.log (.next i)).bump with ⟨out, s1⟩
    rw [hd] at e1 e2
    simp only at e1 e2
    subst e1
    simp only [exec, hd]
    obtain ⟨g1, -, -, g4⟩ := exec_no_next o req nx i k (s1.log (.back i)) h.2
    exact ⟨g1, .inl (g4 e2)⟩
  | call c k ih =>
    intro s h h1 h2
    obtain ⟨e1, -, e3, e4⟩ := doCall_frame o req s c
    obtain ⟨r, hr⟩ := h.1 s
    rcases hd : doCall o req s c with ⟨out, s1⟩
    rw [hd] at hr e1 e3 e4
    simp only at hr e1 e3 e4
    subst hr
    simp only [exec, hd]
    exact ih r s1 (h.2 r) (by rw [e1, h1]) (by rw [e3, h2])
  | scope b f ihb ihf =>
    intro s h h1 h2
    rcases h with ⟨hb, hf⟩ | ⟨hb, hf⟩
    · obtain ⟨e1, e2⟩ := ihb s hb h1 h2
      rcases hd : exec o req nx i b s with ⟨out, s1⟩
      rw [hd] at e1 e2
      simp only at e1 e2
      subst e1
      simp only [exec, hd]
      obtain ⟨g1, g2, g3, g4⟩ := exec_no_next o req nx i (f none) s1 hf
      refine ⟨g1, e2.imp g4 fun e => ⟨by rw [g3]; exact e.1, by rw [g2]; exact e.2⟩⟩
    · obtain ⟨e1, e2, e3, e4⟩ := exec_no_next o req nx i b s hb
      rcases hd : exec o req nx i b s with ⟨out, s1⟩
      rw [hd] at e1 e2 e3 e4
      simp only at e1 e2 e3 e4
      subst e1
      simp only [exec, hd]
      exact ihf none s1 hf (by rw [e2, h1]) (by rw [e3, h2])

/-- A chain of decent handlers in front of `Recovery` never panics. -/
theorem run_decent (o : Oracle) (req : Req) (h200 : o.bad 200 = false) (h500 : o.bad 500 = false)
    (pre post : List (Prog ω)) (hp : ∀ p ∈ pre, Decent o req true p) (d : Nat) :
    ∀ s, s.ctx.handlers = pre ++ recovery o :: post → s.ctx.index + d = pre.length →
      (runAll o req s).1 = .ret ∧
      ((runAll o req s).2.ctx.written = true) := by
  induction d with
  | zero =>
    intro s hs hi
    have hi' : s.ctx.index = pre.length := by omega
    rw [runAll_unfold, hs, hi']
    rw [List.getElem?_append_right (Nat.le_refl _)]
    simp only [Nat.sub_self, List.getElem?_cons_zero]
    rcases hr : runAll o req ((s.log (.start pre.length)).log (.next pre.length)).bump with ⟨out, s1⟩
    rw [recovery_exec h200 h500 hr]
    have hnf := (runAll_drives o req _ ((s.log (.start pre.length)).log (.next pre.length)).bump rfl (by omega)).1
    rw [hr] at hnf
    have hw : ∀ r (s2 : St ω) k, ((recovered o r s2).log (.stop k (recovered o r s2).ctx.written)).bump.ctx.written = true :=
      fun r s2 k => recovered_written o r s2
    cases out with
    | fuel => exact absurd rfl hnf
    | ret => simp only [hw, if_true]; exact ⟨trivial, trivial⟩
    | panic v => simp only [hw, if_true]; exact ⟨trivial, trivial⟩
  | succ d ih =>
    intro s hs hi
    have hlt : s.ctx.index < pre.length := by omega
    rw [runAll_unfold, hs, List.getElem?_append_left hlt, List.getElem?_eq_getElem hlt]
    simp only
    obtain ⟨e1, e2⟩ := exec_decent o req (runAll o req) (pre ++ recovery o :: post) s.ctx.index
      (fun s' h1 h2 => ih s' h1 (by omega)) s.ctx.index pre[s.ctx.index] (s.log (.start s.ctx.index))
      (hp _ (List.getElem_mem hlt)) hs rfl
    rcases hd : exec o req (runAll o req) s.ctx.index pre[s.ctx.index] (s.log (.start s.ctx.index)) with ⟨out, s1⟩
    rw [hd] at e1 e2
    simp only at e1 e2
    subst e1
    simp only
    have ew : (s1.log (.stop s.ctx.index s1.ctx.written)).bump.ctx.written = s1.ctx.written := rfl
    rw [ew]
    rcases e2 with e2 | e2
    · simp only [e2, if_true]; exact ⟨trivial, e2⟩
    · split
      · rename_i hw; exact ⟨rfl, hw⟩
      · exact ih _ e2.2 (by simp only [St.bump, St.log]; omega)

end Water
