import Verif.Model.Mount
import Verif.Spec.Mount
import Verif.Lemmas.Chain
import Verif.Props.Mount
/- C161 for handlers that also use `ctx.ResponseWriter`, as `File` does. -/
namespace Water
open Spec
variable {ω : Type}

private theorem first_status {l : List WEvent} (h : l ≠ []) (x : Bool) (c : Int) (hd : Header) : firstStatus (l ++ [.status x c hd]) = firstStatus l := by
  cases l with
  | nil => exact absurd rfl h
  | cons y ys => simp [firstStatus, isBody]

private theorem first_body {l : List WEvent} (h : l ≠ []) (d : Str) : firstStatus (l ++ [.body d]) = firstStatus l ++ [.body d] := by
  cases l with
  | nil => exact absurd rfl h
  | cons y ys => simp [firstStatus, isBody]

private theorem first_nil {l : List WEvent} : firstStatus l = [] ↔ l = [] := by
  cases l <;> simp [firstStatus]

/-- the state with the superfluous status lines dropped -/
private def thin (s : St ω) : St ω := { s with rw := { s.rw with log := firstStatus s.rw.log } }

/-- `m` is the mounted state for the state `s` of the application by itself -/
private structure Rel (hs : List (Prog ω)) (s : St ω) (m : InSt ω) : Prop where
  inn : m.inn = thin s
  outer : m.outer.written = true ↔ s.rw.log ≠ []
  sent : s.ctx.written = true → s.rw.log ≠ []
  hs : s.ctx.handlers = hs

private theorem rel_outerWriteHeader {o : Oracle} {hs : List (Prog ω)} {s : St ω} {m : InSt ω} (h : Rel hs s m) {code : Int} (hc : o.bad code = false) :
    (s.rw.writeHeader o.bad code).1 = false ∧ (s.rw.writeHeader o.bad code).2.log ≠ [] ∧
      (m.outerWriteHeader o code).1 = false ∧ Rel hs { s with rw := (s.rw.writeHeader o.bad code).2 } (m.outerWriteHeader o code).2 := by
  have e : s.rw.writeHeader o.bad code = (false, { s.rw with log := s.rw.log ++ [.status true code s.rw.header] }) := by
    simp [Writer.writeHeader, hc]
  have hne : s.rw.log ++ [WEvent.status true code s.rw.header] ≠ [] := by simp
  rw [e]
  refine ⟨rfl, hne, ?_⟩
  by_cases hw : m.outer.written = true
  · have hl := h.outer.1 hw
    have e2 : m.outerWriteHeader o code = (false, m) := by
      unfold InSt.outerWriteHeader
      rw [if_pos hw]
    rw [e2]
    refine ⟨rfl, ?_, ⟨fun _ => hne, fun _ => hw⟩, fun _ => hne, h.hs⟩
    rw [h.inn]
    simp only [thin, first_status hl]
  · have hl : s.rw.log = [] := Classical.not_not.1 (fun hl => hw (h.outer.2 hl))
    have e2 : m.outerWriteHeader o code =
        (false, { inn := { m.inn with rw := { m.inn.rw with log := m.inn.rw.log ++ [.status true code m.inn.rw.header] } }, outer := ⟨true, code⟩ }) := by
      unfold InSt.outerWriteHeader
      rw [if_neg hw]
      simp [Writer.writeHeader, hc]
    rw [e2]
    refine ⟨rfl, ?_, ⟨fun _ => hne, fun _ => rfl⟩, fun _ => hne, h.hs⟩
    simp only [h.inn, thin, hl]
    rfl

private theorem rel_outerWrite {o : Oracle} {hs : List (Prog ω)} {s : St ω} {m : InSt ω} (h : Rel hs s m) (hl : s.rw.log ≠ []) (d : Str) :
    (s.rw.write d).log ≠ [] ∧ (m.outerWrite o d).1 = false ∧ Rel hs { s with rw := s.rw.write d } (m.outerWrite o d).2 := by
  have he : s.rw.log.isEmpty = false := by
    cases hx : s.rw.log with
    | nil => exact absurd hx hl
    | cons => rfl
  have he2 : (firstStatus s.rw.log).isEmpty = false := by
    cases hx : firstStatus s.rw.log with
    | nil => exact absurd (first_nil.1 hx) hl
    | cons => rfl
  have e : s.rw.write d = { s.rw with log := s.rw.log ++ [.body d] } := by simp only [Writer.write, he]; rfl
  have hne : s.rw.log ++ [WEvent.body d] ≠ [] := by simp
  have e2 : m.outerWrite o d = (false, { m with inn := { m.inn with rw := m.inn.rw.write d } }) := by
    unfold InSt.outerWrite
    rw [if_pos (h.outer.2 hl)]
  rw [e, e2]
  refine ⟨hne, rfl, ?_, ⟨fun _ => hne, fun _ => h.outer.2 hl⟩, fun _ => hne, h.hs⟩
  simp only [h.inn, thin, Writer.write, he2, first_body hl]
  rfl

private theorem rel_writeHeader {o : Oracle} {hs : List (Prog ω)} {s : St ω} {m : InSt ω} (h : Rel hs s m) {code : Int} (hc : o.bad code = false) :
    (s.writeHeader o code).1 = false ∧ (s.writeHeader o code).2.rw.log ≠ [] ∧ (m.writeHeader o code).1 = false ∧
      Rel hs (s.writeHeader o code).2 (m.writeHeader o code).2 := by
  have hcw : m.inn.ctx.written = s.ctx.written := by rw [h.inn]; rfl
  unfold St.writeHeader InSt.writeHeader
  by_cases hw : s.ctx.written = true
  · rw [if_pos hw, if_pos (hcw.trans hw)]
    exact ⟨rfl, h.sent hw, rfl, h⟩
  · rw [if_neg hw, if_neg (by rw [hcw]; exact hw)]
    have hw' : s.ctx.written = false := by simpa using hw
    -- both contexts note the status; the relation of the logs stays
    have e : s.rw.writeHeader o.bad code = (false, { s.rw with log := s.rw.log ++ [.status true code s.rw.header] }) := by
      simp [Writer.writeHeader, hc]
    have hne : s.rw.log ++ [WEvent.status true code s.rw.header] ≠ [] := by simp
    simp only [e]
    refine ⟨trivial, hne, ?_⟩
    by_cases hm : m.outer.written = true
    · have hl := h.outer.1 hm
      simp only [InSt.outerWriteHeader, hm, if_true]
      refine ⟨trivial, ?_, ⟨fun _ => hne, fun _ => hm⟩, fun _ => hne, h.hs⟩
      simp only [h.inn, thin, first_status hl]
    · have hl : s.rw.log = [] := Classical.not_not.1 (fun hl => hm (h.outer.2 hl))
      simp only [InSt.outerWriteHeader, hm, Bool.false_eq_true, if_false, Writer.writeHeader, hc, Bool.and_false]
      refine ⟨trivial, ?_, ⟨fun _ => hne, fun _ => rfl⟩, fun _ => hne, h.hs⟩
      simp only [h.inn, thin, hl]
      rfl

private theorem rel_header {hs : List (Prog ω)} {s : St ω} {m : InSt ω} (h : Rel hs s m) (hd : Header) :
    Rel hs { s with rw := { s.rw with header := hd } } { m with inn := { m.inn with rw := { m.inn.rw with header := hd } } } :=
  ⟨by simp only [h.inn]; rfl, h.outer, h.sent, h.hs⟩

private theorem rel_write {o : Oracle} (h200 : o.bad 200 = false) {hs : List (Prog ω)} {s : St ω} {m : InSt ω} (h : Rel hs s m) (d : Str) :
    (s.write o d).1 = false ∧ (s.write o d).2.rw.log ≠ [] ∧ (m.write o d).1 = false ∧ Rel hs (s.write o d).2 (m.write o d).2 := by
  have hcw : m.inn.ctx.written = s.ctx.written := by rw [h.inn]; rfl
  have hhd : m.inn.rw.header = s.rw.header := by rw [h.inn]; rfl
  have key : ∀ (s : St ω) (m : InSt ω), Rel hs s m →
      (match s.writeHeader o 200 with
        | (true, s) => (true, s)
        | (false, s) => (false, ({ s with rw := s.rw.write d } : St ω))).1 = false ∧
      (match s.writeHeader o 200 with
        | (true, s) => (true, s)
        | (false, s) => (false, ({ s with rw := s.rw.write d } : St ω))).2.rw.log ≠ [] ∧
      (match m.writeHeader o 200 with
        | (true, m) => (true, m)
        | (false, m) => m.outerWrite o d).1 = false ∧
      Rel hs (match s.writeHeader o 200 with
        | (true, s) => (true, s)
        | (false, s) => (false, ({ s with rw := s.rw.write d } : St ω))).2
        (match m.writeHeader o 200 with
        | (true, m) => (true, m)
        | (false, m) => m.outerWrite o d).2 := by
    intro s m h
    obtain ⟨h1, h2, h3, h4⟩ := rel_writeHeader (o := o) h h200
    rcases hr : s.writeHeader o 200 with ⟨p, s1⟩
    rcases hr' : m.writeHeader o 200 with ⟨p', m1⟩
    rw [hr] at h1 h2 h4
    rw [hr'] at h3 h4
    simp only at h1 h3
    subst h1 h3
    obtain ⟨g1, g2, g3⟩ := rel_outerWrite (o := o) h4 h2 d
    exact ⟨rfl, g1, g2, g3⟩
  unfold St.write InSt.write
  by_cases hw : s.ctx.written = true
  · rw [if_pos hw, if_pos (hcw.trans hw)]
    obtain ⟨g1, g2, g3⟩ := rel_outerWrite (o := o) h (h.sent hw) d
    exact ⟨rfl, g1, g2, g3⟩
  · have hm : ¬ m.inn.ctx.written = true := by rw [hcw]; exact hw
    rw [if_neg hw, if_neg hm]
    by_cases hc : d.length > 0 ∧ s.rw.header.get kContentType = []
    · have hc' : d.length > 0 ∧ m.inn.rw.header.get kContentType = [] := by rw [hhd]; exact hc
      simp only [if_pos hc, if_pos hc']
      have hk := rel_header h (s.rw.header.put kContentType (o.detect d))
      rw [← hhd] at hk
      have := key _ _ hk
      rw [hhd] at this
      rw [hhd]
      exact this
    · have hc' : ¬ (d.length > 0 ∧ m.inn.rw.header.get kContentType = []) := by rw [hhd]; exact hc
      simp only [if_neg hc, if_neg hc']
      exact key _ _ h

private theorem doCall_thin (o : Oracle) (req : Req) (s : St ω) (c : Call ω) (hc : answers c = false) :
    doCall o req (thin s) c = ((doCall o req s c).1, thin (doCall o req s c).2) ∧ (doCall o req s c).2.rw.log = s.rw.log ∧
      (doCall o req s c).2.ctx.written = s.ctx.written := by
  have hp : ∀ x, s.parseForm o req = x → (thin s).parseForm o req = (x.1, thin x.2) ∧ x.2.rw.log = s.rw.log ∧ x.2.ctx.written = s.ctx.written := by
    rintro x rfl
    unfold St.parseForm
    have e : (thin s).ctx = s.ctx := rfl
    rw [e]
    split <;> exact ⟨rfl, rfl, rfl⟩
  cases c with
  | writeHeader code => cases hc
  | write d => cases hc
  | rawWriteHeader code => cases hc
  | rawWrite d => cases hc
  | param k =>
    simp only [doCall]
    have e : (thin s).ctx = s.ctx := rfl
    rw [e]
    split <;> exact ⟨rfl, rfl, rfl⟩
  | envSet k v =>
    simp only [doCall]
    have e : (thin s).ctx = s.ctx := rfl
    rw [e]
    split <;> exact ⟨rfl, rfl, rfl⟩
  | envGet k =>
    simp only [doCall]
    have e : (thin s).ctx = s.ctx := rfl
    rw [e]
    split <;> exact ⟨rfl, rfl, rfl⟩
  | readBody k =>
    simp only [doCall]
    have e : (thin s).body = s.body := rfl
    rw [e]
    split <;> exact ⟨rfl, rfl, rfl⟩
  | parseForm =>
    simp only [doCall]
    rcases hr : s.parseForm o req with ⟨p, s1⟩
    obtain ⟨h1, h2, h3⟩ := hp _ hr
    rw [h1]
    cases p <;> exact ⟨rfl, h2, h3⟩
  | readForm f =>
    simp only [doCall]
    rcases hr : s.parseForm o req with ⟨p, s1⟩
    obtain ⟨h1, h2, h3⟩ := hp _ hr
    rw [h1]
    cases p <;> exact ⟨rfl, h2, h3⟩
  | _ => exact ⟨rfl, rfl, rfl⟩

private theorem rel_doCall {o : Oracle} (h200 : o.bad 200 = false) {req : Req} {hs : List (Prog ω)} {s : St ω} {m : InSt ω} (h : Rel hs s m) (c : Call ω)
    (hv : ValidCode o.bad c) (hraw : s.rw.log ≠ [] ∨ ∀ d, c ≠ .rawWrite d) :
    (doCallIn o req m c).1 = (doCall o req s c).1 ∧ Rel hs (doCall o req s c).2 (doCallIn o req m c).2 ∧
      (s.rw.log ≠ [] ∨ answers c = true → (doCall o req s c).2.rw.log ≠ []) := by
  have other : ∀ c : Call ω, answers c = false → doCallIn o req m c = ((doCall o req m.inn c).1, { m with inn := (doCall o req m.inn c).2 }) →
      (doCallIn o req m c).1 = (doCall o req s c).1 ∧ Rel hs (doCall o req s c).2 (doCallIn o req m c).2 ∧
        (s.rw.log ≠ [] ∨ answers c = true → (doCall o req s c).2.rw.log ≠ []) := by
    intro c hc e
    obtain ⟨h1, h2, h3⟩ := doCall_thin o req s c hc
    rw [e, h.inn, h1]
    refine ⟨rfl, ⟨rfl, by rw [h2]; exact h.outer, by rw [h2, h3]; exact h.sent, (doCall_frame o req s c).1.trans h.hs⟩, ?_⟩
    rintro (hl | ha)
    · rw [h2]; exact hl
    · rw [hc] at ha; cases ha
  cases c with
  | writeHeader code =>
    obtain ⟨h1, h2, h3, h4⟩ := rel_writeHeader (o := o) h (code := code) hv
    simp only [doCall, doCallIn, InSt.done]
    rcases hr : s.writeHeader o code with ⟨p, s1⟩
    rw [hr] at h1 h2 h4
    simp only at h1
    subst h1
    rw [h3]
    exact ⟨rfl, h4, fun _ => h2⟩
  | write d =>
    obtain ⟨h1, h2, h3, h4⟩ := rel_write (o := o) h200 h d
    simp only [doCall, doCallIn, InSt.done]
    rcases hr : s.write o d with ⟨p, s1⟩
    rw [hr] at h1 h2 h4
    simp only at h1
    subst h1
    rw [h3]
    exact ⟨rfl, h4, fun _ => h2⟩
  | rawWriteHeader code =>
    obtain ⟨h1, h2, h3, h4⟩ := rel_outerWriteHeader (o := o) h (code := code) hv
    simp only [doCall, doCallIn, InSt.done]
    rcases hr : s.rw.writeHeader o.bad code with ⟨p, s1⟩
    rw [hr] at h1 h2 h4
    simp only at h1
    subst h1
    rw [h3]
    exact ⟨rfl, h4, fun _ => h2⟩
  | rawWrite d =>
    have hl : s.rw.log ≠ [] := by
      rcases hraw with hl | hl
      · exact hl
      · exact absurd rfl (hl d)
    obtain ⟨h1, h2, h3⟩ := rel_outerWrite (o := o) h hl d
    simp only [doCall, doCallIn, InSt.done]
    rw [h2]
    exact ⟨rfl, h3, fun _ => h1⟩
  | _ => exact other _ rfl rfl

private theorem rel_exec {o : Oracle} (h200 : o.bad 200 = false) {req : Req} {hs : List (Prog ω)} {nx : St ω → Out × St ω} {nxM : InSt ω → Out × InSt ω}
    (hnx : ∀ s m, Rel hs s m → (nxM m).1 = (nx s).1 ∧ Rel hs (nx s).2 (nxM m).2 ∧ (s.rw.log ≠ [] → (nx s).2.rw.log ≠ [])) (i : Nat) (p : Prog ω) :
    ∀ (b : Bool), StatusFirst o.bad b p → ∀ s m, Rel hs s m → (b = true → s.rw.log ≠ []) →
      (execIn o req nxM i p m).1 = (exec o req nx i p s).1 ∧ Rel hs (exec o req nx i p s).2 (execIn o req nxM i p m).2 ∧
        (s.rw.log ≠ [] → (exec o req nx i p s).2.rw.log ≠ []) := by
  have rlog : ∀ {s : St ω} {m : InSt ω} (e : Event), Rel hs s m → Rel hs (s.log e) (m.log e) := by
    intro s m e h
    exact ⟨by simp only [InSt.log, h.inn]; rfl, h.outer, h.sent, h.hs⟩
  have rbump : ∀ {s : St ω} {m : InSt ω}, Rel hs s m → Rel hs s.bump m.bump := by
    intro s m h
    exact ⟨by simp only [InSt.bump, h.inn]; rfl, h.outer, h.sent, h.hs⟩
  induction p with
  | ret => exact fun b _ s m h _ => ⟨rfl, h, id⟩
  | panic v => exact fun b _ s m h _ => ⟨rfl, h, id⟩
  | next k ih =>
    intro b ha s m h hb
    simp only [exec, execIn]
    obtain ⟨h1, h2, h3⟩ := hnx _ _ (rbump (rlog (.next i) h))
    rcases hr : nx (s.log (.next i)).bump with ⟨out, s1⟩
    rcases hr' : nxM (m.log (.next i)).bump with ⟨out', m1⟩
    rw [hr] at h1 h2 h3
    rw [hr'] at h1 h2
    simp only at h1
    subst h1
    cases out' with
    | fuel => exact ⟨rfl, h2, h3⟩
    | panic v => exact ⟨rfl, rlog _ h2, h3⟩
    | ret =>
      obtain ⟨g1, g2, g3⟩ := ih b ha (s1.log (.back i)) (m1.log (.back i)) (rlog _ h2) (fun hbt => h3 (hb hbt))
      exact ⟨g1, g2, fun hl => g3 (h3 hl)⟩
  | call c k ih =>
    intro b ha s m h hb
    obtain ⟨hv, hraw, hk⟩ := ha
    simp only [exec, execIn]
    obtain ⟨h1, h2, h3⟩ := rel_doCall (o := o) h200 (req := req) h c hv (hraw.imp hb id)
    rcases hr : doCall o req s c with ⟨out, s1⟩
    rcases hr' : doCallIn o req m c with ⟨out', m1⟩
    rw [hr] at h1 h2 h3
    rw [hr'] at h1 h2
    simp only at h1
    subst h1
    cases out' with
    | error v => exact ⟨rfl, h2, fun hl => h3 (.inl hl)⟩
    | ok r =>
      obtain ⟨g1, g2, g3⟩ := ih r (b || answers c) (hk r) s1 m1 h2 (fun hbt => by
        rcases Bool.or_eq_true_iff.1 hbt with hbt | hbt
        · exact h3 (.inl (hb hbt))
        · exact h3 (.inr hbt))
      exact ⟨g1, g2, fun hl => g3 (h3 (.inl hl))⟩
  | scope bd f ihb ihf =>
    intro b ha s m h hb
    simp only [exec, execIn]
    obtain ⟨h1, h2, h3⟩ := ihb b ha.1 s m h hb
    rcases hr : exec o req nx i bd s with ⟨out, s1⟩
    rcases hr' : execIn o req nxM i bd m with ⟨out', m1⟩
    rw [hr] at h1 h2 h3
    rw [hr'] at h1 h2
    simp only at h1
    subst h1
    cases out' with
    | fuel => exact ⟨rfl, h2, h3⟩
    | ret =>
      obtain ⟨g1, g2, g3⟩ := ihf none b (ha.2 _) s1 m1 h2 (fun hbt => h3 (hb hbt))
      exact ⟨g1, g2, fun hl => g3 (h3 hl)⟩
    | panic v =>
      obtain ⟨g1, g2, g3⟩ := ihf (some v) b (ha.2 _) s1 m1 h2 (fun hbt => h3 (hb hbt))
      exact ⟨g1, g2, fun hl => g3 (h3 hl)⟩

private theorem rel_run {o : Oracle} (h200 : o.bad 200 = false) {req : Req} {hs : List (Prog ω)} (hc : ∀ p ∈ hs, StatusFirst o.bad false p) :
    ∀ (fuel : Nat) (s : St ω) (m : InSt ω), Rel hs s m →
      (runIn o req fuel m).1 = (run o req fuel s).1 ∧ Rel hs (run o req fuel s).2 (runIn o req fuel m).2 ∧
        (s.rw.log ≠ [] → (run o req fuel s).2.rw.log ≠ [])
  | 0, s, m, h => ⟨rfl, h, id⟩
  | fuel + 1, s, m, h => by
    have rlog : ∀ {s : St ω} {m : InSt ω} (e : Event), Rel hs s m → Rel hs (s.log e) (m.log e) := by
      intro s m e h
      exact ⟨by simp only [InSt.log, h.inn]; rfl, h.outer, h.sent, h.hs⟩
    have rbump : ∀ {s : St ω} {m : InSt ω}, Rel hs s m → Rel hs s.bump m.bump := by
      intro s m h
      exact ⟨by simp only [InSt.bump, h.inn]; rfl, h.outer, h.sent, h.hs⟩
    have ec : m.inn.ctx = s.ctx := by rw [h.inn]; rfl
    simp only [run, runIn, ec]
    rcases hh : s.ctx.handlers[s.ctx.index]? with _ | p
    · exact ⟨rfl, h, id⟩
    · simp only
      obtain ⟨h1, h2, h3⟩ := rel_exec h200 (req := req) (fun s m h => rel_run h200 hc fuel s m h) s.ctx.index p false
        (hc p (by rw [← h.hs]; exact List.mem_of_getElem? hh)) _ _ (rlog (.start s.ctx.index) h) (by simp)
      rcases hr : exec o req (run o req fuel) s.ctx.index p (s.log (.start s.ctx.index)) with ⟨out, s1⟩
      rcases hr' : execIn o req (runIn o req fuel) s.ctx.index p (m.log (.start s.ctx.index)) with ⟨out', m1⟩
      rw [hr] at h1 h2 h3
      rw [hr'] at h1 h2
      simp only at h1
      subst h1
      cases out' with
      | fuel => exact ⟨rfl, h2, h3⟩
      | panic v => exact ⟨rfl, rlog _ h2, h3⟩
      | ret =>
        have ec1 : m1.inn.ctx = s1.ctx := by rw [h2.inn]; rfl
        have hr2 := rbump (rlog (.stop s.ctx.index s1.ctx.written) h2)
        have ew : (m1.log (.stop s.ctx.index s1.ctx.written)).bump.inn.ctx.written = (s1.log (.stop s.ctx.index s1.ctx.written)).bump.ctx.written := by
          rw [hr2.inn]; rfl
        simp only [ec1, ew]
        split
        · exact ⟨rfl, hr2, h3⟩
        · obtain ⟨g1, g2, g3⟩ := rel_run h200 hc fuel _ _ hr2
          exact ⟨g1, g2, fun hl => g3 (h3 hl)⟩

/-- A mounted application whose handlers send valid status codes, and write to `ctx.ResponseWriter` only after a status line, as `File` does,
ends and does what it does by itself, and sends the same but for the status lines after the first, which net/http ignores. The outer context knows
whether it answered. -/
theorem C161_raw (rx : Regex) (o : Oracle) (e : Engine (Prog ω)) (c : Ctx ω) (req : Req) (s : St ω) (hw : s.ctx.written = false) (hl : s.rw.log = [])
    (hcodes : o.bad 200 = false ∧ o.bad 404 = false ∧ o.bad 405 = false ∧ o.bad 406 = false)
    (hn : ∀ i, ∀ n, (lookup rx e i req.path).1 = some n → ∀ p ∈ n.handlers, StatusFirst o.bad false p)
    (hf : ∀ p ∈ e.noFound, StatusFirst o.bad false p) :
    (mounted rx o e c req s).1 = (serve rx o e c req s.rw s.body s.world).out ∧
      (mounted rx o e c req s).2.rw = { (serve rx o e c req s.rw s.body s.world).rw with
        log := firstStatus (serve rx o e c req s.rw s.body s.world).rw.log } ∧
      (mounted rx o e c req s).2.world = (serve rx o e c req s.rw s.body s.world).world ∧
      ((mounted rx o e c req s).2.ctx.written = true ↔ (serve rx o e c req s.rw s.body s.world).rw.log ≠ []) := by
  obtain ⟨h200, h404, h405, h406⟩ := hcodes
  have start : ∀ ctx : Ctx ω, ctx.written = false → Rel ctx.handlers ⟨ctx, s.rw, s.body, [], s.world, [], []⟩
      ({ inn := ⟨ctx, s.rw, s.body, [], s.world, [], []⟩, outer := { written := s.ctx.written, status := s.ctx.status } } : InSt ω) := by
    intro ctx h
    refine ⟨?_, ?_, ?_, rfl⟩
    · simp only [thin, hl, firstStatus]
      cases hrw : s.rw with
      | mk hd lg =>
        rw [hrw] at hl
        simp only at hl
        rw [hl]
    · simp [hw, hl]
    · simp [h]
  have gate : ∀ code, o.bad code = false →
      s.rw.writeHeader o.bad code = (false, { s.rw with log := [.status true code s.rw.header] }) := by
    intro code hc
    simp [Writer.writeHeader, hc, hl]
  unfold mounted serve
  simp only
  by_cases hg : (!protoAtLeast11 req || req.requestURI == b!"*" || req.method == b!"CONNECT") = true
  · rw [if_pos hg, if_pos hg]
    simp only [InSt.outerWriteHeader, hw, Bool.false_eq_true, if_false, gate 406 h406]
    refine ⟨trivial, rfl, trivial, ?_⟩
    simp
  · rw [if_neg hg, if_neg hg]
    rcases hi : methodIndex req.method with _ | i
    · simp only [InSt.outerWriteHeader, hw, Bool.false_eq_true, if_false, gate 405 h405]
      refine ⟨trivial, rfl, trivial, ?_⟩
      simp
    · simp only [serveRouted]
      rcases hch : chainFor e (lookup rx e i req.path).1 with _ | hs
      · simp only
        obtain ⟨h1, h2, h3, h4⟩ := rel_writeHeader (o := o) (start { prepare c c.handlers none (lookup rx e i req.path).2 with environ := c.environ } rfl)
          (code := 404) h404
        have hwo : ∀ s0 : St ω, (s0.writeHeader o 404).2.world = s0.world := by
          intro s0
          simp only [St.writeHeader]
          split <;> rfl
        refine ⟨?_, ?_, ?_, h4.outer⟩
        · simp only [h1, h3]
        · rw [h4.inn]; rfl
        · rw [h4.inn]; exact hwo _
      · simp only
        have hall : ∀ p ∈ hs, StatusFirst o.bad false p := by
          unfold chainFor at hch
          rcases hlk : (lookup rx e i req.path).1 with _ | n
          · rw [hlk] at hch
            simp only at hch
            split at hch
            · cases hch; exact hf
            · cases hch
          · rw [hlk] at hch
            cases hch
            exact hn i n hlk
        obtain ⟨h1, h2, _⟩ := rel_run h200 (req := req) hall (hs.length + 1) _ _
          (start (prepare c hs ((lookup rx e i req.path).1.map (·.uri)) (lookup rx e i req.path).2) rfl)
        refine ⟨h1, ?_, ?_, h2.outer⟩
        · rw [h2.inn]; rfl
        · rw [h2.inn]; rfl

namespace Demo

/-- a handler that sends a file and then tries to answer again -/
def fileThen : Prog Unit := .file 206 id b!"data" (.do (.writeHeader 200) .ret)

theorem fileThen_first : StatusFirst chainO.bad false fileThen := by
  refine ⟨trivial, .inr (fun d h => nomatch h), fun _ => ⟨rfl, .inr (fun d h => nomatch h), fun _ => ⟨trivial, .inl rfl, fun _ => ⟨rfl, .inr (fun d h => nomatch h), fun _ => trivial⟩⟩⟩⟩

/-- by itself an application with this handler hands two status lines to net/http; mounted it hands on one -/
theorem C161_raw_demo : (match runOps [] [.newRouter, .handle 0 mGET b!"/f" [.ctxFunc fileThen]] with
    | .ok heap => (match handler rx heap 0 [] with
      | .ok e => codesOf (ask e .new b!"/f") == [206, 200] && mountedSends false e b!"/f" == ([206], b!"data")
      | _ => false)
    | _ => false) = true := by
  decide +kernel

end Demo
end Water
