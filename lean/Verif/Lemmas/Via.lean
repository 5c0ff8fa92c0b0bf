import Verif.Model.ServeFile
import Verif.Spec.Response
/-
Code of net/http that writes to `ctx.ResponseWriter`, and the same code with `ctx` for its writer (C136).
-/
namespace Water
open Spec
variable {ω : Type}

/-- What the two runs lead to, begun in `s`: `s'` with `ctx.ResponseWriter`, `t'` with `ctx`. With `strict` the writers were told the same. -/
structure ViaSent (strict : Bool) (s s' t' : St ω) : Prop where
  keeps : s'.ctx = s.ctx
  quiet : s'.body = s.body ∧ s'.forms = s.forms ∧ s'.trace = s.trace ∧ s'.form = s.form
  ctx : t'.ctx = { s.ctx with written := true, status := t'.ctx.status }
  header : t'.rw.header = s'.rw.header
  rest : t'.body = s'.body ∧ t'.forms = s'.forms ∧ t'.world = s'.world ∧ t'.trace = s'.trace ∧ t'.form = s'.form
  code : received t'.rw.log = received s'.rw.log
  head : receivedHeader t'.rw.log = receivedHeader s'.rw.log
  bytes : receivedBody t'.rw.log = receivedBody s'.rw.log
  begun : received s'.rw.log ≠ none
  old : s.ctx.written = true → t'.ctx.status = s.ctx.status
  fresh : s.ctx.written = false → s.rw.log = [] → received t'.rw.log = some t'.ctx.status
  same : strict = true → s.ctx.written = false → s.rw.log = [] → t'.rw.log = s'.rw.log

/-- The code answers, and does so alike in both ways. -/
def Via (strict : Bool) (o : Oracle) (req : Req) (p : Prog ω) : Prop :=
  ∀ nx i (s : St ω), (s.ctx.written = true ∨ s.rw.log ≠ [] → received s.rw.log ≠ none) →
    ∃ s' t', exec o req nx i p s = (.ret, s') ∧ exec o req nx i p.viaCtx s = (.ret, t') ∧ ViaSent strict s s' t'

variable {strict : Bool} {o : Oracle} {req : Req}

/-- What was done before does not count. -/
theorem ViaSent.before {s u s' t' : St ω} (h : ViaSent strict u s' t') (hc : u.ctx = s.ctx) (hl : u.rw.log = s.rw.log)
    (hq : u.body = s.body ∧ u.forms = s.forms ∧ u.trace = s.trace ∧ u.form = s.form) : ViaSent strict s s' t' :=
  ⟨by rw [h.keeps, hc], ⟨h.quiet.1.trans hq.1, h.quiet.2.1.trans hq.2.1, h.quiet.2.2.1.trans hq.2.2.1, h.quiet.2.2.2.trans hq.2.2.2⟩, by rw [← hc]; exact h.ctx, h.header, h.rest, h.code, h.head, h.bytes, h.begun, by rw [← hc]; exact h.old,
    by rw [← hc, ← hl]; exact h.fresh, by rw [← hc, ← hl]; exact h.same⟩

theorem Via.header {f : Header → Header × Res} {k : Res → Prog ω} (h : ∀ hd, Via strict o req (k (f hd).2)) : Via strict o req (.call (.header f) k) := by
  intro nx i s hs
  obtain ⟨s', t', h1, h2, h3⟩ := h s.rw.header nx i { s with rw := { s.rw with header := (f s.rw.header).1 } } hs
  exact ⟨s', t', h1, h2, h3.before rfl rfl ⟨rfl, rfl, rfl, rfl⟩⟩

theorem Via.setHeader {a b : Str} {p : Prog ω} (h : Via strict o req p) : Via strict o req (.do (.setHeader a b) p) := by
  intro nx i s hs
  obtain ⟨s', t', h1, h2, h3⟩ := h nx i { s with rw := { s.rw with header := s.rw.header.put a b } } hs
  exact ⟨s', t', h1, h2, h3.before rfl rfl ⟨rfl, rfl, rfl, rfl⟩⟩

theorem Via.world {f : ω → ω × Res} {k : Res → Prog ω} (h : ∀ w, Via strict o req (k (f w).2)) : Via strict o req (.call (.world f) k) := by
  intro nx i s hs
  obtain ⟨s', t', h1, h2, h3⟩ := h s.world nx i { s with world := (f s.world).1 } hs
  exact ⟨s', t', h1, h2, h3.before rfl rfl ⟨rfl, rfl, rfl, rfl⟩⟩

theorem Via.texts {f : Req → List Str} {k : Res → Prog ω} (h : Via strict o req (k (.strs (f req)))) : Via strict o req (.call (.reqTexts f) k) :=
  fun nx i s hs => h nx i s hs

theorem Via.path {k : Res → Prog ω} (h : Via strict o req (k (.str req.path))) : Via strict o req (.call .reqPath k) :=
  fun nx i s hs => h nx i s hs

/-- the bodies of `log`, sent one after the other -/
def rawWrites (ds : List Str) : Prog ω := ds.foldr (fun d k => .do (.rawWrite d) k) .ret

theorem exec_rawWrites (nx : St ω → Out × St ω) (i : Nat) (ds : List Str) (s : St ω) (hs : s.rw.log ≠ []) :
    exec o req nx i (rawWrites ds) s = (.ret, { s with rw := { s.rw with log := s.rw.log ++ ds.map .body } }) := by
  induction ds generalizing s with
  | nil => simp [rawWrites, exec]
  | cons d ds ih =>
    have hw : s.rw.write d = { s.rw with log := s.rw.log ++ [.body d] } := by
      unfold Writer.write
      rw [if_neg (by rw [List.isEmpty_iff]; exact hs)]
    show exec o req nx i (rawWrites ds) { s with rw := s.rw.write d } = _
    rw [hw, ih _ (by simp)]
    simp

theorem exec_viaWrites (nx : St ω → Out × St ω) (i : Nat) (ds : List Str) (s : St ω) (hs : s.rw.log ≠ []) (hw : s.ctx.written = true) :
    exec o req nx i (rawWrites ds).viaCtx s = (.ret, { s with rw := { s.rw with log := s.rw.log ++ ds.map .body } }) := by
  induction ds generalizing s with
  | nil => simp [rawWrites, Prog.viaCtx, exec]
  | cons d ds ih =>
    have hw' : s.rw.write d = { s.rw with log := s.rw.log ++ [.body d] } := by
      unfold Writer.write
      rw [if_neg (by rw [List.isEmpty_iff]; exact hs)]
    have hd : doCall o req s (.write d) = (.ok .unit, { s with rw := s.rw.write d }) := by
      simp only [doCall, St.write, hw, if_true]
    have he : (rawWrites (d :: ds) : Prog ω).viaCtx = .do (.write d) (rawWrites ds).viaCtx := rfl
    rw [he]
    simp only [Prog.do, exec]
    rw [hd, hw']
    dsimp only
    rw [ih { s with rw := { s.rw with log := s.rw.log ++ [.body d] } } (by simp) hw]
    simp

theorem begun_more {l : List WEvent} (h : received l ≠ none) (m : List WEvent) :
    received (l ++ m) = received l ∧ receivedHeader (l ++ m) = receivedHeader l := by
  induction l with
  | nil => exact absurd rfl h
  | cons x l ih =>
    cases x with
    | status => exact ⟨rfl, rfl⟩
    | body d => exact ih h

theorem bytes_append (l m : List WEvent) : receivedBody (l ++ m) = receivedBody l ++ receivedBody m := by
  induction l with
  | nil => rfl
  | cons x l ih => cases x <;> simp [receivedBody, ih]

/-- A status and bodies. -/
theorem Via.send {code : Int} (hb : o.bad code = false) (ds : List Str) : Via (ω := ω) strict o req (.do (.rawWriteHeader code) (rawWrites ds)) := by
  intro nx i s hs
  have hw : s.rw.writeHeader o.bad code = (false, { s.rw with log := s.rw.log ++ [.status true code s.rw.header] }) := by
    unfold Writer.writeHeader
    rw [hb, Bool.and_false]
    exact if_neg (by simp)
  have h1 : exec o req nx i (.do (.rawWriteHeader code) (rawWrites ds)) s =
      (.ret, { s with rw := { s.rw with log := s.rw.log ++ [.status true code s.rw.header] ++ ds.map .body } }) := by
    simp only [Prog.do, exec, doCall, hw]
    exact exec_rawWrites nx i ds { s with rw := { s.rw with log := s.rw.log ++ [.status true code s.rw.header] } } (by simp)
  have hv : (Prog.do (.rawWriteHeader code) (rawWrites ds) : Prog ω).viaCtx = .do (.writeHeader code) (rawWrites ds).viaCtx := rfl
  by_cases hwr : s.ctx.written = true
  · have hr := hs (Or.inl hwr)
    have hne : s.rw.log ≠ [] := fun h => hr (by rw [h]; rfl)
    have h2 : exec o req nx i (Prog.do (.rawWriteHeader code) (rawWrites ds)).viaCtx s = (.ret, { s with rw := { s.rw with log := s.rw.log ++ ds.map .body } }) := by
      rw [hv]
      simp only [Prog.do, exec, doCall, St.writeHeader, hwr, if_true]
      exact exec_viaWrites nx i ds s hne hwr
    refine ⟨_, _, h1, h2, rfl, ⟨rfl, rfl, rfl, rfl⟩, ?_, rfl, ⟨rfl, rfl, rfl, rfl, rfl⟩, ?_, ?_, ?_, ?_, fun _ => rfl, ?_, ?_⟩
    · show s.ctx = { s.ctx with written := true, status := s.ctx.status }
      rw [← hwr]
    · show received (s.rw.log ++ _) = received (s.rw.log ++ _ ++ _)
      rw [(begun_more hr _).1, List.append_assoc, (begun_more hr _).1]
    · show receivedHeader (s.rw.log ++ _) = receivedHeader (s.rw.log ++ _ ++ _)
      rw [(begun_more hr _).2, List.append_assoc, (begun_more hr _).2]
    · show receivedBody (s.rw.log ++ _) = receivedBody (s.rw.log ++ _ ++ _)
      rw [bytes_append, bytes_append, bytes_append]
      simp [receivedBody]
    · show received (s.rw.log ++ _ ++ _) ≠ none
      rw [List.append_assoc, (begun_more hr _).1]
      exact hr
    · intro h; rw [hwr] at h; cases h
    · intro _ h; rw [hwr] at h; cases h
  · have hwr : s.ctx.written = false := by simpa using hwr
    have h2 : exec o req nx i (Prog.do (.rawWriteHeader code) (rawWrites ds)).viaCtx s =
        (.ret, { s with ctx := { s.ctx with written := true, status := code },
                        rw := { s.rw with log := s.rw.log ++ [.status true code s.rw.header] ++ ds.map .body } }) := by
      rw [hv]
      simp only [Prog.do, exec, doCall, St.writeHeader, hwr, hw]
      exact exec_viaWrites nx i ds _ (by simp) rfl
    refine ⟨_, _, h1, h2, rfl, ⟨rfl, rfl, rfl, rfl⟩, rfl, rfl, ⟨rfl, rfl, rfl, rfl, rfl⟩, rfl, rfl, rfl, ?_, ?_, ?_, fun _ _ _ => rfl⟩
    · show received (s.rw.log ++ _ ++ _) ≠ none
      rw [List.append_assoc]
      by_cases hr : received s.rw.log = none
      · have : ∀ (l m : List WEvent) c h, received (l ++ .status true c h :: m) ≠ none := by
          intro l m c h
          induction l with
          | nil => simp [received]
          | cons x l ih => cases x <;> simp [received, ih]
        exact this _ _ _ _
      · rw [(begun_more hr _).1]; exact hr
    · intro h; rw [hwr] at h; cases h
    · intro _ hl
      show received (s.rw.log ++ _ ++ _) = _
      rw [hl]; rfl

/-- A page of bodies, without a status, but with a Content-Type. -/
theorem Via.page (ct : Str) (hct : ct ≠ []) (h200 : o.bad 200 = false) (d : Str) (ds : List Str) :
    Via (ω := ω) false o req (.do (.setHeader b!"Content-Type" ct) (rawWrites (d :: ds))) := by
  intro nx i s hs
  generalize hu : ({ s with rw := { s.rw with header := s.rw.header.put b!"Content-Type" ct } } : St ω) = u
  have hget : u.rw.header.get kContentType = ct := by
    rw [← hu]
    simp [Header.get, Header.put, Map.set, kContentType]
  have e1 : exec o req nx i (.do (.setHeader b!"Content-Type" ct) (rawWrites (d :: ds))) s = exec o req nx i (rawWrites (d :: ds)) u := by rw [← hu]; rfl
  have e2 : exec o req nx i (Prog.do (.setHeader b!"Content-Type" ct) (rawWrites (d :: ds))).viaCtx s = exec o req nx i (rawWrites (d :: ds)).viaCtx u := by
    rw [← hu]; rfl
  have hs' : u.ctx.written = true ∨ u.rw.log ≠ [] → received u.rw.log ≠ none := by rw [← hu]; exact hs
  have hback : ∀ {s' t'}, ViaSent false u s' t' → ViaSent false s s' t' := fun h => h.before (by rw [← hu]) (by rw [← hu]) (by rw [← hu]; exact ⟨rfl, rfl, rfl, rfl⟩)
  rw [e1, e2]
  suffices hh : ∃ s' t', exec o req nx i (rawWrites (d :: ds)) u = (.ret, s') ∧ exec o req nx i (rawWrites (d :: ds)).viaCtx u = (.ret, t') ∧ ViaSent false u s' t' by
    obtain ⟨s', t', a, b, c⟩ := hh
    exact ⟨s', t', a, b, hback c⟩
  clear hback e1 e2
  have hv : (rawWrites (d :: ds) : Prog ω).viaCtx = .do (.write d) (rawWrites ds).viaCtx := rfl
  by_cases hl : u.rw.log = []
  · have hwr : u.ctx.written = false := by
      cases hw : u.ctx.written
      · rfl
      · exact absurd (by rw [hl]; rfl) (hs' (Or.inl hw))
    have hw1 : u.rw.write d = { u.rw with log := [.status false 200 u.rw.header, .body d] } := by
      unfold Writer.write
      rw [hl]; rfl
    have h1 : exec o req nx i (rawWrites (d :: ds)) u = (.ret, { u with rw := { u.rw with log := [.status false 200 u.rw.header, .body d] ++ ds.map .body } }) := by
      show exec o req nx i (rawWrites ds) { u with rw := u.rw.write d } = _
      rw [hw1, exec_rawWrites _ _ _ _ (by simp)]
    have hw2 : doCall o req u (.write d) = (.ok .unit, { u with ctx := { u.ctx with written := true, status := 200 }, rw := { u.rw with log := [.status true 200 u.rw.header, .body d] } }) := by
      simp only [doCall, St.write, hwr]
      rw [if_neg (c := d.length > 0 ∧ u.rw.header.get kContentType = []) (fun h => hct (by rw [← hget]; exact h.2))]
      simp [St.writeHeader, hwr, Writer.writeHeader, h200, Writer.write, hl]
    have h2 : exec o req nx i (rawWrites (d :: ds)).viaCtx u = (.ret, { u with ctx := { u.ctx with written := true, status := 200 }, rw := { u.rw with log := [.status true 200 u.rw.header, .body d] ++ ds.map .body } }) := by
      rw [hv]
      simp only [Prog.do, exec, hw2]
      exact exec_viaWrites nx i ds _ (by simp) rfl
    refine ⟨_, _, h1, h2, rfl, ⟨rfl, rfl, rfl, rfl⟩, rfl, rfl, ⟨rfl, rfl, rfl, rfl, rfl⟩, rfl, rfl, rfl, by simp [received], ?_, fun _ _ => rfl, fun h => nomatch h⟩
    intro h; rw [hwr] at h; cases h
  · have h1 := exec_rawWrites (o := o) (req := req) nx i (d :: ds) u hl
    have hw1 : u.rw.write d = { u.rw with log := u.rw.log ++ [.body d] } := by
      unfold Writer.write
      rw [if_neg (by rw [List.isEmpty_iff]; exact hl)]
    cases hwr : u.ctx.written with
    | true =>
      have h2 := exec_viaWrites (o := o) (req := req) nx i (d :: ds) u hl hwr
      refine ⟨_, _, h1, h2, rfl, ⟨rfl, rfl, rfl, rfl⟩, ?_, rfl, ⟨rfl, rfl, rfl, rfl, rfl⟩, rfl, rfl, rfl, ?_, fun _ => rfl, ?_, fun h => nomatch h⟩
      · show u.ctx = { u.ctx with written := true, status := u.ctx.status }
        rw [← hwr]
      · show received (u.rw.log ++ _) ≠ none
        rw [(begun_more (hs' (Or.inl hwr)) _).1]
        exact hs' (Or.inl hwr)
      · intro h; rw [hwr] at h; cases h
    | false =>
      have hr := hs' (Or.inr hl)
      have hw2 : doCall o req u (.write d) = (.ok .unit, { u with ctx := { u.ctx with written := true, status := 200 }, rw := { u.rw with log := u.rw.log ++ [.status true 200 u.rw.header] ++ [.body d] } }) := by
        simp only [doCall, St.write, hwr]
        rw [if_neg (c := d.length > 0 ∧ u.rw.header.get kContentType = []) (fun h => hct (by rw [← hget]; exact h.2))]
        simp [St.writeHeader, hwr, Writer.writeHeader, h200, Writer.write]
      have h2 : exec o req nx i (rawWrites (d :: ds)).viaCtx u = (.ret, { u with ctx := { u.ctx with written := true, status := 200 }, rw := { u.rw with log := u.rw.log ++ [.status true 200 u.rw.header] ++ [.body d] ++ ds.map .body } }) := by
        rw [hv]
        simp only [Prog.do, exec, hw2]
        exact exec_viaWrites nx i ds _ (by simp) rfl
      refine ⟨_, _, h1, h2, rfl, ⟨rfl, rfl, rfl, rfl⟩, rfl, rfl, ⟨rfl, rfl, rfl, rfl, rfl⟩, ?_, ?_, ?_, ?_, ?_, fun _ h => absurd h hl, fun h => nomatch h⟩
      · show received (u.rw.log ++ _ ++ _ ++ _) = received (u.rw.log ++ _)
        rw [List.append_assoc, List.append_assoc, (begun_more hr _).1, (begun_more hr _).1]
      · show receivedHeader (u.rw.log ++ _ ++ _ ++ _) = receivedHeader (u.rw.log ++ _)
        rw [List.append_assoc, List.append_assoc, (begun_more hr _).2, (begun_more hr _).2]
      · show receivedBody (u.rw.log ++ _ ++ _ ++ _) = receivedBody (u.rw.log ++ _)
        simp only [bytes_append, List.map_cons]
        simp [receivedBody]
      · show received (u.rw.log ++ _) ≠ none
        rw [(begun_more hr _).1]
        exact hr
      · intro h; rw [hwr] at h; cases h

theorem Via.status {code : Int} (hb : o.bad code = false) : Via (ω := ω) strict o req (.do (.rawWriteHeader code) .ret) := .send hb []

theorem Via.closeAfter {fs : FS ω} {f : Nat} {p : Prog ω} (h : Via strict o req p) : Via strict o req (closeAfter fs f p) := by
  intro nx i s hs
  obtain ⟨s', t', h1, h2, h3⟩ := h nx i s hs
  refine ⟨{ s' with world := fs.close f s'.world }, { t' with world := fs.close f t'.world }, ?_, ?_, ?_⟩
  · unfold Water.closeAfter
    simp only [exec, h1, Prog.do, doCall]
  · unfold Water.closeAfter
    simp only [Prog.viaCtx, exec, h2, Prog.do, doCall]
  · exact ⟨h3.keeps, h3.quiet, h3.ctx, h3.header, ⟨h3.rest.1, h3.rest.2.1, by show fs.close f _ = fs.close f _; rw [h3.rest.2.2.1], h3.rest.2.2.2⟩, h3.code, h3.head, h3.bytes,
      h3.begun, h3.old, h3.fresh, h3.same⟩

/-- net/http accepts the codes from 100 to 999 -/
def Accepting (o : Oracle) : Prop := ∀ c : Int, 100 ≤ c → c ≤ 999 → o.bad c = false

theorem httpError_via {code : Int} (hb : o.bad code = false) (msg : Str) : Via (ω := ω) strict o req (.httpError code msg) := by
  unfold Prog.httpError
  exact .setHeader (.setHeader (.send hb [msg ++ [10]]))

theorem sendContent_via {code : Int} (hb : o.bad code = false) (m : Str) (enc : Bool) (data : Str) : Via (ω := ω) strict o req (sendContent m code enc data) := by
  have h : Via (ω := ω) strict o req (.do (.rawWriteHeader code) (if m ≠ mHEAD ∧ data ≠ [] then .do (.rawWrite data) .ret else .ret)) := by
    split
    · exact .send hb [data]
    · exact .status hb
  unfold sendContent
  refine .setHeader ?_
  dsimp only
  split
  · exact h
  · exact .setHeader h

theorem sendRanges_via {io : ContentIO ω} (hb : Accepting o) (m range ctype : Str) (enc : Bool) (data : Str) : Via strict o req (sendRanges io m range ctype enc data) := by
  unfold sendRanges
  cases parseRange range data.length with
  | invalid => exact httpError_via (hb _ (by decide) (by decide)) _
  | noOverlap => exact .setHeader (httpError_via (hb _ (by decide) (by decide)) _)
  | ok rs =>
    dsimp only
    generalize (if (rs.map (·.2)).sum > data.length then [] else rs) = rs
    match rs with
    | [] => exact sendContent_via (hb _ (by decide) (by decide)) _ _ _
    | [ra] => exact .setHeader (sendContent_via (hb _ (by decide) (by decide)) _ _ _)
    | ra :: rb :: rs => exact .setHeader (sendContent_via (hb _ (by decide) (by decide)) _ _ _)

theorem serveContent_via {io : ContentIO ω} (hb : Accepting o) (name : Str) (t : Int) (f : Nat) : Via strict o req (serveContentStd io o name t f) := by
  unfold serveContentStd
  refine .header (fun h => ?_)
  dsimp only
  refine .texts ?_
  dsimp only
  split
  · exact .status (hb _ (by decide) (by decide))
  · exact .header (fun _ => .status (hb _ (by decide) (by decide)))
  · unfold sendFile
    refine .world (fun w => ?_)
    dsimp only
    exact .header (fun h => sendRanges_via hb _ _ _ _ _)

theorem localRedirect_via (hb : Accepting o) (to : Str) : Via (ω := ω) strict o req (localRedirect to) := by
  unfold localRedirect
  exact .texts (.setHeader (.status (hb _ (by decide) (by decide))))

theorem dirList_via {disk : OsFiles ω} (hb : Accepting o) (f : Nat) : Via false o req (dirList disk f) := by
  unfold dirList
  refine .world (fun w => ?_)
  dsimp only
  cases (disk.entries f w).2 with
  | none => exact httpError_via (hb _ (by decide) (by decide)) _
  | some l =>
    dsimp only
    generalize l.map (fun e => if e.2 then e.1 ++ b!"/" else e.1) = names
    have : names.foldr (fun n (k : Prog ω) => .do (.rawWrite (listLine n)) k) (.do (.rawWrite b!"</pre>\n") .ret) = rawWrites (names.map listLine ++ [b!"</pre>\n"]) := by
      unfold rawWrites
      rw [List.foldr_append, List.foldr_map]
      rfl
    rw [this]
    exact .page _ (by decide) (hb _ (by decide) (by decide)) _ _

theorem sendOpened_via {io : ContentIO ω} {disk : OsFiles ω} (hb : Accepting o) (f : Nat) (i : FileInfo) : Via false o req (sendOpened io o disk f i) := by
  unfold sendOpened
  split
  · refine .texts ?_
    dsimp only
    split
    · exact .header (fun _ => .status (hb _ (by decide) (by decide)))
    · exact .header (fun _ => dirList_via hb f)
  · exact serveContent_via hb _ _ _

theorem errCode_ok (hb : Accepting o) (e : OpenErr) : o.bad (errCode e) = false := by
  cases e <;> exact hb _ (by decide) (by decide)

theorem Via.open {disk : OsFiles ω} {dir name : Str} {k : Res → Prog ω} (h1 : ∀ f, Via strict o req (k (.other f))) (h2 : ∀ e, Via strict o req (k (.int (errCode e)))) :
    Via strict o req (.call (disk.openIn dir name) k) := by
  refine .world (fun w => ?_)
  dsimp only
  cases (disk.fs.openFile (dirPath dir name) w).2 with
  | none => exact h2 _
  | some f => exact h1 f

theorem Via.describe {disk : OsFiles ω} {f : Nat} {k : Res → Prog ω} (h1 : ∀ i, Via strict o req (k (.info i))) (h2 : ∀ e, Via strict o req (k (.int (errCode e)))) :
    Via strict o req (.call (disk.describe f) k) := by
  refine .world (fun w => ?_)
  dsimp only
  cases (disk.fs.stat f w).2 with
  | none => exact h2 _
  | some f => exact h1 f

theorem serveOpened_via {io : ContentIO ω} {disk : OsFiles ω} (hb : Accepting o) (dir name path : Str) (f : Nat) (i : FileInfo) :
    Via false o req (serveOpened io o disk dir name path f i) := by
  unfold serveOpened
  split
  · split
    · exact localRedirect_via hb _
    · refine .open (fun ff => .closeAfter (.describe (fun ii => ?_) (fun e => ?_))) (fun e => ?_) <;> exact sendOpened_via hb _ _
  · exact sendOpened_via hb _ _

theorem serveFile_via {io : ContentIO ω} {disk : OsFiles ω} (hb : Accepting o) (name : Str) : Via false o req (serveFileStd io o disk name) := by
  unfold serveFileStd
  refine .path ?_
  dsimp only
  split
  · exact httpError_via (hb _ (by decide) (by decide)) _
  · split
    · exact localRedirect_via hb _
    · exact .open (fun f => .closeAfter (.describe (fun i => serveOpened_via hb _ _ _ _ _) (fun e => httpError_via (errCode_ok hb e) _)))
        (fun e => httpError_via (errCode_ok hb e) _)

end Water
