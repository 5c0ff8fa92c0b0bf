import Verif.Lemmas.Conditions
import Verif.Props.Cache
import Verif.Props.Via
/-
C152: conditional requests for static files.
-/
namespace Water
open Spec
variable {ω : Type}

theorem exec_failed {o : Oracle} {req : Req} {nx : St ω → Out × St ω} {k : Nat} {s : St ω} {io : ContentIO ω} {name : Str} {mt : Int} {f : Nat}
    (hl : s.rw.log = []) (h412 : o.bad 412 = false)
    (hc : checkPreconditions io.parseTime (condReq req) ((setLastModified io mt s.rw.header).get b!"Etag") mt = .failed) :
    exec o req nx k (serveContentStd io o name mt f) s =
      (.ret, { s with rw := ⟨setLastModified io mt s.rw.header, [.status true 412 (setLastModified io mt s.rw.header)]⟩ }) := by
  unfold serveContentStd
  rw [exec]
  simp only [doCall]
  rw [exec]
  simp only [doCall]
  have hc' : checkPreconditions io.parseTime ⟨(condReq req).method, (condReq req).ifMatch, (condReq req).ifUnmodified, (condReq req).ifNoneMatch,
      (condReq req).ifModified, (condReq req).range, (condReq req).ifRange⟩ ((setLastModified io mt s.rw.header).get b!"Etag") mt = .failed := hc
  rw [hc']
  simp [Prog.do, exec, doCall, Writer.writeHeader, hl, h412]

/-- the tag that the conditions are compared with -/
def tagOn (opt : StaticOptions ω) (i : FileInfo) : Option Str := if opt.etag = 0 then none else some (staticTag opt.etag i)

theorem get_tag (io : ContentIO ω) (mt : Int) (opt : StaticOptions ω) (i : FileInfo) (w : ω) :
    (setLastModified io mt (taggedHeader opt i (startHeader opt w))).get b!"Etag" = (tagOn opt i).getD [] := by
  have h1 : ∀ h : Header, (setLastModified io mt h).get b!"Etag" = h.get b!"Etag" := by
    intro h
    unfold setLastModified
    split
    · rfl
    · unfold Header.get Header.put Map.set
      rw [if_neg (by decide +kernel)]
  rw [h1]
  unfold tagOn taggedHeader
  by_cases he : opt.etag = 0
  · rw [if_pos he, if_pos he]
    exact header_field (by decide +kernel) (field_start opt w (by decide))
  · rw [if_neg he, if_neg he]
    unfold Header.get Header.put Map.set
    rw [if_pos (by decide +kernel)]
    rfl

/-- What a file answers, by its conditions. -/
theorem static_ruled {o : Oracle} {req : Req} {s : St ω} {fs : FS ω} {http : Http ω} {io : ContentIO ω}
    {opt : StaticOptions ω} {name : Str} {i : FileInfo} {d : Str} (hc : http.serveContent = serveContentStd io o)
    (hb : Blank s) (hh : s.ctx.handlers = [staticHandler fs http opt]) (hrw : s.rw = Writer.new)
    (hp : s.ctx.params b!"*0" = some name) (hf : HasFile fs io.read opt s.world name i d) (hm : req.method = b!"GET")
    (h200 : o.bad 200 = false) (h304 : o.bad 304 = false) (h412 : o.bad 412 = false)
    (hs : ¬ (opt.etag ≠ 0 ∧ req.header.get b!"If-None-Match" = staticTag opt.etag i)) :
    ∃ h, (checkPreconditions io.parseTime (condReq req) ((tagOn opt i).getD []) i.modTime = .failed →
        (runAll o req s).2.rw.log = [.status true 412 h]) ∧
      (checkPreconditions io.parseTime (condReq req) ((tagOn opt i).getD []) i.modTime = .notModified →
        (runAll o req s).2.rw.log = [.status true 304 (notModifiedHeader h)]) ∧
      (checkPreconditions io.parseTime (condReq req) ((tagOn opt i).getD []) i.modTime = .go [] →
        ∃ h', (runAll o req s).2.rw.log = sentLog 200 h' d) := by
  obtain ⟨w1, f, w2, hopen, hstat, hdir, hd⟩ := hf
  refine ⟨setLastModified io i.modTime (taggedHeader opt i (startHeader opt w2)), ?_⟩
  have key : ∀ nx, exec o req nx 0 (staticHandler fs http opt) (s.log (.start 0)) = closing fs f (exec o req nx 0 (staticFile http opt name f i)
      (expiring opt { s.log (.start 0) with world := w2 })) := by
    intro nx
    rw [exec_static_found (name := name) (w1 := w1) (w2 := w2) (f := f) (i := i) (by exact hp) (by exact hopen) hstat, hdir]
    rfl
  generalize ht : expiring opt { s.log (.start 0) with world := w2 } = t at key
  have t1 : t.rw = ⟨startHeader opt w2, []⟩ := by
    rw [← ht]
    unfold expiring startHeader
    cases opt.expires with
    | none => exact hrw
    | some e =>
      show Writer.mk (s.rw.header.put kExpires (e w2).2) s.rw.log = _
      rw [hrw]; rfl
  have t2 : t.ctx = s.ctx := by
    rw [← ht]
    unfold expiring
    cases opt.expires <;> rfl
  have t3 : io.read f t.world = d := by
    rw [← hd, ← ht]
    unfold expiring
    cases opt.expires <;> rfl
  have hw : t.ctx.written = false := by rw [t2]; exact hb.written
  simp only [exec_static_file hw h304] at key
  rw [t1] at key
  dsimp only at key
  have fin : ∀ {u : St ω}, (∀ nx, exec o req nx 0 (staticHandler fs http opt) (s.log (.start 0)) = closing fs f (.ret, u)) →
      u.ctx.handlers = t.ctx.handlers → u.ctx.index = t.ctx.index → (runAll o req s).2.rw = u.rw := by
    intro u hu h1 h2
    refine runAll_one (t := { u with world := fs.close f u.world }) hb.index hh (fun nx => by rw [hu]; rfl) ⟨?_, ?_⟩
    · show u.ctx.handlers = _
      rw [h1, t2, hh]
    · show u.ctx.index = _
      rw [h2, t2, hb.index]
  simp only [if_neg hs, hc] at key
  rw [← get_tag io i.modTime opt i w2]
  refine ⟨fun hv => ?_, fun hv => ?_, fun hv => ?_⟩
  · simp only [exec_failed (s := { t with rw := ⟨taggedHeader opt i (startHeader opt w2), []⟩ }) rfl h412 hv] at key
    rw [fin key rfl rfl]
  · simp only [exec_notModified (s := { t with rw := ⟨taggedHeader opt i (startHeader opt w2), []⟩ }) rfl h304 hv] at key
    rw [fin key rfl rfl]
  · simp only [exec_content (s := { t with rw := ⟨taggedHeader opt i (startHeader opt w2), []⟩ }) hm rfl h200 hv] at key
    rw [fin key rfl rfl, t3]
    exact ⟨_, rfl⟩

/-- the same of the application -/
theorem app_ruled {rx : Regex} {o : Oracle} {io : ContentIO ω} {fs : FS ω} {opt : StaticOptions ω} {name : Str} {e : Engine (Prog ω)}
    (ha : FileApp rx o io fs opt name e) (h200 : o.bad 200 = false) (h304 : o.bad 304 = false) (h412 : o.bad 412 = false)
    {v : CacheVisit ω} {i : FileInfo} {d : Str} (hv : VisitOf fs io opt name v i d) (hm : v.req.method = b!"GET")
    (hs : ¬ (opt.etag ≠ 0 ∧ v.req.header.get b!"If-None-Match" = staticTag opt.etag i)) :
    ∃ h, (checkPreconditions io.parseTime (condReq v.req) ((tagOn opt i).getD []) i.modTime = .failed →
        answerAt rx o e v = [.status true 412 h]) ∧
      (checkPreconditions io.parseTime (condReq v.req) ((tagOn opt i).getD []) i.modTime = .notModified →
        answerAt rx o e v = [.status true 304 (notModifiedHeader h)]) ∧
      (checkPreconditions io.parseTime (condReq v.req) ((tagOn opt i).getD []) i.modTime = .go [] →
        ∃ h', answerAt rx o e v = sentLog 200 h' d) := by
  obtain ⟨hne, hl, ho, a, b, r, http, heap, opts, hc, hrun, hhand, hst, hbef, huse, hother⟩ := ha
  obtain ⟨s, hb, hh, hpar, hrw, _, hworld, hsv⟩ := C48_below_partial (rx := rx) (o := o) (req := v.req) rfl hrun hhand hst ho hv.routed
    (Or.inl hm) hne hl (Or.inl hv.path) (by rw [hm, hv.path]; exact hother) v.ctx Writer.new v.body v.world
  obtain ⟨_, hsrw, _⟩ := hsv
  rw [hbef, huse] at hh
  unfold answerAt
  rw [hsrw]
  exact static_ruled hc hb hh hrw hpar (by rw [hworld]; exact hv.file) hm h200 h304 h412 hs

/-- **C152.** A GET request for a static file with any of the four conditions, each as RFC 7232 writes it, is answered with 412, with 304 or with
the file just as RFC 7232, 6, says; and with 412 and 304 nothing of the file is sent. -/
theorem C152 {rx : Regex} {o : Oracle} {io : ContentIO ω} {obsolete : Str → Option Int} (hio : StdDates io obsolete) {fs : FS ω}
    {opt : StaticOptions ω} {name : Str} {e : Engine (Prog ω)} (ha : FileApp rx o io fs opt name e) (h200 : o.bad 200 = false)
    (h304 : o.bad 304 = false) (h412 : o.bad 412 = false) {v : CacheVisit ω} {i : FileInfo} {d : Str} (hv : VisitOf fs io opt name v i d)
    (hm : v.req.method = b!"GET") (hr : v.req.header.get b!"Range" = []) {im inm : Option TagCond} {us ms : Option Int}
    (h1 : TagField (v.req.header.get b!"If-Match") im) (h2 : DateField obsolete (v.req.header.get b!"If-Unmodified-Since") us)
    (h3 : TagField (v.req.header.get b!"If-None-Match") inm) (h4 : DateField obsolete (v.req.header.get b!"If-Modified-Since") ms) :
    let cur := if opt.etag = 0 then none else some (staticTag opt.etag i)
    (received (answerAt rx o e v) = some 412 ↔ Refused im us cur (changedAt i.modTime)) ∧
    (received (answerAt rx o e v) = some 304 ↔ ¬ Refused im us cur (changedAt i.modTime) ∧ Unchanged inm ms cur (changedAt i.modTime)) ∧
    (received (answerAt rx o e v) = some 200 ↔ ¬ Refused im us cur (changedAt i.modTime) ∧ ¬ Unchanged inm ms cur (changedAt i.modTime)) ∧
    receivedBody (answerAt rx o e v) = if received (answerAt rx o e v) = some 200 then d else [] := by
  intro cur
  have hs : ¬ (opt.etag ≠ 0 ∧ v.req.header.get b!"If-None-Match" = staticTag opt.etag i) := by
    rintro ⟨_, h⟩
    have hq := fun c hc => tagText_ne (staticTag_text opt.etag i c hc)
    rw [h] at h3
    generalize hx : staticTag opt.etag i = x at h3 hq
    cases h3 with
    | absent => exact staticTag_ne_nil _ _ hx
    | any => exact (hq 42 (by simp)).2.1 rfl
    | tags hl hne => exact (hq 34 (tagList_ne hl hne)).1 rfl
  obtain ⟨h, g1, g2, g3⟩ := app_ruled ha h200 h304 h412 hv hm hs
  obtain ⟨k1, k2, k3⟩ := conditions_ruled (r := condReq v.req) hm h1 h2 h3 h4 hr cur i.modTime
  rw [hio.2] at g1 g2 g3
  by_cases hr : Refused im us cur (changedAt i.modTime)
  · rw [g1 (k1 hr)]
    simp [hr, received, receivedBody]
  · by_cases hu : Unchanged inm ms cur (changedAt i.modTime)
    · rw [g2 (k2 hr hu)]
      simp [hr, hu, received, receivedBody]
    · obtain ⟨h', g⟩ := g3 (k3 hr hu)
      obtain ⟨r1, _, r3⟩ := received_sent 200 h' d
      rw [g, r1, r3]
      simp [hr, hu]

/-- **C152 (tags that are sent back).** The tags of `StaticAdvance` are not entity tags, as they have no quotes. A client that sends one back in
If-Match, to get what it has or nothing, is always told that it is not the one. -/
theorem C152_sent_back {rx : Regex} {o : Oracle} {io : ContentIO ω} {fs : FS ω}
    {opt : StaticOptions ω} {name : Str} {e : Engine (Prog ω)} (ha : FileApp rx o io fs opt name e) (h200 : o.bad 200 = false)
    (h304 : o.bad 304 = false) (h412 : o.bad 412 = false) {v : CacheVisit ω} {i : FileInfo} {d : Str} (hv : VisitOf fs io opt name v i d)
    (hm : v.req.method = b!"GET") (hn : v.req.header.get b!"If-None-Match" = [])
    (h1 : v.req.header.get b!"If-Match" = staticTag opt.etag i) :
    received (answerAt rx o e v) = some 412 := by
  obtain ⟨h, g1, _⟩ := app_ruled ha h200 h304 h412 hv hm (by rw [hn]; exact fun h => staticTag_ne_nil _ _ h.2.symm)
  rw [g1]
  · rfl
  · have ht := fun c hc => tagText_ne (staticTag_text opt.etag i c hc)
    have hf : ∀ et, checkIfMatch (condReq v.req) et = some false := by
      intro et
      unfold checkIfMatch
      rw [show (condReq v.req).ifMatch = staticTag opt.etag i from h1, if_neg (staticTag_ne_nil _ _)]
      rw [anyETag_none _ (fun hc => (ht _ hc).1 rfl) (fun hc => (ht _ hc).2.1 rfl) (fun hc => (ht _ hc).2.2.1 rfl)]
    unfold checkPreconditions
    rw [hf]
    rfl

/-- **C152 (Attachment).** The same of a file that a handler sends with `ctx.Attachment`; `cur` is the tag that the handler has set, if any. -/
theorem C152_attachment {o : Oracle} {io : ContentIO ω} {obsolete : Str → Option Int} (hio : StdDates io obsolete) (hok : AcceptsCodes o)
    {req : Req} {s : St ω} (hu : Unsent s) (name : Str) (mt : Int) (f : Nat) (inline : List Bool) (nx : St ω → Out × St ω) (k : Nat)
    (hm : req.method = b!"GET") (hr : req.header.get b!"Range" = []) {im inm : Option TagCond} {us ms : Option Int}
    (h1 : TagField (req.header.get b!"If-Match") im) (h2 : DateField obsolete (req.header.get b!"If-Unmodified-Since") us)
    (h3 : TagField (req.header.get b!"If-None-Match") inm) (h4 : DateField obsolete (req.header.get b!"If-Modified-Since") ms)
    {cur : Option Str} (hc : s.rw.header.get b!"Etag" = cur.getD []) :
    ∃ t, exec o req nx k (attachment io o name mt f inline) s = (.ret, t) ∧
      (received t.rw.log = some 412 ↔ Refused im us cur (changedAt mt)) ∧
      (received t.rw.log = some 304 ↔ ¬ Refused im us cur (changedAt mt) ∧ Unchanged inm ms cur (changedAt mt)) ∧
      (received t.rw.log = some 200 ↔ ¬ Refused im us cur (changedAt mt) ∧ ¬ Unchanged inm ms cur (changedAt mt)) ∧
      receivedBody t.rw.log = if received t.rw.log = some 200 then io.read f s.world else [] := by
  obtain ⟨s', t, e1, e2, e3, _⟩ := C136_attachment (io := io) (req := req) hok hu (name := name) mt f inline nx k
  refine ⟨t, e2, ?_⟩
  rw [e3]
  have hl : s.rw.log = [] := hu.2
  have hget : (setLastModified io mt (s.rw.header.put b!"Content-Disposition" (dispositionFor inline name))).get b!"Etag" = cur.getD [] := by
    rw [← hc]
    unfold setLastModified
    split
    · unfold Header.get Header.put Map.set
      rw [if_neg (by decide +kernel)]
    · unfold Header.get Header.put Map.set
      rw [if_neg (by decide +kernel), if_neg (by decide +kernel)]
  obtain ⟨k1, k2, k3⟩ := conditions_ruled (r := condReq req) hm h1 h2 h3 h4 hr cur mt
  rw [← hget, ← hio.2] at k1 k2 k3
  have hl' : ({ s with rw := { s.rw with header := s.rw.header.put b!"Content-Disposition" (dispositionFor inline name) } } : St ω).rw.log = [] := hl
  have hh' : ({ s with rw := { s.rw with header := s.rw.header.put b!"Content-Disposition" (dispositionFor inline name) } } : St ω).rw.header =
    s.rw.header.put b!"Content-Disposition" (dispositionFor inline name) := rfl
  have hw' : ({ s with rw := { s.rw with header := s.rw.header.put b!"Content-Disposition" (dispositionFor inline name) } } : St ω).world = s.world := rfl
  generalize ({ s with rw := { s.rw with header := s.rw.header.put b!"Content-Disposition" (dispositionFor inline name) } } : St ω) = u at e1 hl' hh' hw'
  rw [← hh'] at k1 k2 k3
  by_cases hr : Refused im us cur (changedAt mt)
  · rw [exec_failed hl' (hok 412 (by decide) (by decide)) (k1 hr)] at e1
    cases e1
    simp [hr, received, receivedBody]
  · by_cases hx : Unchanged inm ms cur (changedAt mt)
    · rw [exec_notModified hl' (hok 304 (by decide) (by decide)) (k2 hr hx)] at e1
      cases e1
      simp [hr, hx, received, receivedBody]
    · rw [exec_content hm hl' (hok 200 (by decide) (by decide)) (k3 hr hx)] at e1
      cases e1
      obtain ⟨r1, _, r3⟩ := received_sent 200 (wholeHeader io o name mt (io.read f u.world) u.rw.header) (io.read f u.world)
      dsimp only
      rw [r1, r3, hw']
      simp [hr, hx]

namespace Demo

/-- a request for the file with these fields -/
def askIf (fields : List (Str × Str)) (w : FileInfo × Str) : CacheVisit (FileInfo × Str) where
  req := { at' b!"/static/f.txt" with header := fun x => (fields.lookup x).map (fun t => [t]) }
  ctx := Ctx.new
  body := none
  world := w

theorem askIf_of (etag : ETagType) (fields : List (Str × Str)) (i : FileInfo) (d : Str) (hd : i.dir = false) :
    VisitOf oneFS stdIO (oneOpt etag) b!"f.txt" (askIf fields (i, d)) i d where
  routed := ⟨Or.inr ⟨rfl, Int.le_refl 1⟩, show b!"/static/f.txt" ≠ b!"*" by decide, List.mem_cons_self⟩
  path := show b!"/static/f.txt" = pathBelow (elems b!"/static") b!"f.txt" by decide +kernel
  file := ⟨_, _, _, rfl, rfl, hd, rfl⟩

/-- two tags, one of them with a comma in it, and an empty element -/
theorem someTags : TagField b!"\"a,b\" , ,W/\"c\"" (some (.tags [b!"\"a,b\"", b!"W/\"c\""])) :=
  .tags (.tag (w := []) (v := b!" ") (by intro c hc; cases hc) (by decide +kernel) (by intro c hc; left; simpa using hc)
    (.comma (w := b!" ") (by intro c hc; left; simpa using hc) (.last (w := []) (v := []) (by intro c hc; cases hc) (by decide +kernel)
      (by intro c hc; cases hc)))) (by simp)

/-- the hypotheses of `C152` are met, and each of the three answers is given -/
theorem C152_demo : ∃ e, FileApp rx chainO stdIO oneFS (oneOpt 1) b!"f.txt" e ∧
    received (answerAt rx chainO e (askIf [(b!"If-Match", b!"\"a,b\" , ,W/\"c\"")] (newInfo, b!"new"))) = some 412 ∧
    received (answerAt rx chainO e (askIf [(b!"If-Match", b!"*"), (b!"If-None-Match", b!"*")] (newInfo, b!"new"))) = some 304 ∧
    received (answerAt rx chainO e (askIf [(b!"If-None-Match", b!"\"a,b\" , ,W/\"c\"")] (newInfo, b!"new"))) = some 200 := by
  obtain ⟨e, h1, _⟩ := withStd_spec (etag := 1) (p := fun _ => true) (by decide +kernel)
  refine ⟨e, h1, ?_, ?_, ?_⟩
  · refine (C152 stdIO_dates h1 rfl rfl rfl (askIf_of 1 [(b!"If-Match", b!"\"a,b\" , ,W/\"c\"")] newInfo b!"new" rfl) rfl rfl (im := some (.tags [b!"\"a,b\"", b!"W/\"c\""]))
      (by exact someTags) .absent .absent .absent).1.2 ?_
    rintro ⟨t, ht, _, h⟩
    have e1 : ∀ t ∈ [b!"\"a,b\"", b!"W/\"c\""], ¬ some (staticTag 1 newInfo) = some t := by decide +kernel
    exact e1 t ht h
  · exact (C152 stdIO_dates h1 rfl rfl rfl (askIf_of 1 [(b!"If-Match", b!"*"), (b!"If-None-Match", b!"*")] newInfo b!"new" rfl) rfl rfl (im := some .any) (by exact TagField.any) .absent (inm := some .any) (by exact TagField.any) .absent).2.1.2
      ⟨fun h => h trivial, trivial⟩
  · refine (C152 stdIO_dates h1 rfl rfl rfl (askIf_of 1 [(b!"If-None-Match", b!"\"a,b\" , ,W/\"c\"")] newInfo b!"new" rfl) rfl rfl .absent .absent (inm := some (.tags [b!"\"a,b\"", b!"W/\"c\""]))
      (by exact someTags) .absent).2.2.1.2 ⟨?_, ?_⟩
    · rintro ⟨_, _, h, _⟩; cases h
    · rintro ⟨t, ht, c, hc, h⟩
      cases hc
      have e1 : ∀ t ∈ [b!"\"a,b\"", b!"W/\"c\""], ¬ opaqueTag t = opaqueTag (staticTag 1 newInfo) := by decide +kernel
      exact e1 t ht h

/-- `C152_sent_back`: the file has not changed -/
theorem C152_back_demo : ∃ e, FileApp rx chainO stdIO oneFS (oneOpt 1) b!"f.txt" e ∧
    received (answerAt rx chainO e (askIf [(b!"If-Match", staticTag 1 newInfo)] (newInfo, b!"new"))) = some 412 := by
  obtain ⟨e, h1, _⟩ := withStd_spec (etag := 1) (p := fun _ => true) (by decide +kernel)
  exact ⟨e, h1, C152_sent_back h1 rfl rfl rfl (askIf_of 1 _ newInfo b!"new" rfl) rfl rfl rfl⟩

/-- a handler that has set a tag sends a file -/
def tagSt : St (FileInfo × Str) :=
  { ctx := Ctx.new, rw := ⟨Header.put Map.empty b!"ETag" b!"\"c\"", []⟩, body := none, forms := [], world := (newInfo, b!"new"), trace := [] }

/-- `C152_attachment`: the weak tag is good enough for If-None-Match -/
theorem C152_attachment_demo : Unsent tagSt ∧ tagSt.rw.header.get b!"Etag" = (some b!"\"c\"").getD [] ∧
    ∃ t, exec chainO (askIf [(b!"If-None-Match", b!"\"a,b\" , ,W/\"c\"")] (newInfo, b!"new")).req (fun s => (.ret, s)) 0
      (attachment stdIO chainO b!"n" newInfo.modTime 0 []) tagSt = (.ret, t) ∧ received t.rw.log = some 304 := by
  refine ⟨⟨rfl, rfl⟩, by decide +kernel, ?_⟩
  have hok : AcceptsCodes chainO := fun c h1 h2 => by
    show decide _ = _
    simp; omega
  obtain ⟨t, h1, _, h2, _⟩ := C152_attachment stdIO_dates hok (s := tagSt) ⟨rfl, rfl⟩ b!"n" newInfo.modTime 0 [] (fun s => (.ret, s)) 0
    (req := (askIf [(b!"If-None-Match", b!"\"a,b\" , ,W/\"c\"")] (newInfo, b!"new")).req) rfl rfl .absent .absent
    (inm := some (.tags [b!"\"a,b\"", b!"W/\"c\""])) (by exact someTags) .absent (cur := some b!"\"c\"") (by decide +kernel)
  refine ⟨t, h1, h2.2 ⟨?_, ?_⟩⟩
  · rintro ⟨_, _, h, _⟩; cases h
  · exact ⟨b!"W/\"c\"", by simp, _, rfl, by decide⟩

end Demo

end Water
