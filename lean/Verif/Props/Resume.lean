import Verif.Lemmas.Resume
import Verif.Lemmas.Via
/-
C126: a download that is taken up again is the file.
-/
namespace Water
open Spec
variable {ω : Type}

/-! The handlers -/

/-- The answer is that of `ServeContent` for the file `i` with the contents `d`, begun with the tag `tag`. -/
def Sends (io : ContentIO ω) (o : Oracle) (tag : Option Str) (i : FileInfo) (d : Str) (req : Req) (log : List WEvent) : Prop :=
  ∃ (name : Str) (h0 : Header), fieldOf h0 b!"Etag" = tag ∧ fieldOf h0 b!"Last-Modified" = none ∧
    ∀ rw, ContentRuns io o name i.modTime d h0 req rw → log = rw.log

/-- the tag of a static file -/
def fileTag (opt : StaticOptions ω) (i : FileInfo) : Option Str := if opt.etag = 0 then none else some (staticTag opt.etag i)

theorem static_run {o : Oracle} {req : Req} {s : St ω} {fs : FS ω} {http : Http ω} {io : ContentIO ω}
    {opt : StaticOptions ω} {name : Str} {i : FileInfo} {d : Str} (hc : http.serveContent = serveContentStd io o)
    (hb : Blank s) (hh : s.ctx.handlers = [staticHandler fs http opt]) (hrw : s.rw = Writer.new)
    (hp : s.ctx.params b!"*0" = some name) (hf : HasFile fs io.read opt s.world name i d) (h304 : o.bad 304 = false)
    (hn : req.header.get b!"If-None-Match" = []) :
    ∃ w, ∀ rw, ContentRuns io o name i.modTime d (taggedHeader opt i (startHeader opt w)) req rw → (runAll o req s).2.rw.log = rw.log := by
  obtain ⟨w1, f, w2, hopen, hstat, hdir, hd⟩ := hf
  refine ⟨w2, ?_⟩
  intro rw hruns
  have key : ∀ nx, exec o req nx 0 (staticHandler fs http opt) (s.log (.start 0)) = closing fs f (exec o req nx 0 (staticFile http opt name f i)
      (expiring opt { s.log (.start 0) with world := w2 })) := by
    intro nx
    rw [exec_static_found (name := name) (w1 := w1) (w2 := w2) (f := f) (i := i) (by exact hp) (by exact hopen) hstat, hdir]
    rfl
  generalize ht : expiring opt { s.log (.start 0) with world := w2 } = t at key
  have t1 : t.rw = ⟨startHeader opt w2, []⟩ := by
    rw [← ht]
    unfold expiring startHeader
    cases opt.expires with
    | none => exact hrw
    | some e =>
      show Writer.mk (s.rw.header.put kExpires (e w2).2) s.rw.log = _
      rw [hrw]; rfl
  have t2 : t.ctx = s.ctx := by
    rw [← ht]
    unfold expiring
    cases opt.expires <;> rfl
  have t3 : io.read f t.world = d := by
    rw [← hd, ← ht]
    unfold expiring
    cases opt.expires <;> rfl
  have hw : t.ctx.written = false := by rw [t2]; exact hb.written
  simp only [exec_static_file hw h304] at key
  rw [t1] at key
  dsimp only at key
  have hs : ¬ (opt.etag ≠ 0 ∧ req.header.get b!"If-None-Match" = staticTag opt.etag i) := by
    rw [hn]
    exact fun h => staticTag_ne_nil _ _ h.2.symm
  simp only [if_neg hs, hc] at key
  have hr := fun nx => hruns nx 0 { t with rw := ⟨taggedHeader opt i (startHeader opt w2), []⟩ } f rfl (by exact t3)
  simp only [hr] at key
  have := runAll_one (t := { t with rw := rw, world := fs.close f t.world }) hb.index hh (fun nx => by rw [key]; rfl) ⟨by
    show t.ctx.handlers = _
    rw [t2, hh], by
    show t.ctx.index = _
    rw [t2, hb.index]⟩
  rw [this]

theorem static_served {o : Oracle} {req : Req} {s : St ω} {fs : FS ω} {http : Http ω} {io : ContentIO ω}
    {opt : StaticOptions ω} {name : Str} {i : FileInfo} {d : Str} (hc : http.serveContent = serveContentStd io o)
    (hb : Blank s) (hh : s.ctx.handlers = [staticHandler fs http opt]) (hrw : s.rw = Writer.new)
    (hp : s.ctx.params b!"*0" = some name) (hf : HasFile fs io.read opt s.world name i d) (h304 : o.bad 304 = false)
    (hn : req.header.get b!"If-None-Match" = []) : Sends io o (fileTag opt i) i d req (runAll o req s).2.rw.log := by
  obtain ⟨w, h⟩ := static_run hc hb hh hrw hp hf h304 hn
  exact ⟨name, taggedHeader opt i (startHeader opt w), (field_tagged opt i w).1, (field_tagged opt i w).2, h⟩

theorem app_served {rx : Regex} {o : Oracle} {io : ContentIO ω} {fs : FS ω} {opt : StaticOptions ω} {name : Str} {e : Engine (Prog ω)}
    (ha : FileApp rx o io fs opt name e) (h304 : o.bad 304 = false) {v : CacheVisit ω} {i : FileInfo} {d : Str}
    (hv : VisitOf fs io opt name v i d) {p : Option Part} (hp : Resumes p v.req) :
    Sends io o (fileTag opt i) i d v.req (answerAt rx o e v) := by
  obtain ⟨hne, hl, ho, a, b, r, http, heap, opts, hc, hrun, hhand, hst, hbef, huse, hother⟩ := ha
  obtain ⟨s, hb, hh, hpar, hrw, _, hworld, hsv⟩ := C48_below_partial (rx := rx) (o := o) (req := v.req) rfl hrun hhand hst ho hv.routed
    (Or.inl hp.method) hne hl (Or.inl hv.path) (by rw [hp.method, hv.path]; exact hother) v.ctx Writer.new v.body v.world
  obtain ⟨_, hsrw, _⟩ := hsv
  rw [hbef, huse] at hh
  unfold answerAt
  rw [hsrw]
  exact static_served hc hb hh hrw hpar (by rw [hworld]; exact hv.file) h304 (hp.others _ (by simp))

/-- A visit of a download: a request for its path that the engine routes; `i` and `d` are the file at that time. -/
structure DownloadOf (fs : FS ω) (io : ContentIO ω) (fpath path : Str) (v : CacheVisit ω) (i : FileInfo) (d : Str) : Prop where
  routed : Routed v.req
  path : v.req.path = path
  file : HasDownload fs io.read v.world fpath i d

theorem download_served {rx : Regex} {o : Oracle} {io : ContentIO ω} {fs : FS ω} {fpath path : Str} {e : Engine (Prog ω)}
    (ha : DownloadApp rx o io fs fpath path e) {v : CacheVisit ω} {i : FileInfo} {d : Str}
    (hv : DownloadOf fs io fpath path v i d) {p : Option Part} (hp : Resumes p v.req) (hok : Accepting o) :
    Sends io o none i d v.req (answerAt rx o e v) := by
  obtain ⟨ops, r, ei, l, http, heap, opts, inline, k, hc, hk, hrun, hhand, hst, hend, hmeth, hchain, hacc, hother⟩ := ha
  have hm : v.req.method = b!"GET" := hp.method
  obtain ⟨hroot, es, h1, _, _, _, _, _, _, hmk⟩ := handler_ok hrun hhand
  rw [hst] at hmk
  have hrf := run_reflects hrun
  have hmem : routeFor ops r (ei, l) ∈ routesOf ops r es := (mem_routesOf h1 hrf).2 ⟨ei, _, hend, rfl⟩
  obtain ⟨n, hn⟩ := C02_dispatch_complete hmk hmem (path := path) hacc
  have hmr : (routeFor ops r (ei, l)).method = b!"GET" := hmeth
  rw [hmr] at hn
  obtain ⟨j, k', hj, hmj, hch, hacc'⟩ := C17_chain hrun hhand hn
  have hjk : j = ei ∧ k' = l := by
    have hfk : fullPath ops k' = fullPath ops l := by
      rcases hacc' with hacc' | hacc'
      · exact hother j k' hj hmj hacc'
      · rw [hst] at hacc'; exact absurd hacc'.1 (by simp)
    by_cases hne : j = ei
    · refine ⟨hne, ?_⟩
      subst hne
      exact hj.1.1.unique hend.1.1
    · obtain ⟨p, hp⟩ := C15_double_rejected (rx := rx) (opts := opts) hrun hj hend hne (by rw [hmj, hmeth]) hfk
      rw [hhand] at hp; cases hp
  obtain ⟨rfl, rfl⟩ := hjk
  have hch : n.handlers.map some = (chainOf ops r j k').map payload := hch
  have hch := filterMap_of_map hch
  rw [hchain] at hch
  obtain ⟨s, hb, hh, _, hrw, _, hworld, hrest⟩ := serve_ran (o := o) (c := v.ctx) (rw := Writer.new) (body := v.body) (w := v.world) hv.routed
    (n := n) (by rw [hm, hv.path]; exact hn)
  have hh : s.ctx.handlers = [.download fs http fpath inline k] := by rw [hh, hch]; rfl
  have hsrw : (serve rx o e v.ctx v.req Writer.new v.body v.world).rw = (runAll o v.req s).2.rw := hrest.2.1
  obtain ⟨w1, f, w2, hopen, hstat, hdir, hd⟩ := hv.file
  have o1 : (fs.openFile fpath (s.log (.start 0)).world).2 = some f := by
    show (fs.openFile fpath s.world).2 = _
    rw [hworld, hopen]
  have o2 : opening fs fpath (s.log (.start 0)) = { s.log (.start 0) with world := w1 } := by
    unfold opening
    rw [show (s.log (.start 0)).world = v.world from hworld, hopen]
  have o3 : describing fs f { s.log (.start 0) with world := w1 } = { s.log (.start 0) with world := w2 } := by
    unfold describing
    dsimp only
    rw [hstat]
  have key := fun nx => C94_content o v.req nx 0 fs http fpath inline k (s.log (.start 0)) o1 (fi := i) (by rw [o2]; show (fs.stat f w1).2 = _; rw [hstat]) hdir
  obtain ⟨h0, a1, a2, _⟩ := key (fun s => (.ret, s))
  have hall : ∀ nx, exec o v.req nx 0 (.download fs http fpath inline k) (s.log (.start 0)) =
      match exec o v.req nx 0 (http.serveContent i.name i.modTime f) (withHeader { s.log (.start 0) with world := w2 } h0) with
      | (.ret, t) => exec o v.req nx 0 (k true) (shutting fs f t)
      | (.panic v, t) => (.panic v, shutting fs f t)
      | (.fuel, t) => (.fuel, t) := by
    intro nx
    obtain ⟨h1, b1, b2, b3⟩ := key nx
    have : h1 = h0 := by
      funext x
      by_cases hx : ∃ y, (x, y) ∈ downloadHeaders inline i.name
      · obtain ⟨y, hy⟩ := hx
        rw [b1 _ hy, a1 _ hy]
      · have hx' : ∀ y, (x, y) ∉ downloadHeaders inline i.name := fun y hy => hx ⟨y, hy⟩
        rw [b2 x hx', a2 x hx']
    rw [b3, this, o2, o3]
    rfl
  have hno : ∀ x, x ∉ (downloadHeaders inline i.name).map (·.1) → h0 x = none := by
    intro x hx
    rw [a2 x (fun y hy => hx (List.mem_map.2 ⟨_, hy, rfl⟩))]
    show s.rw.header x = none
    rw [hrw]; rfl
  refine ⟨i.name, h0, ?_, ?_, ?_⟩
  · unfold fieldOf
    rw [hno _ (by show b!"Etag" ∉ [b!"Content-Description", b!"Content-Type", b!"Content-Transfer-Encoding", b!"Expires", b!"Cache-Control", b!"Pragma", b!"Content-Disposition"]; decide)]
  · unfold fieldOf
    rw [hno _ (by show b!"Last-Modified" ∉ [b!"Content-Description", b!"Content-Type", b!"Content-Transfer-Encoding", b!"Expires", b!"Cache-Control", b!"Pragma", b!"Content-Disposition"]; decide)]
  · intro rw hruns
    generalize hu : withHeader { s.log (.start 0) with world := w2 } h0 = u at hall
    have hurw : u.rw = ⟨h0, []⟩ := by
      rw [← hu]
      show Writer.mk h0 s.rw.log = _
      rw [hrw]; rfl
    have huctx : u.ctx = s.ctx := by rw [← hu]; rfl
    have huw : u.ctx.written = false := by rw [huctx]; exact hb.written
    have hr := fun nx => hruns nx 0 u f hurw (by rw [← hu]; exact hd)
    have hbeg : u.ctx.written = true ∨ u.rw.log ≠ [] → received u.rw.log ≠ none := by
      rintro (h | h)
      · rw [huw] at h; cases h
      · exact absurd (by rw [hurw]) h
    obtain ⟨s', t', e1, e2, hsent⟩ := serveContent_via (strict := true) (io := io) (req := v.req) hok i.name i.modTime f (run o v.req 1) 0 u hbeg
    have hs' : s' = { u with rw := rw } := by
      rw [hr] at e1
      exact (Prod.mk.inj e1).2.symm
    have hlog : t'.rw.log = rw.log := by
      rw [hsent.same rfl huw (by rw [hurw]), hs']
    have hall := hall (run o v.req 1)
    rw [hc] at hall
    simp only [e2, hk] at hall
    have := runAll_once (t := shutting fs f t') hb.index hh hall (by
      show t'.ctx.handlers = _ ∧ t'.ctx.index = 0
      rw [hsent.ctx, huctx]
      exact ⟨hh, hb.index⟩)
    unfold answerAt
    rw [hsrw, this]
    exact hlog

/-! The answers -/

theorem resume_conditions {parse : Str → Option Int} {p : Option Part} {req : Req} (h : Resumes p req) (etag : Str) (mt : Int) :
    checkPreconditions parse (condReq req) etag mt =
      .go (if (condReq req).range ≠ [] ∧ checkIfRange parse (condReq req) etag mt = some false then [] else (condReq req).range) := by
  have h1 : checkIfMatch (condReq req) etag = none := if_pos (h.others _ (by simp))
  have h2 : checkIfUnmodified parse (condReq req) mt = none := if_pos (Or.inl (h.others _ (by simp)))
  have h3 : checkIfNoneMatch (condReq req) etag = none := if_pos (h.others _ (by simp))
  have h4 : checkIfModified parse (condReq req) mt = none := by
    unfold checkIfModified
    rw [show (condReq req).ifModified = [] from h.others _ (by simp)]
    simp
  unfold checkPreconditions
  rw [h1, h3]
  dsimp only
  rw [h2, h4, if_neg (by simp), if_neg (by simp)]

/-- the version is told by a date, and it is the same second -/
def Hit (parse : Str → Option Int) (c : Str) (mt : Int) : Prop := mt ≠ -62135596800000000000 ∧ ∃ t, parse c = some t ∧ second t = second mt

theorem ifRange_hit {parse : Str → Option Int} {req : Req} {etag c : Str} {mt : Int} (hm : req.method = b!"GET")
    (hc : req.header.get b!"If-Range" = c) (hne : c ≠ []) (hq : (34 : UInt8) ∉ c) :
    (Hit parse c mt → checkIfRange parse (condReq req) etag mt = some true) ∧
    (¬ Hit parse c mt → checkIfRange parse (condReq req) etag mt = some false) := by
  have h4 : (condReq req).method = mGET := hm
  have h5 : (condReq req).ifRange = c := hc
  unfold checkIfRange Hit
  rw [h4, h5, if_neg (show ¬ (mGET ≠ mGET ∧ mGET ≠ mHEAD) from fun hh => hh.1 rfl), if_neg hne, scanETag_none hq]
  dsimp only
  by_cases hz : mt = -62135596800000000000
  · rw [if_pos hz]
    exact ⟨fun h => absurd hz h.1, fun _ => rfl⟩
  · rw [if_neg hz]
    cases hp : parse c with
    | none => exact ⟨fun h => (by obtain ⟨_, _, h, _⟩ := h; cases h), fun _ => rfl⟩
    | some t =>
      dsimp only
      have e1 : unixOf t = second t := rfl
      have e2 : unixOf mt = second mt := rfl
      rw [e1, e2]
      by_cases he : second t = second mt
      · exact ⟨fun _ => by simp [he], fun h => absurd ⟨hz, t, rfl, he⟩ h⟩
      · refine ⟨fun h => ?_, fun _ => by simp [he]⟩
        obtain ⟨_, t', ht', h'⟩ := h
        cases ht'
        exact absurd h' he

/-- The answers to the request of a client that has `p`: all, the rest, or that there is no rest. -/
inductive ResumeAnswer (io : ContentIO ω) (tag : Option Str) (i : FileInfo) (d : Str) (p : Option Part) : List WEvent → Prop where
  | whole (h : Header) : (∀ got c, goesOn p = some (got, c) → ¬ Hit io.parseTime c i.modTime) → fieldOf h b!"Etag" = tag →
      fieldOf h b!"Last-Modified" = (if isZeroTime i.modTime then none else some (io.formatTime i.modTime)) → ResumeAnswer io tag i d p (sentLog 200 h d)
  | rest (h : Header) {got c : Str} : goesOn p = some (got, c) → Hit io.parseTime c i.modTime → got.length < d.length →
      fieldOf h b!"Content-Range" = some (b!"bytes " ++ itoaNat got.length ++ b!"-" ++ itoaNat (d.length - 1) ++ b!"/" ++ itoaNat d.length) →
      ResumeAnswer io tag i d p (sentLog 206 h (d.drop got.length))
  | beyond (h : Header) (b : Str) {got c : Str} : goesOn p = some (got, c) → Hit io.parseTime c i.modTime → ¬ got.length < d.length →
      ResumeAnswer io tag i d p [.status true 416 h, .body b]

theorem goesOn_ne {p : Option Part} {got c : Str} (h : goesOn p = some (got, c)) : p = some ⟨got, some c, false⟩ ∧ got ≠ [] := by
  unfold goesOn at h
  split at h
  · split at h
    · cases h
    · rename_i hg
      cases h
      exact ⟨rfl, hg⟩
  · cases h

theorem resume_answer {io : ContentIO ω} {o : Oracle} {tag : Option Str} {i : FileInfo} {d : Str} {req : Req} {log : List WEvent}
    (hs : Sends io o tag i d req log) {p : Option Part} (hp : Resumes p req) (h200 : o.bad 200 = false) (h206 : o.bad 206 = false)
    (h416 : o.bad 416 = false) (hc : ∀ got c, goesOn p = some (got, c) → c ≠ [] ∧ (34 : UInt8) ∉ c ∧ got.length < 2 ^ 63) :
    ResumeAnswer io tag i d p log := by
  obtain ⟨name, h0, f1, f2, hruns⟩ := hs
  have whole : checkPreconditions io.parseTime (condReq req) ((setLastModified io i.modTime h0).get b!"Etag") i.modTime = .go [] →
      (∀ got c, goesOn p = some (got, c) → ¬ Hit io.parseTime c i.modTime) → ResumeAnswer io tag i d p log := by
    intro hgo hno
    rw [hruns _ (runs_whole hp.method h200 hgo)]
    exact .whole _ hno ((field_whole io o name i.modTime d f2).1.trans f1) (field_whole io o name i.modTime d f2).2
  cases hg : goesOn p with
  | none =>
    have hr := hp.range
    rw [hg] at hr
    refine whole ?_ (by rw [hg]; intro _ _ h; cases h)
    rw [resume_conditions hp, show (condReq req).range = [] from hr]
    simp
  | some x =>
    obtain ⟨got, c⟩ := x
    obtain ⟨hne, hq, hlen⟩ := hc got c hg
    have hr := hp.range
    have hck := hp.check
    rw [hg] at hr hck
    dsimp only at hr hck
    have hrange : (condReq req).range = rangeText got.length := hr
    have hrne : rangeText got.length ≠ [] := by unfold rangeText; simp
    have hif := ifRange_hit (parse := io.parseTime) (etag := (setLastModified io i.modTime h0).get b!"Etag") (mt := i.modTime) hp.method hck hne hq
    by_cases hh : Hit io.parseTime c i.modTime
    · have hgo : checkPreconditions io.parseTime (condReq req) ((setLastModified io i.modTime h0).get b!"Etag") i.modTime = .go (rangeText got.length) := by
        rw [resume_conditions hp, hif.1 hh, hrange]
        simp
      by_cases hlt : got.length < d.length
      · rw [hruns _ (runs_range hp.method h206 hlen hlt hgo)]
        refine .rest _ hg hh hlt ?_
        unfold partHeader
        dsimp only
        rw [sentHeader_field (by decide) (by decide), fieldOf_put_same (by decide +kernel)]
        unfold contentRange
        dsimp only
        have : itoa ((got.length : Int) + ((d.length - got.length : Nat) : Int) - 1) = itoaNat (d.length - 1) := by
          unfold itoa
          rw [if_neg (by omega)]
          congr 1
          omega
        rw [this]
      · rw [hruns _ (runs_beyond h416 hlen hlt hgo)]
        exact .beyond _ _ hg hh hlt
    · refine whole ?_ (by rw [hg]; intro _ _ h; cases h; exact hh)
      rw [resume_conditions hp, hif.2 hh, hrange]
      simp [hrne]

/-! What the client makes of them -/

/-- A time is written as a date without quotes, and read back to the second. -/
def PlainDate (io : ContentIO ω) (t : Int) : Prop := Dated io t ∧ (34 : UInt8) ∉ io.formatTime t

theorem second_date (n : Int) : second (n * 1000000000) = n := by
  unfold second
  omega

theorem take_all {d : Str} {cut : Nat} : decide (d.length ≤ cut) = true ↔ d.take cut = d := by
  rw [decide_eq_true_iff]
  constructor
  · exact List.take_of_length_le
  · intro h
    have := congrArg List.length h
    rw [List.length_take] at this
    omega

theorem takeUp_whole (strict : Bool) (p : Option Part) (h : Header) (d : Str) (cut : Nat) :
    takeUp strict p (sentLog 200 h d) cut = some ⟨d.take cut, checkOf strict h, decide (d.length ≤ cut)⟩ := by
  obtain ⟨r1, r2, r3⟩ := received_sent 200 h d
  unfold takeUp
  rw [r1, r2, r3]
  rfl

theorem takeUp_rest {strict : Bool} {p : Option Part} {h : Header} {b got c t : Str} {cut : Nat} (hg : goesOn p = some (got, c))
    (hf : fieldOf h b!"Content-Range" = some (b!"bytes " ++ itoaNat got.length ++ b!"-" ++ t)) :
    takeUp strict p (sentLog 206 h b) cut = some ⟨got ++ b.take cut, some c, decide (b.length ≤ cut)⟩ := by
  obtain ⟨r1, r2, r3⟩ := received_sent 206 h b
  unfold takeUp
  rw [r1, r2, r3]
  show (match goesOn p with | some (got, c) => _ | none => none) = _
  rw [hg]
  dsimp only
  rw [hf, if_pos]
  rw [Option.getD_some, List.isPrefixOf_iff_prefix]
  exact List.prefix_append _ _

/-- C126: what exactly a visit does, whatever became of the file: the rest is sent if the client tells the version by a date of the same
second, and is appended to what it has. -/
theorem resume_exact {io : ContentIO ω} {o : Oracle} {tag : Option Str} {i : FileInfo} {d : Str} {req : Req} {log : List WEvent}
    (hs : Sends io o tag i d req log) {p : Option Part} (hp : Resumes p req) (h200 : o.bad 200 = false) (h206 : o.bad 206 = false)
    (h416 : o.bad 416 = false) (hc : ∀ got c, goesOn p = some (got, c) → c ≠ [] ∧ (34 : UInt8) ∉ c ∧ got.length < 2 ^ 63) {strict : Bool} {cut : Nat} :
    (∀ got c, goesOn p = some (got, c) → Hit io.parseTime c i.modTime →
      if got.length < d.length then received log = some 206 ∧ receivedBody log = d.drop got.length ∧
        takeUp strict p log cut = some ⟨got ++ (d.drop got.length).take cut, some c, decide (d.length ≤ got.length + cut)⟩
      else received log = some 416 ∧ takeUp strict p log cut = none) ∧
    ((∀ got c, goesOn p = some (got, c) → ¬ Hit io.parseTime c i.modTime) → received log = some 200 ∧ receivedBody log = d ∧
      ∃ c, takeUp strict p log cut = some ⟨d.take cut, c, decide (d.length ≤ cut)⟩) := by
  cases resume_answer hs hp h200 h206 h416 hc with
  | whole h hno f1 f2 =>
    exact ⟨fun got c hg hh => absurd hh (hno got c hg), fun _ => ⟨(received_sent ..).1, (received_sent ..).2.2, _, takeUp_whole ..⟩⟩
  | rest h hg hh hlt hf =>
    rename_i got c
    refine ⟨?_, fun hno => absurd hh (hno _ _ hg)⟩
    intro got' c' hg' _
    rw [hg] at hg'
    cases hg'
    rw [if_pos hlt]
    refine ⟨(received_sent ..).1, (received_sent ..).2.2, ?_⟩
    rw [takeUp_rest (t := itoaNat (d.length - 1) ++ b!"/" ++ itoaNat d.length) hg (by rw [hf]; simp)]
    congr 2
    rw [List.length_drop]
    simp only [decide_eq_decide]
    omega
  | beyond h b hg hh hlt =>
    refine ⟨?_, fun hno => absurd hh (hno _ _ hg)⟩
    intro got' c' hg' _
    rw [hg] at hg'
    cases hg'
    rw [if_neg hlt]
    exact ⟨rfl, rfl⟩

/-- what holds of the part that a client has after a visit `u` -/
def Good (io : ContentIO ω) (i : FileInfo) (d : Str) (q : Part) : Prop :=
  q.got <+: d ∧ (q.done = true ↔ q.got = d) ∧
    ∀ c, q.check = some c → c ≠ [] ∧ (34 : UInt8) ∉ c ∧ io.parseTime c = some (second i.modTime * 1000000000)

theorem dates_step {io : ContentIO ω} {o : Oracle} {tag : FileInfo → Option Str} {i j : FileInfo} {d d0 : Str} {req : Req} {log : List WEvent}
    {strict : Bool} (htag : ∀ i t, tag i = some t → strict = true ∧ entityTag t = false)
    (hs : Sends io o (tag i) i d req log) {p : Option Part} (hp : Resumes p req) (h200 : o.bad 200 = false) (h206 : o.bad 206 = false)
    (h416 : o.bad 416 = false) (hd : PlainDate io i.modTime) (hq : ∀ q, p = some q → Good io j d0 q ∧ d0.length < 2 ^ 63)
    (hsame : p ≠ none → second j.modTime = second i.modTime → d0 = d) (cut : Nat) :
    (∃ q, takeUp strict p log cut = some q ∧ Good io i d q) ∧
    (received log = some 206 ↔ goesOn p ≠ none ∧ second j.modTime = second i.modTime ∧ i.modTime ≠ -62135596800000000000) ∧
    (received log = some 206 → ∃ got c, goesOn p = some (got, c) ∧ got ++ receivedBody log = d) ∧
    (received log ≠ some 206 → received log = some 200 ∧ receivedBody log = d) := by
  have hlen : ∀ got c, goesOn p = some (got, c) → Good io j d0 ⟨got, some c, false⟩ ∧ got.length < 2 ^ 63 := by
    intro got c hg
    obtain ⟨h1, h2⟩ := hq _ (goesOn_ne hg).1
    have := h1.1.length_le
    exact ⟨h1, by dsimp only at this; omega⟩
  have hhit : ∀ got c, goesOn p = some (got, c) → (Hit io.parseTime c i.modTime ↔ second j.modTime = second i.modTime ∧ i.modTime ≠ -62135596800000000000) := by
    intro got c hg
    have hpar := ((hlen got c hg).1.2.2 c rfl).2.2
    unfold Hit
    rw [hpar]
    constructor
    · rintro ⟨h1, t, ht, h2⟩
      cases ht
      rw [second_date] at h2
      exact ⟨h2, h1⟩
    · rintro ⟨h1, h2⟩
      exact ⟨h2, _, rfl, by rw [second_date]; exact h1⟩
  cases resume_answer hs hp h200 h206 h416 (fun got c hg => ⟨((hlen got c hg).1.2.2 c rfl).1, ((hlen got c hg).1.2.2 c rfl).2.1, (hlen got c hg).2⟩) with
  | whole h hno f1 f2 =>
    obtain ⟨r1, r2, r3⟩ := received_sent 200 h d
    rw [takeUp_whole]
    refine ⟨⟨_, rfl, List.take_prefix _ _, take_all, ?_⟩, ?_, ?_, ?_⟩
    · intro c hc
      have ht : tagOf strict h = none := by
        unfold tagOf
        rw [f1]
        cases hti : tag i with
        | none => rfl
        | some t => obtain ⟨a, b⟩ := htag i t hti; simp [Option.filter, a, b]
      have hdt : dateOf h = some c := by
        have : checkOf strict h = some c := hc
        unfold checkOf at this
        rw [ht] at this
        simpa using this
      unfold dateOf at hdt
      rw [f2] at hdt
      split at hdt
      · cases hdt
      · cases hdt
        exact ⟨hd.1.1, hd.2, hd.1.2⟩
    · rw [r1]
      constructor
      · intro h; cases h
      · rintro ⟨h1, h2⟩
        cases hg : goesOn p with
        | none => exact absurd hg h1
        | some x => exact absurd ((hhit x.1 x.2 hg).2 h2) (hno x.1 x.2 hg)
    · rw [r1]; intro h; cases h
    · intro _; exact ⟨r1, r3⟩
  | rest h hg hh hlt hf =>
    rename_i got c
    obtain ⟨r1, r2, r3⟩ := received_sent 206 h (d.drop got.length)
    obtain ⟨hgood, _⟩ := hlen got c hg
    have hsec := (hhit got c hg).1 hh
    have hd0 : d0 = d := hsame (by rw [(goesOn_ne hg).1]; simp) hsec.1
    subst hd0
    obtain ⟨rest, hrest⟩ := hgood.1
    dsimp only at hrest
    have hdrop : d0.drop got.length = rest := by rw [← hrest, List.drop_left]
    rw [takeUp_rest (t := itoaNat (d0.length - 1) ++ b!"/" ++ itoaNat d0.length) hg (by rw [hf]; simp), hdrop]
    rw [hdrop] at r1 r2 r3
    refine ⟨⟨_, rfl, ⟨rest.drop cut, ?_⟩, ?_, ?_⟩, ?_, ?_, ?_⟩
    · dsimp only
      rw [List.append_assoc, List.take_append_drop, hrest]
    · dsimp only
      rw [take_all, ← hrest, List.append_cancel_left_eq]
    · intro c' hc'
      cases hc'
      obtain ⟨a, b, e⟩ := hgood.2.2 c rfl
      exact ⟨a, b, by rw [e, hsec.1]⟩
    · exact ⟨fun _ => ⟨by rw [hg]; simp, hsec⟩, fun _ => r1⟩
    · intro _
      exact ⟨got, c, hg, by rw [r3, hrest]⟩
    · intro hne; exact absurd r1 hne
  | beyond h b hg hh hlt =>
    rename_i got c
    obtain ⟨hgood, _⟩ := hlen got c hg
    have hsec := (hhit got c hg).1 hh
    have hd0 : d0 = d := hsame (by rw [(goesOn_ne hg).1]; simp) hsec.1
    subst hd0
    have hne : got ≠ d0 := fun he => by have := hgood.2.1.2 he; cases this
    exact absurd (hgood.1.eq_of_length (by have := hgood.1.length_le; dsimp only at this ⊢; omega)) hne

theorem dates_inv {io : ContentIO ω} {o : Oracle} {tag : FileInfo → Option Str} {strict : Bool} {answer : CacheVisit ω → List WEvent}
    {info : CacheVisit ω → FileInfo} {data : CacheVisit ω → Str}
    (htag : ∀ i t, tag i = some t → strict = true ∧ entityTag t = false) (h200 : o.bad 200 = false) (h206 : o.bad 206 = false)
    (h416 : o.bad 416 = false) {vs : List (CacheVisit ω)}
    (hs : ∀ u ∈ vs, ∀ p, Resumes p u.req → Sends io o (tag (info u)) (info u) (data u) u.req (answer u))
    (hd : ∀ u ∈ vs, PlainDate io (info u).modTime) (hsz : ∀ u ∈ vs, (data u).length < 2 ^ 63)
    (hsame : ∀ u ∈ vs, ∀ v ∈ vs, second (info u).modTime = second (info v).modTime → data u = data v)
    {p : Option Part} (hf : Fetched strict answer vs p) :
    ∀ q, p = some q → ∃ u, vs.getLast? = some u ∧ Good io (info u) (data u) q := by
  induction hf with
  | nil => intro q hq; cases hq
  | anew _ _ => intro q hq; cases hq
  | @visit vs p v cut hf hr ih =>
    intro q hq
    refine ⟨v, by simp, ?_⟩
    have hvm : v ∈ vs ++ [v] := by simp
    have ih := ih (fun u hu => hs u (List.mem_append_left _ hu)) (fun u hu => hd u (List.mem_append_left _ hu))
      (fun u hu => hsz u (List.mem_append_left _ hu)) (fun u hu v hv => hsame u (List.mem_append_left _ hu) v (List.mem_append_left _ hv))
    have step : ∀ u, (∀ q, p = some q → Good io (info u) (data u) q ∧ (data u).length < 2 ^ 63) →
        (p ≠ none → second (info u).modTime = second (info v).modTime → data u = data v) → Good io (info v) (data v) q := by
      intro u h1 h2
      obtain ⟨⟨q', e1, e2⟩, _⟩ := dates_step htag (hs v hvm p hr) hr h200 h206 h416 (hd v hvm) h1 h2 cut
      rw [e1] at hq
      cases hq
      exact e2
    cases p with
    | none => exact step v (fun _ h => (nomatch h)) (fun h => absurd rfl h)
    | some q0 =>
      obtain ⟨u, hu, hgood⟩ := ih q0 rfl
      have hum : u ∈ vs ++ [v] := List.mem_append_left _ (List.mem_of_getLast? hu)
      exact step u (fun q h => by cases h; exact ⟨hgood, hsz u hum⟩) (fun _ h => hsame u hum v hvm h)

/-- the client after a visit, and what was sent -/
def TakenUp (strict : Bool) (p : Option Part) (log : List WEvent) (cut : Nat) (d : Str) (again : Prop) : Prop :=
  (∃ q, takeUp strict p log cut = some q ∧ q.got <+: d ∧ (q.done = true ↔ q.got = d)) ∧
  (received log = some 206 ↔ goesOn p ≠ none ∧ again) ∧
  (received log = some 206 → ∃ got c, goesOn p = some (got, c) ∧ got ++ receivedBody log = d) ∧
  (received log ≠ some 206 → received log = some 200 ∧ receivedBody log = d)

theorem dates_history {io : ContentIO ω} {o : Oracle} {tag : FileInfo → Option Str} {strict : Bool} {answer : CacheVisit ω → List WEvent}
    {info : CacheVisit ω → FileInfo} {data : CacheVisit ω → Str}
    (htag : ∀ i t, tag i = some t → strict = true ∧ entityTag t = false) (h200 : o.bad 200 = false) (h206 : o.bad 206 = false)
    (h416 : o.bad 416 = false) {vs : List (CacheVisit ω)} {v : CacheVisit ω}
    (hs : ∀ u ∈ vs ++ [v], ∀ p, Resumes p u.req → Sends io o (tag (info u)) (info u) (data u) u.req (answer u))
    (hd : ∀ u ∈ vs ++ [v], PlainDate io (info u).modTime) (hsz : ∀ u ∈ vs ++ [v], (data u).length < 2 ^ 63)
    (hsame : ∀ u ∈ vs ++ [v], ∀ v' ∈ vs ++ [v], second (info u).modTime = second (info v').modTime → data u = data v')
    {p : Option Part} (hf : Fetched strict answer vs p) (hr : Resumes p v.req) (cut : Nat) :
    TakenUp strict p (answer v) cut (data v) (∃ u, vs.getLast? = some u ∧ second (info u).modTime = second (info v).modTime ∧
      (info v).modTime ≠ -62135596800000000000) := by
  have hinv := dates_inv htag h200 h206 h416 (fun u hu => hs u (List.mem_append_left _ hu)) (fun u hu => hd u (List.mem_append_left _ hu))
      (fun u hu => hsz u (List.mem_append_left _ hu)) (fun u hu v hv => hsame u (List.mem_append_left _ hu) v (List.mem_append_left _ hv)) hf
  have hvm : v ∈ vs ++ [v] := by simp
  cases p with
  | none =>
    obtain ⟨⟨q, e1, e2⟩, h2, h3, h4⟩ := dates_step (j := info v) (d0 := data v) htag (hs v hvm none hr) hr h200 h206 h416 (hd v hvm)
      (fun _ h => (nomatch h)) (fun h => absurd rfl h) cut
    refine ⟨⟨q, e1, e2.1, e2.2.1⟩, ⟨fun h => absurd rfl (h2.1 h).1, fun h => absurd rfl h.1⟩, h3, h4⟩
  | some q0 =>
    obtain ⟨u, hu, hgood⟩ := hinv q0 rfl
    have hum : u ∈ vs ++ [v] := List.mem_append_left _ (List.mem_of_getLast? hu)
    obtain ⟨⟨q, e1, e2⟩, h2, h3, h4⟩ := dates_step htag (hs v hvm _ hr) hr h200 h206 h416 (hd v hvm)
      (fun q h => by cases h; exact ⟨hgood, hsz u hum⟩) (fun _ h => hsame u hum v hvm h) cut
    refine ⟨⟨q, e1, e2.1, e2.2.1⟩, ?_, h3, h4⟩
    rw [h2]
    constructor
    · rintro ⟨a, b⟩; exact ⟨a, u, hu, b⟩
    · rintro ⟨a, u', hu', b⟩
      rw [hu] at hu'
      cases hu'
      exact ⟨a, b⟩

/-- C126, for static files without tags, or a client that does not take them for tags: after any visits, each broken off anywhere or not, and any
changes of the file, what the client has after a further visit is a beginning of the file as it is then, and it says that it is at the end
exactly if it has all of it. The rest, and no more, is sent exactly if the client has something and the file is of the same second as at the
visit before. Missing from the full claim: files that change twice in one second, see `C126_refuted_mixed`, and tags, see `C126_refuted`. -/
theorem C126_dates_partial {rx : Regex} {o : Oracle} {io : ContentIO ω} {fs : FS ω} {opt : StaticOptions ω} {name : Str} {e : Engine (Prog ω)}
    (ha : FileApp rx o io fs opt name e) (h200 : o.bad 200 = false) (h206 : o.bad 206 = false) (h304 : o.bad 304 = false) (h416 : o.bad 416 = false)
    {strict : Bool} (hst : Tagless strict opt) {info : CacheVisit ω → FileInfo} {data : CacheVisit ω → Str} {vs : List (CacheVisit ω)}
    {v : CacheVisit ω} (hv : ∀ u ∈ vs ++ [v], VisitOf fs io opt name u (info u) (data u))
    (hd : ∀ u ∈ vs ++ [v], PlainDate io (info u).modTime) (hsz : ∀ u ∈ vs ++ [v], (data u).length < 2 ^ 63)
    (hsame : ∀ u ∈ vs ++ [v], ∀ v' ∈ vs ++ [v], second (info u).modTime = second (info v').modTime → data u = data v')
    {p : Option Part} (hf : Fetched strict (answerAt rx o e) vs p) (hr : Resumes p v.req) (cut : Nat) :
    TakenUp strict p (answerAt rx o e v) cut (data v) (∃ u, vs.getLast? = some u ∧ second (info u).modTime = second (info v).modTime ∧
      (info v).modTime ≠ -62135596800000000000) := by
  refine dates_history (tag := fileTag opt) ?_ h200 h206 h416 (fun u hu p hp => app_served ha h304 (hv u hu) hp) hd hsz hsame hf hr cut
  intro i t ht
  unfold fileTag at ht
  rcases hst with hst | hst
  · rw [if_pos hst] at ht; cases ht
  · split at ht
    · cases ht
    · cases ht; exact ⟨hst, C125_unquoted _ _⟩

/-- C126 for `ctx.Download`: the same; it sets no tags. -/
theorem C126_download_partial {rx : Regex} {o : Oracle} {io : ContentIO ω} {fs : FS ω} {fpath path : Str} {e : Engine (Prog ω)}
    (ha : DownloadApp rx o io fs fpath path e) (hok : ∀ c : Int, 100 ≤ c → c ≤ 999 → o.bad c = false)
    {strict : Bool} {info : CacheVisit ω → FileInfo} {data : CacheVisit ω → Str} {vs : List (CacheVisit ω)}
    {v : CacheVisit ω} (hv : ∀ u ∈ vs ++ [v], DownloadOf fs io fpath path u (info u) (data u))
    (hd : ∀ u ∈ vs ++ [v], PlainDate io (info u).modTime) (hsz : ∀ u ∈ vs ++ [v], (data u).length < 2 ^ 63)
    (hsame : ∀ u ∈ vs ++ [v], ∀ v' ∈ vs ++ [v], second (info u).modTime = second (info v').modTime → data u = data v')
    {p : Option Part} (hf : Fetched strict (answerAt rx o e) vs p) (hr : Resumes p v.req) (cut : Nat) :
    TakenUp strict p (answerAt rx o e v) cut (data v) (∃ u, vs.getLast? = some u ∧ second (info u).modTime = second (info v).modTime ∧
      (info v).modTime ≠ -62135596800000000000) :=
  dates_history (tag := fun _ => none) (fun _ _ h => (nomatch h)) (hok _ (by decide) (by decide)) (hok _ (by decide) (by decide)) (hok _ (by decide) (by decide))
    (fun u hu _ hp => download_served ha (hv u hu) hp hok) hd hsz hsame hf hr cut

/-- what holds of the part that a client with tags has -/
def Tagged (io : ContentIO ω) (q : Part) : Prop :=
  q.got.length < 2 ^ 63 ∧ ∀ c, q.check = some c → c ≠ [] ∧ (34 : UInt8) ∉ c ∧ io.parseTime c = none

theorem tags_step {io : ContentIO ω} {o : Oracle} {opt : StaticOptions ω} (het : opt.etag ≠ 0)
    (hno : ∀ s : Str, (∀ c ∈ s, c ∈ b!"0123456789abcdef-") → io.parseTime s = none) {i : FileInfo} {d : Str} {req : Req} {log : List WEvent}
    (hs : Sends io o (fileTag opt i) i d req log) {p : Option Part} (hp : Resumes p req) (h200 : o.bad 200 = false) (h206 : o.bad 206 = false)
    (h416 : o.bad 416 = false) (hsz : d.length < 2 ^ 63) (hq : ∀ q, p = some q → Tagged io q) (cut : Nat) :
    received log = some 200 ∧ receivedBody log = d ∧ ∃ c, takeUp false p log cut = some ⟨d.take cut, c, decide (d.length ≤ cut)⟩ ∧
      Tagged io ⟨d.take cut, c, decide (d.length ≤ cut)⟩ := by
  have hlen : ∀ got c, goesOn p = some (got, c) → c ≠ [] ∧ (34 : UInt8) ∉ c ∧ got.length < 2 ^ 63 := by
    intro got c hg
    have := hq _ (goesOn_ne hg).1
    exact ⟨(this.2 c rfl).1, (this.2 c rfl).2.1, this.1⟩
  have hmiss : ∀ got c, goesOn p = some (got, c) → ¬ Hit io.parseTime c i.modTime := by
    rintro got c hg ⟨_, t, ht, _⟩
    rw [((hq _ (goesOn_ne hg).1).2 c rfl).2.2] at ht
    cases ht
  cases resume_answer hs hp h200 h206 h416 hlen with
  | whole h hno' f1 f2 =>
    obtain ⟨r1, r2, r3⟩ := received_sent 200 h d
    refine ⟨r1, r3, _, takeUp_whole .., ?_, ?_⟩
    · show (d.take cut).length < _
      rw [List.length_take]; omega
    · intro c hc
      have hc' : checkOf false h = some c := hc
      have : c = staticTag opt.etag i := by
        unfold checkOf tagOf at hc'
        rw [f1] at hc'
        unfold fileTag at hc'
        rw [if_neg het] at hc'
        simpa [Option.filter] using hc'.symm
      subst this
      exact ⟨staticTag_ne_nil _ _, fun hm => (tagText_ne (staticTag_text _ _ _ hm)).1 rfl, hno _ (staticTag_text _ _)⟩
  | rest h hg hh _ _ => exact absurd hh (hmiss _ _ hg)
  | beyond h b hg hh _ => exact absurd hh (hmiss _ _ hg)

/-- C126, with tags, for a client that sends them back: it is never sent the rest, but the whole file from its beginning at each visit.
`hno`: text of hexadecimal digits and dashes is no date. -/
theorem C126_tags {rx : Regex} {o : Oracle} {io : ContentIO ω} {fs : FS ω} {opt : StaticOptions ω} {name : Str} {e : Engine (Prog ω)}
    (ha : FileApp rx o io fs opt name e) (h200 : o.bad 200 = false) (h206 : o.bad 206 = false) (h304 : o.bad 304 = false) (h416 : o.bad 416 = false)
    (het : opt.etag ≠ 0) (hno : ∀ s : Str, (∀ c ∈ s, c ∈ b!"0123456789abcdef-") → io.parseTime s = none)
    {info : CacheVisit ω → FileInfo} {data : CacheVisit ω → Str} {vs : List (CacheVisit ω)}
    {v : CacheVisit ω} (hv : ∀ u ∈ vs ++ [v], VisitOf fs io opt name u (info u) (data u)) (hsz : ∀ u ∈ vs ++ [v], (data u).length < 2 ^ 63)
    {p : Option Part} (hf : Fetched false (answerAt rx o e) vs p) (hr : Resumes p v.req) (cut : Nat) :
    received (answerAt rx o e v) = some 200 ∧ receivedBody (answerAt rx o e v) = data v ∧
      ∃ q, takeUp false p (answerAt rx o e v) cut = some q ∧ q.got = (data v).take cut ∧ (q.done = true ↔ q.got = data v) := by
  have hinv : ∀ q, p = some q → Tagged io q := by
    have hv' := fun u hu => hv u (List.mem_append_left [v] hu)
    have hsz' := fun u hu => hsz u (List.mem_append_left [v] hu)
    clear hr hv hsz
    induction hf with
    | nil => intro q hq; cases hq
    | anew _ _ => intro q hq; cases hq
    | @visit vs p u cut hf hr ih =>
      intro q hq
      have hum : u ∈ vs ++ [u] := by simp
      obtain ⟨_, _, c, h1, h2⟩ := tags_step het hno (app_served ha h304 (hv' u hum) hr) hr h200 h206 h416 (hsz' u hum)
        (ih (fun u hu => hv' u (List.mem_append_left _ hu)) (fun u hu => hsz' u (List.mem_append_left _ hu))) cut
      rw [h1] at hq
      cases hq
      exact h2
  have hvm : v ∈ vs ++ [v] := by simp
  obtain ⟨h1, h2, c, h3, h4⟩ := tags_step het hno (app_served ha h304 (hv v hvm) hr) hr h200 h206 h416 (hsz v hvm) hinv cut
  exact ⟨h1, h2, _, h3, rfl, take_all⟩

/-- C126: the exact outcome of a visit, whatever became of the file: if the client tells the version by a date of the second in which the
file was last changed, it is sent what follows the bytes that it has, be it of another version or not, and 416 if nothing follows; otherwise
it is sent the whole file. -/
theorem C126_exact {rx : Regex} {o : Oracle} {io : ContentIO ω} {fs : FS ω} {opt : StaticOptions ω} {name : Str} {e : Engine (Prog ω)}
    (ha : FileApp rx o io fs opt name e) (h200 : o.bad 200 = false) (h206 : o.bad 206 = false) (h304 : o.bad 304 = false) (h416 : o.bad 416 = false)
    {v : CacheVisit ω} {i : FileInfo} {d : Str} (hv : VisitOf fs io opt name v i d) {p : Option Part} (hp : Resumes p v.req)
    (hc : ∀ got c, goesOn p = some (got, c) → c ≠ [] ∧ (34 : UInt8) ∉ c ∧ got.length < 2 ^ 63) (strict : Bool) (cut : Nat) :
    (∀ got c, goesOn p = some (got, c) → Hit io.parseTime c i.modTime →
      if got.length < d.length then received (answerAt rx o e v) = some 206 ∧ receivedBody (answerAt rx o e v) = d.drop got.length ∧
        takeUp strict p (answerAt rx o e v) cut = some ⟨got ++ (d.drop got.length).take cut, some c, decide (d.length ≤ got.length + cut)⟩
      else received (answerAt rx o e v) = some 416 ∧ takeUp strict p (answerAt rx o e v) cut = none) ∧
    ((∀ got c, goesOn p = some (got, c) → ¬ Hit io.parseTime c i.modTime) → received (answerAt rx o e v) = some 200 ∧
      receivedBody (answerAt rx o e v) = d ∧
      ∃ c, takeUp strict p (answerAt rx o e v) cut = some ⟨d.take cut, c, decide (d.length ≤ cut)⟩) :=
  resume_exact (app_served ha h304 hv hp) hp h200 h206 h416 hc

/-! Examples and refutations -/

namespace Demo

/-- a visit of a client that has `p` -/
def resumeOne (path : Str) (p : Option Part) (w : FileInfo × Str) : CacheVisit (FileInfo × Str) where
  req := { at' path with header := fun x =>
    if x = b!"Range" then (goesOn p).map (fun g => [b!"bytes=" ++ itoaNat g.1.length ++ b!"-"])
    else if x = b!"If-Range" then (goesOn p).map (fun g => [g.2]) else none }
  ctx := Ctx.new
  body := none
  world := w

theorem resumeOne_resumes (path : Str) (p : Option Part) (w : FileInfo × Str) : Resumes p (resumeOne path p w).req where
  method := rfl
  range := by
    show Header.get _ _ = _
    unfold Header.get
    rw [show canonKey b!"Range" = b!"Range" by decide +kernel]
    rw [show (resumeOne path p w).req.header b!"Range" = (goesOn p).map (fun g => [b!"bytes=" ++ itoaNat g.1.length ++ b!"-"]) from rfl]
    cases goesOn p <;> rfl
  check := by
    show Header.get _ _ = _
    unfold Header.get
    rw [show canonKey b!"If-Range" = b!"If-Range" by decide +kernel]
    rw [show (resumeOne path p w).req.header b!"If-Range" = (goesOn p).map (fun g => [g.2]) from rfl]
    cases goesOn p <;> rfl
  others := by
    intro x hx
    simp only [List.mem_cons, List.not_mem_nil, or_false] at hx
    rcases hx with rfl | rfl | rfl | rfl <;> rfl

theorem resumeOne_of (etag : ETagType) (p : Option Part) (i : FileInfo) (d : Str) (hd : i.dir = false) :
    VisitOf oneFS oneIO (oneOpt etag) b!"f.txt" (resumeOne b!"/static/f.txt" p (i, d)) i d where
  routed := ⟨Or.inr ⟨rfl, Int.le_refl 1⟩, show b!"/static/f.txt" ≠ b!"*" by decide, List.mem_cons_self⟩
  path := show b!"/static/f.txt" = pathBelow (elems b!"/static") b!"f.txt" by decide +kernel
  file := ⟨_, _, _, rfl, rfl, hd, rfl⟩

/-- net/http for it: `ctx.Download` gives the context to `http.ServeContent` -/
def downHttp : Http (FileInfo × Str) := { oneHttp with serveContent := fun name modTime f => (serveContentStd oneIO chainO name modTime f).viaCtx }

/-- an application with one download -/
def downOps : List (Op (Prog (FileInfo × Str))) :=
  [.newRouter, .handle 0 b!"GET" b!"/get" [.ctxFunc (.download oneFS downHttp b!"f.txt" [] (fun ok => if ok then .ret else .do (.writeHeader 404) .ret))]]

/-- build it and test it -/
def withDown (p : Engine (Prog (FileInfo × Str)) → Bool) : Bool :=
  match runOps [] downOps with
  | .error _ => false
  | .ok heap =>
    match handler rx heap 0 [] with
    | .error _ => false
    | .ok e => p e

theorem downOps_endpoint : Endpoint downOps 0 1 [0, 1] :=
  ⟨⟨.child (c := ⟨some 0, b!"GET", b!"/get", _⟩) rfl rfl (.root (c := ⟨none, [], [], []⟩) rfl rfl), rfl⟩, _, rfl, by decide⟩

theorem downOps_only {j : Nat} {l : List Nat} (h : Endpoint downOps 0 j l) : fullPath downOps l = fullPath downOps [0, 1] := by
  obtain ⟨⟨hlin, _⟩, c, hc1, hc2⟩ := h
  have h1 : j = 1 := by
    match j, hc1 with
    | 0, hc1 => cases hc1; exact absurd rfl hc2
    | 1, _ => rfl
    | _ + 2, hc1 => cases hc1
  subst h1
  rw [hlin.unique downOps_endpoint.1.1]

theorem withDown_spec {p : Engine (Prog (FileInfo × Str)) → Bool} (h : withDown p = true) :
    ∃ e, DownloadApp rx chainO oneIO oneFS b!"f.txt" b!"/get" e ∧ p e = true := by
  unfold withDown at h
  cases h1 : runOps [] downOps with
  | error _ => rw [h1] at h; cases h
  | ok heap =>
    rw [h1] at h
    dsimp only at h
    cases h2 : handler rx heap 0 [] with
    | error _ => rw [h2] at h; cases h
    | ok e =>
      rw [h2] at h
      refine ⟨e, ⟨downOps, 0, 1, [0, 1], downHttp, heap, [], [], _, rfl, rfl, h1, h2, rfl, downOps_endpoint, rfl, rfl, ?_, ?_⟩, h⟩
      · rw [show routeSegs (fullPath downOps [0, 1]) = [b!"get"] by decide +kernel, show pathSegs b!"/get" = [b!"get"] by decide +kernel]
        exact .last (show acceptsSeg rx b!"get" b!"get" by unfold acceptsSeg; rw [show kind b!"get" = .literal by decide +kernel])
      · intro j l' hj _ _
        exact downOps_only hj

/-- the file, changed in the same second -/
def nextInfo : FileInfo := ⟨false, 1600000000700000000, 5, b!"f.txt"⟩

end Demo

open Demo

/-! A download that breaks off twice, and one whose file is replaced meanwhile. -/
example : withDown (fun e =>
    let visit := fun p d i cut => takeUp true p (answerAt rx chainO e (resumeOne b!"/get" p (i, d))) cut
    let p1 := visit none b!"old data" oldInfo 3
    let a2 := answerAt rx chainO e (resumeOne b!"/get" p1 (oldInfo, b!"old data"))
    let p2 := visit p1 b!"old data" oldInfo 2
    let p3 := visit p2 b!"old data" oldInfo 100
    let q3 := visit p2 b!"new" newInfo 100
    p1 == some ⟨b!"old", some b!"Fri, 14 Jul 2017 02:40:00 GMT", false⟩ && received a2 == some 206 && receivedBody a2 == b!" data" &&
    p2.map (·.got) == some b!"old d" && p3 == some ⟨b!"old data", some b!"Fri, 14 Jul 2017 02:40:00 GMT", true⟩ &&
    q3 == some ⟨b!"new", some b!"Sun, 13 Sep 2020 12:26:40 GMT", true⟩) = true := by decide +kernel

/-- a visit of that download -/
example (p : Option Part) (i : FileInfo) (d : Str) (hd : i.dir = false) :
    DownloadOf oneFS oneIO b!"f.txt" b!"/get" (resumeOne b!"/get" p (i, d)) i d where
  routed := ⟨Or.inr ⟨rfl, Int.le_refl 1⟩, show b!"/get" ≠ b!"*" by decide, List.mem_cons_self⟩
  path := rfl
  file := ⟨_, _, _, rfl, rfl, hd, rfl⟩

/-- the law about tags and dates -/
example (s : Str) (h : ∀ c ∈ s, c ∈ b!"0123456789abcdef-") : oneIO.parseTime s = none := by
  show (if s = _ then _ else if s = _ then _ else none) = none
  have hu : (44 : UInt8) ∉ s := fun hm => absurd (h _ hm) (by decide)
  rw [if_neg (fun he => hu (by rw [he]; decide)), if_neg (fun he => hu (by rw [he]; decide))]

/-- C126 in full: for all kinds of tags, all times and all clients. What the client has is a beginning of the file, and the rest is sent if the
file is the one of the visit before. -/
def C126_claim : Prop := ∀ (rx : Regex) (o : Oracle) (io : ContentIO (FileInfo × Str)) (fs : FS (FileInfo × Str)) (opt : StaticOptions (FileInfo × Str))
  (name : Str) (e : Engine (Prog (FileInfo × Str))), FileApp rx o io fs opt name e → o.bad 200 = false → o.bad 206 = false → o.bad 304 = false →
  o.bad 416 = false →
  ∀ (strict : Bool) (info : CacheVisit (FileInfo × Str) → FileInfo) (data : CacheVisit (FileInfo × Str) → Str) (vs : List (CacheVisit (FileInfo × Str)))
    (v : CacheVisit (FileInfo × Str)),
  (∀ u ∈ vs ++ [v], VisitOf fs io opt name u (info u) (data u)) → (∀ u ∈ vs ++ [v], PlainDate io (info u).modTime) →
  (∀ u ∈ vs ++ [v], (data u).length < 2 ^ 63) →
  (∀ u ∈ vs ++ [v], ∀ v' ∈ vs ++ [v], SameVersion 2 (info u) (info v') → data u = data v') →
  ∀ p, Fetched strict (answerAt rx o e) vs p → Resumes p v.req → ∀ cut,
  (∃ q, takeUp strict p (answerAt rx o e v) cut = some q ∧ q.got <+: data v ∧ (q.done = true ↔ q.got = data v)) ∧
  (goesOn p ≠ none → (info v).modTime ≠ -62135596800000000000 → (∀ u, vs.getLast? = some u → info u = info v) →
    received (answerAt rx o e v) = some 206)

theorem resume_claim (hall : C126_claim) {etag : ETagType} {strict : Bool} {i : FileInfo} {d : Str} (hi : i.dir = false) (hpd : PlainDate oneIO i.modTime)
    (hsz : d.length < 2 ^ 63) (hsame : SameVersion 2 newInfo i → b!"new" = d) (hsame' : SameVersion 2 i newInfo → d = b!"new")
    {e : Engine (Prog (FileInfo × Str))} (happ : FileApp rx chainO oneIO oneFS (oneOpt etag) b!"f.txt" e) (cut1 cut : Nat) :
    let p := takeUp strict none (answerAt rx chainO e (resumeOne b!"/static/f.txt" none (newInfo, b!"new"))) cut1
    let a := answerAt rx chainO e (resumeOne b!"/static/f.txt" p (i, d))
    (∃ q, takeUp strict p a cut = some q ∧ q.got <+: d ∧ (q.done = true ↔ q.got = d)) ∧
    (goesOn p ≠ none → i.modTime ≠ -62135596800000000000 → newInfo = i → received a = some 206) := by
  intro p a
  have hk := Fetched.visit (strict := strict) (answer := answerAt rx chainO e) (v := resumeOne b!"/static/f.txt" none (newInfo, b!"new")) cut1 .nil
    (resumeOne_resumes _ _ _)
  have := hall rx chainO oneIO oneFS (oneOpt etag) b!"f.txt" e happ rfl rfl rfl rfl strict (fun v => v.world.1) (fun v => v.world.2)
    _ (resumeOne b!"/static/f.txt" p (i, d)) (by
      intro u hu
      simp only [List.nil_append, List.cons_append, List.mem_cons, List.not_mem_nil, or_false] at hu
      rcases hu with rfl | rfl
      · exact resumeOne_of etag _ newInfo _ rfl
      · exact resumeOne_of etag _ i _ hi) (by
      intro u hu
      simp only [List.nil_append, List.cons_append, List.mem_cons, List.not_mem_nil, or_false] at hu
      rcases hu with rfl | rfl
      · exact show PlainDate oneIO newInfo.modTime from ⟨⟨by decide +kernel, by decide +kernel⟩, by decide +kernel⟩
      · exact hpd) (by
      intro u hu
      simp only [List.nil_append, List.cons_append, List.mem_cons, List.not_mem_nil, or_false] at hu
      rcases hu with rfl | rfl
      · exact show (3 : Nat) < 2 ^ 63 by decide
      · exact hsz) (by
      intro u hu v hv hs
      simp only [List.nil_append, List.cons_append, List.mem_cons, List.not_mem_nil, or_false] at hu hv
      rcases hu with rfl | rfl <;> rcases hv with rfl | rfl
      · rfl
      · exact hsame hs
      · exact hsame' hs
      · rfl) p hk (resumeOne_resumes _ _ _) cut
  refine ⟨this.1, fun h1 h2 h3 => this.2 h1 h2 ?_⟩
  intro u hu
  simp only [List.nil_append, List.getLast?_singleton, Option.some.injEq] at hu
  subst hu
  exact h3

/-- C126 is false with tags: the tag has no quotes, so that `If-Range` takes it for a date, and the download begins again. -/
theorem C126_refuted : ¬ C126_claim := by
  intro hall
  obtain ⟨e, happ, hp⟩ := withOne_spec (etag := 1) (p := fun e =>
    let p := takeUp false none (answerAt rx chainO e (resumeOne b!"/static/f.txt" none (newInfo, b!"new"))) 2
    goesOn p == some (b!"ne", b!"5f5e1000-3") && received (answerAt rx chainO e (resumeOne b!"/static/f.txt" p (newInfo, b!"new"))) == some 200) (by decide +kernel)
  have := (resume_claim hall (etag := 1) (strict := false) (i := newInfo) (d := b!"new") rfl
    ⟨⟨by decide +kernel, by decide +kernel⟩, by decide +kernel⟩ (by decide) (fun _ => rfl) (fun _ => rfl) happ 2 0).2
  simp only [Bool.and_eq_true, beq_iff_eq] at hp
  have h := this (by rw [hp.1]; simp) (by decide) rfl
  rw [hp.2] at h
  cases h

/-- C126 is false without tags: a file that is changed in the second in which it was made is taken for the same, and the client puts together
bytes of both. -/
theorem C126_refuted_mixed : ¬ C126_claim := by
  intro hall
  obtain ⟨e, happ, hp⟩ := withOne_spec (etag := 0) (p := fun e =>
    let p := takeUp false none (answerAt rx chainO e (resumeOne b!"/static/f.txt" none (newInfo, b!"new"))) 2
    takeUp false p (answerAt rx chainO e (resumeOne b!"/static/f.txt" p (nextInfo, b!"other"))) 9 ==
      some ⟨b!"neher", some b!"Sun, 13 Sep 2020 12:26:40 GMT", true⟩) (by decide +kernel)
  obtain ⟨q, h1, h2, _⟩ := (resume_claim hall (etag := 0) (strict := false) (i := nextInfo) (d := b!"other") rfl
    ⟨⟨by decide +kernel, by decide +kernel⟩, by decide +kernel⟩ (by decide) (fun h => absurd h.2.1 (by decide)) (fun h => absurd h.2.1 (by decide)) happ 2 9).1
  simp only [beq_iff_eq] at hp
  rw [hp] at h1
  cases h1
  exact absurd (List.isPrefixOf_iff_prefix.2 h2) (by decide)

end Water
