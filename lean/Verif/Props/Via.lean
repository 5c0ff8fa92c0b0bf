import Verif.Lemmas.Via
import Verif.Spec.SendFile
import Verif.Props.ServeFile
/-
C136: `ctx.ServeFile` answers as `ctx.File` does, and it alone ends the request.
-/
namespace Water
open Spec Demo
variable {ω : Type} {o : Oracle} {req : Req} {io : ContentIO ω} {disk : OsFiles ω} {name : Str} {s : St ω}

/-- C136: the client is clientGets the same, files are opened and closed alike, and the header map is left alike. Both return. -/
theorem C136_same (hok : AcceptsCodes o) (hs : Orderly s) (nx : St ω → Out × St ω) (i : Nat) :
    ∃ s' t', exec o req nx i (ctxFile io o disk name) s = (.ret, s') ∧ exec o req nx i (ctxServeFile io o disk name) s = (.ret, t') ∧
      clientGets t'.rw.log = clientGets s'.rw.log ∧ t'.world = s'.world ∧ t'.rw.header = s'.rw.header := by
  obtain ⟨s', t', h1, h2, h⟩ := serveFile_via (io := io) (disk := disk) (req := req) hok name nx i s hs
  exact ⟨s', t', h1, h2, by unfold clientGets; rw [h.code, h.head, h.bytes], h.rest.2.2.1, h.header⟩

/-- C136: what the context knows afterwards. After `ServeFile` it says that there is a response, with the status that the client is shown if
it is the first; after `File` it is as before, though there is a status for the client. -/
theorem C136_told (hok : AcceptsCodes o) (hs : Orderly s) (nx : St ω → Out × St ω) (i : Nat) :
    ∃ s' t', exec o req nx i (ctxFile io o disk name) s = (.ret, s') ∧ exec o req nx i (ctxServeFile io o disk name) s = (.ret, t') ∧
      s'.ctx = s.ctx ∧ received s'.rw.log ≠ none ∧ t'.ctx = { s.ctx with written := true, status := t'.ctx.status } ∧
      (Unsent s → received t'.rw.log = some t'.ctx.status) ∧ (s.ctx.written = true → t'.ctx.status = s.ctx.status) := by
  obtain ⟨s', t', h1, h2, h⟩ := serveFile_via (io := io) (disk := disk) (req := req) hok name nx i s hs
  exact ⟨s', t', h1, h2, h.keeps, h.begun, h.ctx, fun hu => h.fresh hu.1 hu.2, h.old⟩

/-- C136 for `ctx.Attachment` (and `ctx.Download`, which is `C94_content` with this): if nothing was sent before, the client is sent exactly
what `http.ServeContent` sends, begun with the Content-Disposition, and the context knows it. -/
theorem C136_attachment (hok : AcceptsCodes o) (hs : Unsent s) (modTime : Int) (f : Nat) (inline : List Bool) (nx : St ω → Out × St ω) (i : Nat) :
    ∃ s' t', exec o req nx i (serveContentStd io o name modTime f)
        { s with rw := { s.rw with header := s.rw.header.put b!"Content-Disposition" (dispositionFor inline name) } } = (.ret, s') ∧
      exec o req nx i (attachment io o name modTime f inline) s = (.ret, t') ∧ t'.rw.log = s'.rw.log ∧ t'.rw.header = s'.rw.header ∧ t'.world = s'.world ∧
      t'.ctx.written = true ∧ received t'.rw.log = some t'.ctx.status := by
  obtain ⟨s', t', h1, h2, h⟩ := serveContent_via (strict := true) (io := io) (req := req) hok name modTime f nx i
    { s with rw := { s.rw with header := s.rw.header.put b!"Content-Disposition" (dispositionFor inline name) } } (by
      rintro (h | h)
      · rw [show _ = false from hs.1] at h; cases h
      · exact absurd hs.2 h)
  exact ⟨s', t', h1, h2, h.same rfl hs.1 hs.2, h.header, h.rest.2.2.1, by rw [h.ctx], h.fresh hs.1 hs.2⟩

/-- C136: the request is over with `ServeFile`: the chain returns, no handler behind it has started, and the client is shown what it sent. -/
theorem C136_ends (hok : AcceptsCodes o) (hs : Orderly s) (hh : s.ctx.handlers[s.ctx.index]? = some (ctxServeFile io o disk name)) (fuel : Nat) :
    ∃ t', exec o req (run o req fuel) s.ctx.index (ctxServeFile io o disk name) (s.log (.start s.ctx.index)) = (.ret, t') ∧
      (run o req (fuel + 1) s).1 = .ret ∧ (run o req (fuel + 1) s).2.rw = t'.rw ∧
      (run o req (fuel + 1) s).2.trace = s.trace ++ [.start s.ctx.index, .stop s.ctx.index true] := by
  obtain ⟨s', t', h1, h2, h⟩ := serveFile_via (io := io) (disk := disk) (req := req) hok name (run o req fuel) s.ctx.index (s.log (.start s.ctx.index)) hs
  have hw : t'.ctx.written = true := by rw [h.ctx]
  have ht : t'.trace = s.trace ++ [.start s.ctx.index] := by
    rw [h.rest.2.2.2.1, h.quiet.2.2.1]; rfl
  have h2' : exec o req (run o req fuel) s.ctx.index (ctxServeFile io o disk name) (s.log (.start s.ctx.index)) = (.ret, t') := h2
  refine ⟨t', h2, ?_⟩
  rw [run, hh]
  dsimp only
  rw [h2']
  dsimp only
  have : (t'.log (.stop s.ctx.index t'.ctx.written)).bump.ctx.written = true := hw
  rw [if_pos this]
  refine ⟨rfl, rfl, ?_⟩
  show t'.trace ++ [_] = _
  rw [ht, hw, List.append_assoc]
  rfl

/-- C136: with `File` it is not: if nothing was written through the context, the next handler runs, in a context that says so, although the
client has its response. -/
theorem C136_goes_on (hok : AcceptsCodes o) (hs : Orderly s) (hw : s.ctx.written = false)
    (hh : s.ctx.handlers[s.ctx.index]? = some (ctxFile io o disk name)) (fuel : Nat) :
    ∃ s', run o req (fuel + 1) s = run o req fuel s' ∧ s'.ctx = { s.ctx with index := s.ctx.index + 1 } ∧ received s'.rw.log ≠ none ∧
      s'.trace = s.trace ++ [.start s.ctx.index, .stop s.ctx.index false] := by
  obtain ⟨s', t', h1, h2, h⟩ := serveFile_via (io := io) (disk := disk) (req := req) hok name (run o req fuel) s.ctx.index (s.log (.start s.ctx.index)) hs
  have hw' : s'.ctx.written = false := by rw [h.keeps]; exact hw
  have h1' : exec o req (run o req fuel) s.ctx.index (ctxFile io o disk name) (s.log (.start s.ctx.index)) = (.ret, s') := h1
  refine ⟨(s'.log (.stop s.ctx.index s'.ctx.written)).bump, ?_, ?_, h.begun, ?_⟩
  · rw [run, hh]
    dsimp only
    rw [h1']
    dsimp only
    have : (s'.log (.stop s.ctx.index s'.ctx.written)).bump.ctx.written = false := hw'
    rw [this]
    rfl
  · show { s'.ctx with index := s'.ctx.index + 1 } = _
    rw [h.keeps]
    rfl
  · show s'.trace ++ [_] = _
    rw [h.quiet.2.2.1, hw']
    show s.trace ++ [_] ++ [_] = _
    rw [List.append_assoc]
    rfl

/-- C136: so that `ctx.String` in the next handler is added to what `File` sent: the client has the status and header of `File` and both
bodies, and the context takes the status of `String` for that of the response. -/
theorem C136_added (hok : AcceptsCodes o) (hs : Unsent s) {code : Int} {text : Str} (hc : o.bad code = false)
    (hi : s.ctx.index = 0) (hh : s.ctx.handlers = [ctxFile io o disk name, .string code text .ret]) :
    ∃ s', exec o req (run o req 2) 0 (ctxFile io o disk name) (s.log (.start 0)) = (.ret, s') ∧
      clientGets (runAll o req s).2.rw.log = ((clientGets s'.rw.log).1, (clientGets s'.rw.log).2.1, (clientGets s'.rw.log).2.2 ++ text) ∧
      (runAll o req s).2.ctx.status = code := by
  have ho : Orderly s := by
    rintro (h | h)
    · rw [hs.1] at h; cases h
    · exact absurd hs.2 h
  obtain ⟨s', t', h1, h2, h⟩ := serveFile_via (io := io) (disk := disk) (req := req) hok name (run o req 2) 0 (s.log (.start 0)) ho
  have hw' : s'.ctx.written = false := by rw [h.keeps]; exact hs.1
  have h1' : exec o req (run o req 2) 0 (ctxFile io o disk name) (s.log (.start 0)) = (.ret, s') := h1
  refine ⟨s', h1, ?_⟩
  generalize hu : (s'.log (.stop 0 s'.ctx.written)).bump = u
  have hrun : runAll o req s = run o req 2 u := by
    unfold runAll
    rw [hh]
    show run o req 3 s = _
    rw [run, hi, hh]
    simp only [List.getElem?_cons_zero]
    rw [h1']
    dsimp only
    rw [hu]
    have : u.ctx.written = false := by rw [← hu]; exact hw'
    rw [this]
    rfl
  have u1 : u.ctx.index = 1 := by
    rw [← hu]
    show s'.ctx.index + 1 = 1
    rw [h.keeps]
    show s.ctx.index + 1 = 1
    rw [hi]
  have u2 : u.ctx.handlers = [ctxFile io o disk name, .string code text .ret] := by
    rw [← hu]
    show s'.ctx.handlers = _
    rw [h.keeps]
    exact hh
  have u3 : u.ctx.written = false := by rw [← hu]; exact hw'
  have u4 : u.rw = s'.rw := by rw [← hu]; rfl
  rw [hrun, run, u1, u2]
  simp only [List.getElem?_cons_succ, List.getElem?_cons_zero]
  have hne : s'.rw.log ≠ [] := fun h' => h.begun (by rw [h']; rfl)
  have hlog : ∃ hd, exec o req (run o req 1) 1 (.string code text .ret) (u.log (.start 1)) =
      (.ret, { u.log (.start 1) with ctx := { u.ctx with written := true, status := code }, rw := ⟨hd, s'.rw.log ++ [.status true code s'.rw.header] ++ [.body text]⟩ }) := by
    refine ⟨s'.rw.header.put kContentType mimeText, ?_⟩
    simp only [Prog.string, Prog.data, Prog.do, exec, doCall, St.writeHeader]
    rw [show (u.log (.start 1)).ctx.written = false from u3]
    simp only [Bool.false_eq_true, if_false]
    rw [show (u.log (.start 1)).rw = s'.rw from u4]
    simp [Writer.writeHeader, hc, St.write, Writer.write]
    exact ⟨rfl, rfl, rfl, rfl, rfl, rfl⟩
  obtain ⟨hd, hlog⟩ := hlog
  rw [hlog]
  dsimp only
  rw [if_pos (show (St.bump (St.log _ _)).ctx.written = true from rfl)]
  refine ⟨?_, rfl⟩
  show clientGets (s'.rw.log ++ [_] ++ [_]) = _
  unfold clientGets
  rw [List.append_assoc, (begun_more h.begun _).1, (begun_more h.begun _).2, bytes_append]
  simp [receivedBody]

namespace Demo

/-- the context of a request for two handlers -/
def fileSt (hs : List (Prog (List Str))) : St (List Str) :=
  { ctx := { (Ctx.new : Ctx (List Str)) with handlers := hs }, rw := Writer.new, body := none, forms := [], world := [], trace := [] }

/-- status, body, what the context says, which handlers started, and what was opened -/
def fileAsk (hs : List (Prog (List Str))) (path : Str) : Option Int × Str × Int × List Event × List Str :=
  let t := (runAll chainO (at' path) (fileSt hs)).2
  (received t.rw.log, receivedBody t.rw.log, t.ctx.status, t.trace, t.world)

end Demo

/-- the hypotheses are met -/
example (hs : List (Prog (List Str))) : Unsent (fileSt hs) ∧ Orderly (fileSt hs) :=
  ⟨⟨rfl, rfl⟩, fun h => h.elim (fun h => nomatch h) (fun h => absurd rfl h)⟩

example : AcceptsCodes chainO := fun c h1 h2 => by
  show decide _ = _
  simp; omega

/-- A file, and a file that is missing, sent with each of the two before a handler that says `hi`. -/
theorem Demo.C136_demo :
    fileAsk [ctxServeFile siteIO chainO siteDisk b!"site/a.txt", .string 202 b!"hi" .ret] b!"/x" =
      (some 200, b!"hello", 200, [.start 0, .stop 0 true], [b!"open site/a.txt", b!"close"]) ∧
    fileAsk [ctxServeFile siteIO chainO siteDisk b!"site/b.txt", .string 202 b!"hi" .ret] b!"/x" =
      (some 404, b!"404 page not found\n", 404, [.start 0, .stop 0 true], [b!"open site/b.txt"]) ∧
    fileAsk [ctxFile siteIO chainO siteDisk b!"site/b.txt", .string 202 b!"hi" .ret] b!"/x" =
      (some 404, b!"404 page not found\nhi", 202, [.start 0, .stop 0 false, .start 1, .stop 1 true], [b!"open site/b.txt"]) := by
  refine ⟨?_, ?_, ?_⟩ <;> exact of_decide_eq_true (by rfl)

end Water
