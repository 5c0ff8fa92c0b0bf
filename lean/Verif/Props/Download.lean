import Verif.Model.Download
import Verif.Props.Util
import Verif.Props.Files
/- C94: a download is answered with the file or with an error, and the file is closed. -/
namespace Water
open Spec
variable {ω : Type}

/-- the value Go's `Header` map holds under a canonical name once `Set` was called last with another one -/
theorem put_get_other {h : Header} {k k' v : Str} (hk : canonKey k = k) (hne : k' ≠ k) : (h.put k v) k' = h k' := by
  rw [put_canon hk]
  simp [Map.set, hne]

theorem put_get_same {h : Header} {k v : Str} (hk : canonKey k = k) : (h.put k v) k = some [v] := by
  rw [put_canon hk]
  simp [Map.set]

/-- The headers of a download. -/
def downloadHeaders (inline : List Bool) (name : Str) : List (Str × Str) :=
  [(b!"Content-Description", b!"File Transfer"), (b!"Content-Type", b!"application/octet-stream"),
   (b!"Content-Transfer-Encoding", b!"binary"), (b!"Expires", b!"0"), (b!"Cache-Control", b!"must-revalidate"),
   (b!"Pragma", b!"public"), (b!"Content-Disposition", dispositionFor inline name)]

/-- `Open`, as the state sees it -/
def opening (fs : FS ω) (path : Str) (s : St ω) : St ω := { s with world := (fs.openFile path s.world).1 }
/-- `Stat`, as the state sees it -/
def describing (fs : FS ω) (f : Nat) (s : St ω) : St ω := { s with world := (fs.stat f s.world).1 }
/-- `Close`, as the state sees it -/
def shutting (fs : FS ω) (f : Nat) (s : St ω) : St ω := { s with world := fs.close f s.world }

/-- C94: what cannot be opened: the error is returned, the response is untouched. -/
theorem C94_missing (o : Oracle) (req : Req) (nx : St ω → Out × St ω) (i : Nat) (fs : FS ω) (http : Http ω) (path : Str)
    (inline : List Bool) (k : Bool → Prog ω) (s : St ω) (h : (fs.openFile path s.world).2 = none) :
    exec o req nx i (.download fs http path inline k) s = exec o req nx i (k false) (opening fs path s) := by
  unfold Prog.download opening
  rw [exec]
  rcases ho : fs.openFile path s.world with ⟨w, x⟩
  rw [ho] at h
  cases h
  simp only [doCall, ho, openRes]

/-- C94: what cannot be described, or is a directory: the file is closed again, the error is returned, the response is
untouched. -/
theorem C94_refused (o : Oracle) (req : Req) (nx : St ω → Out × St ω) (i : Nat) (fs : FS ω) (http : Http ω) (path : Str)
    (inline : List Bool) (k : Bool → Prog ω) (s : St ω) {f : Nat} (hf : (fs.openFile path s.world).2 = some f)
    (h : ∀ fi, (fs.stat f (opening fs path s).world).2 = some fi → fi.dir = true) :
    exec o req nx i (.download fs http path inline k) s =
      exec o req nx i (k false) (shutting fs f (describing fs f (opening fs path s))) := by
  unfold Prog.download opening at *
  rw [exec]
  rcases ho : fs.openFile path s.world with ⟨w, x⟩
  rw [ho] at hf h
  cases hf
  simp only [doCall, ho, openRes]
  rw [exec]
  dsimp only at h
  rcases hs : fs.stat f w with ⟨w2, y⟩
  rw [hs] at h
  cases y with
  | none => simp only [doCall, hs, statRes, Prog.do, exec, shutting, describing]
  | some fi =>
    have := h fi rfl
    simp only [doCall, hs, statRes, this, if_true, Prog.do, exec, shutting, describing]

/-- C94: a file: `http.ServeContent` is given that file, with exactly the headers of a download added; whether it
returns or panics, the file is closed, once, afterwards; if it returns, nil is returned. -/
theorem C94_content (o : Oracle) (req : Req) (nx : St ω → Out × St ω) (i : Nat) (fs : FS ω) (http : Http ω) (path : Str)
    (inline : List Bool) (k : Bool → Prog ω) (s : St ω) {f : Nat} {fi : FileInfo} (hf : (fs.openFile path s.world).2 = some f)
    (hs : (fs.stat f (opening fs path s).world).2 = some fi) (hd : fi.dir = false) :
    ∃ h : Header,
      (∀ p ∈ downloadHeaders inline fi.name, h p.1 = some [p.2]) ∧
      (∀ n, (∀ v, (n, v) ∉ downloadHeaders inline fi.name) → h n = s.rw.header n) ∧
      exec o req nx i (.download fs http path inline k) s =
        match exec o req nx i (http.serveContent fi.name fi.modTime f) (withHeader (describing fs f (opening fs path s)) h) with
        | (.ret, t) => exec o req nx i (k true) (shutting fs f t)
        | (.panic v, t) => (.panic v, shutting fs f t)
        | (.fuel, t) => (.fuel, t) := by
  refine ⟨(((((((s.rw.header.put b!"Content-Description" b!"File Transfer").put b!"Content-Type" b!"application/octet-stream").put
    b!"Content-Transfer-Encoding" b!"binary").put b!"Expires" b!"0").put b!"Cache-Control" b!"must-revalidate").put
    b!"Pragma" b!"public").put b!"Content-Disposition" (dispositionFor inline fi.name)), ?_, ?_, ?_⟩
  · intro p hp
    simp only [downloadHeaders, List.mem_cons, List.not_mem_nil, or_false] at hp
    rcases hp with rfl | rfl | rfl | rfl | rfl | rfl | rfl <;> dsimp only
    all_goals
      repeat first
        | exact put_get_same (by decide)
        | rw [put_get_other (by decide) (by decide)]
  · intro n hn
    have hne : ∀ p ∈ downloadHeaders inline fi.name, n ≠ p.1 := fun p hp e => hn p.2 (by rw [e]; exact hp)
    simp only [downloadHeaders, List.mem_cons, List.not_mem_nil, or_false, forall_eq_or_imp, forall_eq] at hne
    obtain ⟨h1, h2, h3, h4, h5, h6, h7⟩ := hne
    rw [put_get_other (by decide) h7, put_get_other (by decide) h6, put_get_other (by decide) h5, put_get_other (by decide) h4,
      put_get_other (by decide) h3, put_get_other (by decide) h2, put_get_other (by decide) h1]
  · unfold Prog.download opening at *
    rw [exec]
    rcases ho : fs.openFile path s.world with ⟨w, x⟩
    rw [ho] at hf hs
    cases hf
    simp only [doCall, ho, openRes]
    rw [exec]
    dsimp only at hs
    rcases hst : fs.stat f w with ⟨w2, y⟩
    rw [hst] at hs
    cases hs
    simp only [doCall, hst, statRes, hd, Bool.false_eq_true, if_false]
    rw [exec]
    unfold downloadBody
    simp only [exec_setHeader]
    have : ∀ (A : Out × St ω), (match A with
        | (.ret, s) => exec o req nx i (.do (.world (fun w => (fs.close f w, .unit))) (k true)) s
        | (.panic v, s) => exec o req nx i (.do (.world (fun w => (fs.close f w, .unit))) (.panic v)) s
        | (.fuel, s) => (.fuel, s)) = match A with
        | (.ret, t) => exec o req nx i (k true) (shutting fs f t)
        | (.panic v, t) => (.panic v, shutting fs f t)
        | (.fuel, t) => (.fuel, t) := by
      intro A
      rcases A with ⟨out, t⟩
      cases out <;> rfl
    rw [← this]
    simp only [describing, hst]
    rfl

namespace Demo

/-- a file system with a file and a directory, that records what is opened and closed -/
def ledgerFS : FS (List (Bool × Nat)) where
  openFile := fun p w => if p = b!"a b.txt" then (w ++ [(true, 7)], some 7) else if p = b!"dir" then (w ++ [(true, 8)], some 8) else (w, none)
  stat := fun f w => (w, some { dir := f == 8, modTime := 0, size := 3, name := b!"a b.txt" })
  close := fun f w => w ++ [(false, f)]

/-- `http.ServeContent` sending three bytes, or crashing -/
def ledgerHttp (crash : Bool) : Http (List (Bool × Nat)) where
  redirect := fun _ => .ret
  serveFile := fun _ => .ret
  serveContent := fun _ _ _ => if crash then .panic (.val b!"gone") else .do (.write b!"abc") .ret

/-- download, and send 404 if that fails -/
def downloadH (crash : Bool) (path : Str) : Prog (List (Bool × Nat)) :=
  .download ledgerFS (ledgerHttp crash) path [true] (fun ok => if ok then .ret else .do (.writeHeader 404) .ret)

/-- the end of a handler alone -/
def downloaded (crash : Bool) (path : Str) : Out × St (List (Bool × Nat)) :=
  exec chainO chainReq (fun s => (.ret, s)) 0 (downloadH crash path)
    { ctx := Ctx.new, rw := Writer.new, body := none, forms := [], world := [], trace := [] }

/-- A file is sent and closed. -/
example : (downloaded false b!"a b.txt").1 = .ret ∧ (downloaded false b!"a b.txt").2.world = [(true, 7), (false, 7)] ∧
    receivedBody (downloaded false b!"a b.txt").2.rw.log = b!"abc" ∧
    (receivedHeader (downloaded false b!"a b.txt").2.rw.log).map (·.get b!"Content-Disposition") =
      some b!"inline; filename=\"a%20b.txt\"; filename*=UTF-8''a%20b.txt" := by decide +kernel

/-- If sending it crashes, it is closed all the same. -/
example : (downloaded true b!"a b.txt").1 = .panic (.val b!"gone") ∧
    (downloaded true b!"a b.txt").2.world = [(true, 7), (false, 7)] := by decide +kernel

/-- A directory is closed; the error reaches the handler. -/
example : (downloaded false b!"dir").2.world = [(true, 8), (false, 8)] ∧ received (downloaded false b!"dir").2.rw.log = some 404 := by
  decide +kernel

/-- What does not exist is not closed. -/
example : (downloaded false b!"nowhere").2.world = [] ∧ received (downloaded false b!"nowhere").2.rw.log = some 404 := by
  decide +kernel

end Demo

end Water
