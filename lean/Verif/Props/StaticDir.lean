import Verif.Props.Walk
import Verif.Props.ServeFile
import Verif.Props.Cache
/-
C145: what `Static(uri, root)` sends.
-/
namespace Water
open Spec
variable {ω : Type}

/-- C145: `Static` registers the static route of the directory on a root router, with no tags, no expiry and no index file of its own; on another
router it panics. -/
theorem C145_registers {http : Http ω} {os : FS ω} {heap heap' : Heap (Prog ω)} {r : Nat} {uri root : Str} :
    routerStatic http os heap r uri root = .ok heap' ↔
      (∃ n, heap[r]? = some n ∧ n.parent = none) ∧
        runOps heap (staticOps r (dirFS os root) http ⟨uri, [], none, 0, some (dirFS os root)⟩) = .ok heap' := by
  unfold routerStatic
  rw [C48_registers]
  constructor
  · rintro ⟨n, fs, h1, h2, h3, h4⟩
    have : dirFS os root = fs := Option.some.inj h3
    subst this
    exact ⟨⟨n, h1, h2⟩, h4⟩
  · rintro ⟨⟨n, h1, h2⟩, h4⟩
    exact ⟨n, _, h1, h2, rfl, h4⟩

section
variable {rx : Regex} {o : Oracle} {io : ContentIO ω} {os : FS ω} {uri root name : Str} {e : Engine (Prog ω)}

/-- one request for a name below the directory -/
theorem dir_runs (ha : FileApp rx o io (dirFS os root) (staticOptions (dirFS os) uri root) name e) {req : Req} (hm : req.method = b!"GET") (hr : Routed req)
    (hpath : req.path = pathBelow (elems uri) name)
    (c : Ctx ω) (body : Option Str) {w : ω} {t : St ω → St ω}
    (hx : ∀ (http : Http ω) nx (s : St ω), http.serveContent = serveContentStd io o → s.world = w → s.rw = Writer.new → s.ctx.written = false →
      s.ctx.params b!"*0" = some name →
      exec o req nx 0 (staticHandler (dirFS os root) http (staticOptions (dirFS os) uri root)) s = (.ret, t s))
    (ht : ∀ s, (t s).ctx.handlers = s.ctx.handlers ∧ (t s).ctx.index = s.ctx.index) :
    let sv := serve rx o e c req Writer.new body w
    ∃ s : St ω, s.world = w ∧ s.rw = Writer.new ∧ sv.out = .ret ∧ sv.rw = (t s).rw ∧ sv.world = (t s).world := by
  obtain ⟨hne, hl, ho, a, b, r, http, heap, opts, hc, hrun, hhand, hst, hbef, huse, hother⟩ := ha
  obtain ⟨s, hb, hh, hpar, hrw, _, hworld, h1, h2, h3⟩ := C48_below_partial (rx := rx) (o := o) (req := req) rfl hrun hhand hst ho hr
    (Or.inl hm) hne hl (Or.inl hpath) (by rw [hm, hpath]; exact hother) c Writer.new body w
  rw [hbef, huse] at hh
  have hh : s.ctx.handlers = [staticHandler (dirFS os root) http (staticOptions (dirFS os) uri root)] := hh
  obtain ⟨k1, k2, k3⟩ := runAll_alone (o := o) (req := req) (t := t (s.log (.start 0))) hb.index hh
    (fun nx => hx http nx (s.log (.start 0)) hc hworld hrw hb.written hpar)
    ⟨(ht _).1.trans hh, (ht _).2.trans hb.index⟩
  exact ⟨s.log (.start 0), hworld, hrw, h1.trans k1, h2.trans k2, h3.trans k3⟩

theorem whole_names (io : ContentIO ω) (o : Oracle) (name : Str) (mt : Int) (d : Str) (k : Str)
    (hk : k ∉ [b!"Content-Type", b!"Content-Length", b!"Accept-Ranges", b!"Last-Modified"]) :
    wholeHeader io o name mt d Writer.new.header k = none := by
  simp only [List.mem_cons, List.not_mem_nil, or_false, not_or] at hk
  obtain ⟨k1, k2, k3, k4⟩ := hk
  have c1 : canonKey b!"Content-Type" = b!"Content-Type" := by decide +kernel
  have c2 : canonKey b!"Content-Length" = b!"Content-Length" := by decide +kernel
  have c3 : canonKey b!"Accept-Ranges" = b!"Accept-Ranges" := by decide +kernel
  have c4 : canonKey b!"Last-Modified" = b!"Last-Modified" := by decide +kernel
  have hput : ∀ (h : Header) (n v : Str), k ≠ canonKey n → (h.put n v) k = h k := by
    intro h n v hn
    unfold Header.put
    exact Map.set_other _ _ hn
  unfold wholeHeader typedOf
  have h1 : setLastModified io mt Writer.new.header k = none := by
    unfold setLastModified
    split
    · rfl
    · rw [hput _ _ _ (by rw [c4]; exact k4)]; rfl
  have h2 : typedHeader io o name d (setLastModified io mt Writer.new.header) k = none := by
    unfold typedHeader
    cases setLastModified io mt Writer.new.header b!"Content-Type" with
    | some _ => exact h1
    | none =>
      show (Header.put _ _ _) k = none
      rw [hput _ _ _ (by rw [c1]; exact k1)]; exact h1
  generalize typedHeader io o name d (setLastModified io mt Writer.new.header) = h at h2
  unfold sentHeader
  split
  · rw [hput _ _ _ (by rw [c3]; exact k3)]; exact h2
  · rw [hput _ _ _ (by rw [c2]; exact k2), hput _ _ _ (by rw [c3]; exact k3)]; exact h2

/-- C145: a file that is in the directory is sent whole, with the header of net/http and nothing else, and is closed. Which file this is is said by
where its path leads. -/
theorem C145_sent (ha : FileApp rx o io (dirFS os root) (staticOptions (dirFS os) uri root) name e) {req : Req} (hg : PlainGet req) (hr : Routed req)
    (hpath : req.path = pathBelow (elems uri) name) (h200 : o.bad 200 = false) (c : Ctx ω) (body : Option Str) {w w1 w2 : ω} {f : Nat} {i : FileInfo}
    {d : Str} (hopen : ∀ p, (∀ cwd, walk cwd p = walk cwd root ++ walk [] (slash :: name)) → os.openFile p w = (w1, some f))
    (hstat : os.stat f w1 = (w2, some i)) (hd : i.dir = false) (hread : io.read f w2 = d) :
    let sv := serve rx o e c req Writer.new body w
    sv.out = .ret ∧ received sv.rw.log = some 200 ∧ receivedBody sv.rw.log = d ∧ sv.world = os.close f w2 ∧
      ∃ h, receivedHeader sv.rw.log = some h ∧
        ∀ k, h k ≠ none → k ∈ [b!"Content-Type", b!"Content-Length", b!"Accept-Ranges", b!"Last-Modified"] := by
  have hcond : ∀ etag, checkPreconditions io.parseTime (condReq req) etag i.modTime = .go [] := by
    intro etag
    have h1 := hg.others b!"If-Match" (by simp)
    have h2 := hg.others b!"If-None-Match" (by simp)
    have h3 := hg.others b!"If-Modified-Since" (by simp)
    have h4 := hg.others b!"If-Unmodified-Since" (by simp)
    have h5 := hg.others b!"Range" (by simp)
    unfold checkPreconditions checkIfMatch checkIfUnmodified checkIfNoneMatch checkIfModified
    simp [condReq, h1, h2, h3, h4, h5]
  have hcon := runs_whole (io := io) (o := o) (name := name) (d := d) (h0 := Writer.new.header) hg.method h200 (hcond _)
  obtain ⟨s, _, _, k1, k2, k3⟩ := dir_runs ha hg.method hr hpath c body (w := w)
    (t := fun s => { s with rw := ⟨wholeHeader io o name i.modTime d Writer.new.header,
      sentLog 200 (wholeHeader io o name i.modTime d Writer.new.header) d⟩, world := os.close f w2 })
    (fun http nx s hc h1 h2 _ h4 => by
      rw [C48_content (fs := dirFS os root) (w1 := w1) (w2 := w2) (f := f) (i := i) h4 (by rw [h1]; exact hopen _ (fun cwd => C75_rooted cwd root name)) hstat hd rfl, hc]
      show closing (dirFS os root) f (exec o req nx 0 (serveContentStd io o name i.modTime f) { s with world := w2 }) = _
      rw [hcon nx 0 { s with world := w2 } f h2 hread]
      rfl)
    (fun s => ⟨rfl, rfl⟩)
  obtain ⟨r1, r2, r3⟩ := received_sent 200 (wholeHeader io o name i.modTime d Writer.new.header) d
  refine ⟨k1, by rw [k2]; exact r1, by rw [k2]; exact r3, k3, _, by rw [k2]; exact r2, ?_⟩
  intro k hk
  exact Classical.byContradiction fun hn => hk (whole_names io o name i.modTime d k hn)

/-- C145: if the file is not there, or cannot be opened, the answer is 404 and empty, and has no header fields. -/
theorem C145_missing (ha : FileApp rx o io (dirFS os root) (staticOptions (dirFS os) uri root) name e) {req : Req} (hm : req.method = b!"GET") (hr : Routed req)
    (hpath : req.path = pathBelow (elems uri) name) (h404 : o.bad 404 = false) (c : Ctx ω) (body : Option Str) {w w1 : ω}
    (hopen : ∀ p, (∀ cwd, walk cwd p = walk cwd root ++ walk [] (slash :: name)) → os.openFile p w = (w1, none)) :
    let sv := serve rx o e c req Writer.new body w
    sv.out = .ret ∧ received sv.rw.log = some 404 ∧ receivedBody sv.rw.log = [] ∧ sv.world = w1 ∧
      receivedHeader sv.rw.log = some Map.empty := by
  obtain ⟨s, _, hs, k1, k2, k3⟩ := dir_runs ha hm hr hpath c body (w := w)
    (t := fun s => answered { s with world := w1 } 404)
    (fun http nx s hc h1 _ h3 h4 =>
      C48_missing (fs := dirFS os root) h4 (by rw [h1]; exact hopen _ (fun cwd => C75_rooted cwd root name)) h3 h404)
    (fun s => ⟨rfl, rfl⟩)
  have : (answered { s with world := w1 } 404).rw = ⟨Map.empty, [.status true 404 Map.empty]⟩ := by
    unfold answered
    dsimp only
    rw [hs]
    rfl
  rw [this] at k2
  refine ⟨k1, ?_, ?_, k3, ?_⟩ <;> rw [k2] <;> rfl

end

namespace Demo

/-- an operating system with one file; the world is its description and content -/
def wwwOS : FS (FileInfo × Str) where
  openFile := fun p w => (w, if walk [] p = [b!"var", b!"www", b!"f.txt"] then some 0 else none)
  stat := fun _ w => (w, some w.1)
  close := fun _ w => w

/-- build the application with `Static("/static/", "/var/www")` and test it -/
def withWww (p : Engine (Prog (FileInfo × Str)) → Bool) : Bool :=
  match runOps [] (.newRouter :: staticOps 0 (dirFS wwwOS b!"/var/www") oneHttp (staticOptions (dirFS wwwOS) b!"/static/" b!"/var/www")) with
  | .error _ => false
  | .ok heap =>
    match handler rx heap 0 [] with
    | .error _ => false
    | .ok e => p e

theorem withWww_spec {p : Engine (Prog (FileInfo × Str)) → Bool} (h : withWww p = true) :
    ∃ e, (∀ name, name ≠ [] → name.getLast? ≠ some 47 →
      FileApp rx chainO oneIO (dirFS wwwOS b!"/var/www") (staticOptions (dirFS wwwOS) b!"/static/" b!"/var/www") name e) ∧ p e = true := by
  unfold withWww at h
  cases h1 : runOps [] (.newRouter :: staticOps 0 (dirFS wwwOS b!"/var/www") oneHttp (staticOptions (dirFS wwwOS) b!"/static/" b!"/var/www")) with
  | error _ => rw [h1] at h; cases h
  | ok heap =>
    rw [h1] at h
    dsimp only at h
    cases h2 : handler rx heap 0 [] with
    | error _ => rw [h2] at h; cases h
    | ok e =>
      rw [h2] at h
      refine ⟨e, fun name hne hl => alone_app hne hl ?_ rfl h1 h2, h⟩
      intro s hs
      have : s = b!"static" := by simpa [show elems b!"/static/" = [b!"static"] by decide, staticOptions] using hs
      subst this
      exact ⟨by decide, by decide, by decide, by decide⟩

/-- Beside the theorems: the file is sent for a path with dots in it too, and with no tag; another name is not found. -/
theorem C145_demo : ∃ e,
    (∀ name, name ≠ [] → name.getLast? ≠ some 47 → walk [] b!"/var/www" ++ walk [] (slash :: name) = [b!"var", b!"www", b!"f.txt"] →
      ∀ (i : FileInfo) d, i.dir = false → Routed (at' (pathBelow [b!"static"] name)) →
      received (serve rx chainO e .new (at' (pathBelow [b!"static"] name)) Writer.new none (i, d)).rw.log = some 200 ∧
      receivedBody (serve rx chainO e .new (at' (pathBelow [b!"static"] name)) Writer.new none (i, d)).rw.log = d) ∧
    received (serve rx chainO e .new (at' b!"/static/x/../f.txt") Writer.new none (⟨false, 0, 3, b!"f.txt"⟩, b!"abc")).rw.log = some 200 ∧
    received (serve rx chainO e .new (at' b!"/static/g.txt") Writer.new none (⟨false, 0, 3, b!"f.txt"⟩, b!"abc")).rw.log = some 404 := by
  obtain ⟨e, ha, hp⟩ := withWww_spec (p := fun e =>
    decide (received (serve rx chainO e .new (at' b!"/static/x/../f.txt") Writer.new none (⟨false, 0, 3, b!"f.txt"⟩, b!"abc")).rw.log = some 200) &&
    decide (received (serve rx chainO e .new (at' b!"/static/g.txt") Writer.new none (⟨false, 0, 3, b!"f.txt"⟩, b!"abc")).rw.log = some 404))
    (by decide +kernel)
  simp only [Bool.and_eq_true, decide_eq_true_eq] at hp
  refine ⟨e, ?_, hp.1, hp.2⟩
  intro name hne hl hw i d hd hr
  have hg : PlainGet (at' (pathBelow [b!"static"] name)) := ⟨rfl, by show ∀ x ∈ _, Header.get chainReq.header x = []; decide +kernel⟩
  obtain ⟨_, h1, h2, _⟩ := C145_sent (w := (i, d)) (w1 := (i, d)) (w2 := (i, d)) (f := 0) (ha name hne hl) hg hr rfl rfl .new none
    (fun p hp => by
      have := hp []
      rw [hw] at this
      show (_, if _ then _ else _) = _
      rw [if_pos this]) rfl hd rfl
  exact ⟨h1, h2⟩

end Demo

end Water
