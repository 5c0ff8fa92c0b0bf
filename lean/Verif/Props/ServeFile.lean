import Verif.Lemmas.ServeFile
/-
C134: a single file is served at its address.
-/
namespace Water
open Spec
variable {ω : Type}

/-- C134: `http.ServeFile(…, name)` opens the file at `name` (made shorter, see C84) - but if the last element of the name is `..`, the
directory written before it. -/
theorem C134_opened {dir last : Str} (hs : slash ∉ last) (hd : dir = [] ∨ dir.getLast? = some slash) :
    dirPath (splitDir (dir ++ last)) (splitFile (dir ++ last)) = pathClean (if last = b!".." then dir else dir ++ last) := by
  rw [(split_path hs hd).1, (split_path hs hd).2, opened_path hs hd]

theorem runAll_alone {o : Oracle} {req : Req} {s t : St ω} {h : Prog ω} (hi : s.ctx.index = 0) (hh : s.ctx.handlers = [h])
    (he : ∀ nx, exec o req nx 0 h (s.log (.start 0)) = (.ret, t)) (ht : t.ctx.handlers = [h] ∧ t.ctx.index = 0) :
    (runAll o req s).1 = .ret ∧ (runAll o req s).2.rw = t.rw ∧ (runAll o req s).2.world = t.world := by
  unfold runAll
  rw [hh]
  show (run o req 2 s).1 = _ ∧ (run o req 2 s).2.rw = _ ∧ (run o req 2 s).2.world = _
  rw [run, hi, hh]
  simp only [List.getElem?_cons_zero, he]
  split
  · exact ⟨rfl, rfl, rfl⟩
  · rw [run]
    have : (St.bump (t.log (.stop 0 t.ctx.written))).ctx.handlers[(St.bump (t.log (.stop 0 t.ctx.written))).ctx.index]? = none := by
      show t.ctx.handlers[t.ctx.index + 1]? = none
      rw [ht.1, ht.2]
      rfl
    rw [this]
    exact ⟨rfl, rfl, rfl⟩

section
variable {rx : Regex} {o : Oracle} {io : ContentIO ω} {disk : OsFiles ω} {pattern file path : Str} {e : Engine (Prog ω)}

theorem single_runs (ha : SingleApp rx o io disk pattern file path e) {req : Req} (hg : PlainGet req) (hr : Routed req) (hp : req.path = path)
    (c : Ctx ω) (body : Option Str) {w w' : ω} {rw' : Writer}
    (hx : ∀ nx (s : St ω), s.world = w → s.rw = Writer.new → exec o req nx 0 (serveFileStd io o disk file) s = (.ret, { s with rw := rw', world := w' })) :
    let sv := serve rx o e c req Writer.new body w
    sv.out = .ret ∧ sv.rw = rw' ∧ sv.world = w' := by
  obtain ⟨a, b, r, http, heap, opts, hc, hrun, hhand, hst, hbef, huse, hacc, hother⟩ := ha
  have hin : (⟨some r, b!"GET", pattern, [.ctxFunc (http.serveFile file)]⟩ : Made (Prog ω)) ∈ made (a ++ singleOps r http pattern file ++ b) := by
    simp only [made, List.filterMap_append, List.mem_append]
    refine .inl (.inr ?_)
    simp [singleOps, madeBy, mGET]
  obtain ⟨s, hb, hh, hrw, _, hw, h1, h2, h3⟩ := root_served (o := o) hrun hhand hst (by decide) hin hr hg.method (by rw [hp]; exact hacc)
    (by rw [hp]; exact hother) c Writer.new body w
  rw [hbef, huse] at hh
  have hh : s.ctx.handlers = [serveFileStd io o disk file] := by rw [hh, hc]; rfl
  obtain ⟨k1, k2, k3⟩ := runAll_alone (o := o) (req := req) hb.index hh (fun nx => hx nx (s.log (.start 0)) hw hrw) ⟨hh, hb.index⟩
  exact ⟨h1.trans k1, h2.trans k2, h3.trans k3⟩

/-- C134: a path with `..` in it is refused, and nothing is opened. -/
theorem C134_refused (ha : SingleApp rx o io disk pattern file path e) {req : Req} (hg : PlainGet req) (hr : Routed req) (hp : req.path = path)
    (h400 : o.bad 400 = false) (c : Ctx ω) (body : Option Str) (w : ω) (hd : HasDotDot path) :
    let sv := serve rx o e c req Writer.new body w
    sv.out = .ret ∧ received sv.rw.log = some 400 ∧ receivedBody sv.rw.log = b!"invalid URL path\n" ∧ sv.world = w := by
  have := single_runs ha hg hr hp c body (w := w) (w' := w) (rw' := ⟨errorHeader Writer.new.header, errorLog 400 b!"invalid URL path" Writer.new.header⟩)
    (fun nx s h1 h2 => by
      rw [serveFile_dots (by rw [hp]; exact hd), exec_httpError (by rw [h2]; rfl) h400, h2, ← h1])
  obtain ⟨k1, k2, k3⟩ := this
  refine ⟨k1, ?_, ?_, k3⟩ <;> rw [k2] <;> rfl

/-- C134: the client of a path that ends with `index.html` is sent to the directory instead, and nothing is opened. -/
theorem C134_index (ha : SingleApp rx o io disk pattern file path e) {req : Req} (hg : PlainGet req) (hr : Routed req) (hp : req.path = path)
    (h301 : o.bad 301 = false) (c : Ctx ω) (body : Option Str) (w : ω) (hd : ¬ HasDotDot path) (hi : NamesIndex path) :
    let sv := serve rx o e c req Writer.new body w
    sv.out = .ret ∧ received sv.rw.log = some 301 ∧ receivedBody sv.rw.log = [] ∧ sv.world = w ∧
      ∃ h, receivedHeader sv.rw.log = some h ∧
        fieldOf h b!"Location" = some (if req.rawQuery ≠ [] then b!"./?" ++ req.rawQuery else b!"./") := by
  have := single_runs ha hg hr hp c body (w := w) (w' := w) (rw' := ⟨Writer.new.header.put b!"Location" (localTo req b!"./"),
      [.status true 301 (Writer.new.header.put b!"Location" (localTo req b!"./"))]⟩)
    (fun nx s h1 h2 => by
      rw [serveFile_index (by rw [hp]; exact hd) (by rw [hp]; exact hi), exec_localRedirect (by rw [h2]; rfl) h301, h2, ← h1])
  obtain ⟨k1, k2, k3⟩ := this
  refine ⟨k1, ?_, ?_, k3, Writer.new.header.put b!"Location" (localTo req b!"./"), ?_, ?_⟩
  · rw [k2]; rfl
  · rw [k2]; rfl
  · rw [k2]; rfl
  · rw [fieldOf_put_same (by decide +kernel)]
    unfold localTo
    rfl

/-- C134: if the file cannot be opened, the answer is 404, 403 or 500. -/
theorem C134_missing (ha : SingleApp rx o io disk pattern file path e) {req : Req} (hg : PlainGet req) (hr : Routed req) (hp : req.path = path)
    (c : Ctx ω) (body : Option Str) {w w1 : ω} (hd : ¬ HasDotDot path) (hi : ¬ NamesIndex path) {dir last : Str} (hs : slash ∉ last)
    (hdir : dir = [] ∨ dir.getLast? = some slash) (hl : last ≠ b!"..") (hf : file = dir ++ last)
    (hopen : disk.fs.openFile (pathClean file) w = (w1, none)) {code : Int}
    (hcode : code = match disk.openErr (pathClean file) w1 with | .notExist => 404 | .permission => 403 | .other => 500)
    (hbad : o.bad code = false) :
    let sv := serve rx o e c req Writer.new body w
    sv.out = .ret ∧ received sv.rw.log = some code ∧ sv.world = w1 := by
  have ho := C134_opened hs hdir
  rw [if_neg hl, ← hf] at ho
  have hc : errCode (disk.openErr (pathClean file) w1) = code := by
    rw [hcode]
    cases disk.openErr (pathClean file) w1 <;> rfl
  have := single_runs ha hg hr hp c body (w := w) (w' := w1) (rw' := ⟨errorHeader Writer.new.header, errorLog code (errText code) Writer.new.header⟩)
    (fun nx s h1 h2 => by
      rw [serveFile_missing (by rw [hp]; exact hd) (by rw [hp]; exact hi) (w1 := w1) (by rw [h1, ho]; exact hopen)]
      dsimp only
      rw [ho, hc, exec_httpError (by exact h2 ▸ rfl) hbad]
      dsimp only
      rw [h2])
  obtain ⟨k1, k2, k3⟩ := this
  refine ⟨k1, ?_, k3⟩
  rw [k2]; rfl

/-- C134 (partial): a request for a file that can be read is answered with 200 and what is in the file.
Missing: paths with `..` or with `index.html` at the end, see `C134_refused`, `C134_index` and `C134_refuted`. -/
theorem C134_sent_partial (ha : SingleApp rx o io disk pattern file path e) {req : Req} (hg : PlainGet req) (hr : Routed req) (hp : req.path = path)
    (h200 : o.bad 200 = false) (c : Ctx ω) (body : Option Str) {w : ω} (hd : ¬ HasDotDot path) (hi : ¬ NamesIndex path)
    {dir last : Str} (hs : slash ∉ last) (hdir : dir = [] ∨ dir.getLast? = some slash) (hl : last ≠ b!"..") (hf : file = dir ++ last)
    {i : FileInfo} {d : Str} (hfile : HasDownload disk.fs io.read w (pathClean file) i d) :
    let sv := serve rx o e c req Writer.new body w
    sv.out = .ret ∧ received sv.rw.log = some 200 ∧ receivedBody sv.rw.log = d := by
  have ho := C134_opened hs hdir
  rw [if_neg hl, ← hf] at ho
  obtain ⟨w1, f, w2, hopen, hstat, hid, hdata⟩ := hfile
  have hcond : ∀ etag, checkPreconditions io.parseTime (condReq req) etag i.modTime = .go [] := by
    intro etag
    have h1 := hg.others b!"If-Match" (by simp)
    have h2 := hg.others b!"If-None-Match" (by simp)
    have h3 := hg.others b!"If-Modified-Since" (by simp)
    have h4 := hg.others b!"If-Unmodified-Since" (by simp)
    have h5 := hg.others b!"Range" (by simp)
    unfold checkPreconditions checkIfMatch checkIfUnmodified checkIfNoneMatch checkIfModified
    simp [condReq, h1, h2, h3, h4, h5]
  have hcon := runs_whole (io := io) (o := o) (name := i.name) (d := d) (h0 := Writer.new.header) hg.method h200 (hcond _)
  have := single_runs ha hg hr hp c body (w := w) (w' := disk.fs.close f w2)
    (rw' := ⟨wholeHeader io o i.name i.modTime d Writer.new.header, sentLog 200 (wholeHeader io o i.name i.modTime d Writer.new.header) d⟩)
    (fun nx s h1 h2 => by
      rw [serveFile_opened (by rw [hp]; exact hd) (by rw [hp]; exact hi) (w1 := w1) (f := f) (by rw [h1, ho]; exact hopen), hstat]
      dsimp only
      rw [serveOpened_file hid, hcon nx 0 { s with world := w2 } f (by exact h2) hdata]
      rfl)
  obtain ⟨k1, k2, k3⟩ := this
  refine ⟨k1, ?_, ?_⟩ <;> rw [k2]
  · rfl
  · unfold sentLog
    by_cases hd : d = []
    · rw [if_pos hd, hd]; rfl
    · rw [if_neg hd]; simp [receivedBody]

/-- C134: exactly when the file is sent. -/
theorem C134_exact (ha : SingleApp rx o io disk pattern file path e) {req : Req} (hg : PlainGet req) (hr : Routed req) (hp : req.path = path)
    (h200 : o.bad 200 = false) (h301 : o.bad 301 = false) (h400 : o.bad 400 = false) (c : Ctx ω) (body : Option Str) {w : ω}
    {dir last : Str} (hs : slash ∉ last) (hdir : dir = [] ∨ dir.getLast? = some slash) (hl : last ≠ b!"..") (hf : file = dir ++ last)
    {i : FileInfo} {d : Str} (hfile : HasDownload disk.fs io.read w (pathClean file) i d) :
    received (serve rx o e c req Writer.new body w).rw.log = some 200 ↔ ¬ HasDotDot path ∧ ¬ NamesIndex path := by
  constructor
  · intro h
    refine ⟨fun hd => ?_, fun hi => ?_⟩
    · rw [(C134_refused ha hg hr hp h400 c body w hd).2.1] at h
      cases h
    · by_cases hd : HasDotDot path
      · rw [(C134_refused ha hg hr hp h400 c body w hd).2.1] at h
        cases h
      · rw [(C134_index ha hg hr hp h301 c body w hd hi).2.1] at h
        cases h
  · rintro ⟨hd, hi⟩
    exact (C134_sent_partial ha hg hr hp h200 c body hd hi hs hdir hl hf hfile).2.1

/-! Directories -/

/-- C134: if `file` is a directory, the client of a path without a slash at the end is sent to the path with one. -/
theorem C134_directory (ha : SingleApp rx o io disk pattern file path e) {req : Req} (hg : PlainGet req) (hr : Routed req) (hp : req.path = path)
    (h301 : o.bad 301 = false) (c : Ctx ω) (body : Option Str) {w w1 w2 : ω} (hd : ¬ HasDotDot path) (hi : ¬ NamesIndex path)
    {dir last : Str} (hs : slash ∉ last) (hdir : dir = [] ∨ dir.getLast? = some slash) (hl : last ≠ b!"..") (hf : file = dir ++ last)
    {f : Nat} {i : FileInfo} (hopen : disk.fs.openFile (pathClean file) w = (w1, some f)) (hstat : disk.fs.stat f w1 = (w2, some i)) (hid : i.dir = true)
    {pre base : Str} (hbase : slash ∉ base ∧ base ≠ []) (hpre : pre = [] ∨ pre.getLast? = some slash) (hpath : path = pre ++ base) :
    let sv := serve rx o e c req Writer.new body w
    sv.out = .ret ∧ received sv.rw.log = some 301 ∧ receivedBody sv.rw.log = [] ∧ sv.world = disk.fs.close f w2 ∧
      ∃ h, receivedHeader sv.rw.log = some h ∧
        fieldOf h b!"Location" = some (if req.rawQuery ≠ [] then base ++ b!"/?" ++ req.rawQuery else base ++ b!"/") := by
  have ho := C134_opened hs hdir
  rw [if_neg hl, ← hf] at ho
  have hlast : path.getLast? ≠ some slash := by
    rw [hpath, List.getLast?_append]
    cases hb : base.getLast? with
    | none => exact absurd (List.getLast?_eq_none_iff.1 hb) hbase.2
    | some x =>
      intro h
      cases h
      exact hbase.1 (List.mem_of_getLast? hb)
  have hb : pathBase path = base := by
    have ht : trimRightSlashes path = path := by
      unfold trimRightSlashes
      have : path.reverse.dropWhile (· == slash) = path.reverse := by
        cases hr : path.reverse with
        | nil => rfl
        | cons x t =>
          rw [List.dropWhile_cons_of_neg]
          intro h
          rw [← List.head?_reverse, hr] at hlast
          exact hlast (by rw [← eq_of_beq h]; rfl)
      rw [this, List.reverse_reverse]
    unfold pathBase
    rw [if_neg (by rw [hpath]; simp [hbase.2])]
    dsimp only
    rw [ht, hpath, (split_path hbase.1 hpre).2, if_neg hbase.2]
  have := single_runs ha hg hr hp c body (w := w) (w' := disk.fs.close f w2)
    (rw' := ⟨Writer.new.header.put b!"Location" (localTo req (base ++ b!"/")), [.status true 301 (Writer.new.header.put b!"Location" (localTo req (base ++ b!"/")))]⟩)
    (fun nx s h1 h2 => by
      rw [serveFile_opened (by rw [hp]; exact hd) (by rw [hp]; exact hi) (w1 := w1) (f := f) (by rw [h1, ho]; exact hopen), hstat]
      dsimp only
      unfold serveOpened
      rw [hid, if_pos (show true = true from rfl), if_pos (Or.inr (by rw [hp]; exact hlast)), hp, hb, exec_localRedirect (by exact h2 ▸ rfl) h301]
      dsimp only
      rw [h2]
      rfl)
  obtain ⟨k1, k2, k3⟩ := this
  refine ⟨k1, ?_, ?_, k3, Writer.new.header.put b!"Location" (localTo req (base ++ b!"/")), ?_, ?_⟩
  · rw [k2]; rfl
  · rw [k2]; rfl
  · rw [k2]; rfl
  · rw [fieldOf_put_same (by decide +kernel)]
    unfold localTo
    split <;> simp

/-- C134: if `file` is a directory without `index.html`, whoever asks for the path with a slash at the end gets the list of what is in it. -/
theorem C134_listing (ha : SingleApp rx o io disk pattern file path e) {req : Req} (hg : PlainGet req) (hr : Routed req) (hp : req.path = path)
    (c : Ctx ω) (body : Option Str) {w w1 w2 w3 w4 : ω} (hd : ¬ HasDotDot path) (hi : ¬ NamesIndex path)
    {dir last : Str} (hs : slash ∉ last) (hdir : dir = [] ∨ dir.getLast? = some slash) (hl : last ≠ b!"..") (hf : file = dir ++ last)
    {f : Nat} {i : FileInfo} (hopen : disk.fs.openFile (pathClean file) w = (w1, some f)) (hstat : disk.fs.stat f w1 = (w2, some i)) (hid : i.dir = true)
    (hfile : file ≠ []) (hlast : path.getLast? = some slash) (hindex : disk.fs.openFile (pathClean (file ++ b!"/index.html")) w2 = (w3, none))
    {l : List (Str × Bool)} (hread : disk.entries f w3 = (w4, some l)) :
    let sv := serve rx o e c req Writer.new body w
    sv.out = .ret ∧ received sv.rw.log = some 200 ∧ sv.world = disk.fs.close f w4 ∧
      receivedBody sv.rw.log = listing (l.map (fun e => if e.2 then e.1 ++ b!"/" else e.1)) ∧
      ∃ h, receivedHeader sv.rw.log = some h ∧ fieldOf h b!"Content-Type" = some b!"text/html; charset=utf-8" := by
  have ho := C134_opened hs hdir
  rw [if_neg hl, ← hf] at ho
  have hsp := split_path hs hdir
  rw [hf, ← opened_index hs hdir hl (by rw [← hf]; exact hfile)] at hindex
  have hne : ¬ (path = [] ∨ path.getLast? ≠ some slash) := by
    rintro (h | h)
    · rw [h] at hlast; cases hlast
    · exact h hlast
  have htrim : trimSuffix last b!"/" = last := by
    unfold trimSuffix
    rw [if_neg]
    intro h
    exact hs (List.mem_of_getLast? (hasSuffix_one.1 h))
  have := single_runs ha hg hr hp c body (w := w) (w' := disk.fs.close f w4)
    (rw' := ⟨listHeader io i Writer.new.header, .status false 200 (listHeader io i Writer.new.header) ::
      (b!"<pre>\n" :: (l.map (fun e => if e.2 then e.1 ++ b!"/" else e.1)).map listLine ++ [b!"</pre>\n"]).map WEvent.body⟩)
    (fun nx s h1 h2 => by
      rw [serveFile_opened (by rw [hp]; exact hd) (by rw [hp]; exact hi) (w1 := w1) (f := f) (by rw [h1, ho]; exact hopen), hstat]
      dsimp only
      unfold serveOpened
      rw [hid, if_pos (show true = true from rfl), if_neg (by rw [hp]; exact hne), hf, hsp.1, hsp.2, htrim]
      rw [exec]
      simp only [OsFiles.openIn, doCall, hindex]
      rw [exec_list hid hg (by exact h2 ▸ rfl) (by exact hread)]
      dsimp only
      rw [h2]
      rfl)
  obtain ⟨k1, k2, k3⟩ := this
  refine ⟨k1, ?_, k3, ?_, listHeader io i Writer.new.header, ?_, ?_⟩
  · rw [k2]; rfl
  · rw [k2]
    show receivedBody (List.map WEvent.body _) = _
    rw [receivedBody_map]
    simp [listing]
  · rw [k2]; rfl
  · exact fieldOf_put_same (by decide +kernel)

end

/-- C134: `StaticFile` works on a root only, and then makes exactly two endpoints. -/
theorem C134_registers {http : Http ω} {heap : Heap (Prog ω)} {r : Nat} {pattern file : Str} {heap' : Heap (Prog ω)} :
    staticFileAt http heap r pattern file = .ok heap' ↔
      ∃ n, heap[r]? = some n ∧ n.parent = none ∧
        runOps heap [.handle r b!"GET" pattern [.ctxFunc (http.serveFile file)], .handle r b!"HEAD" pattern [.ctxFunc (http.serveFile file)]] = .ok heap' := by
  unfold staticFileAt singleOps
  cases heap[r]? with
  | none => simp
  | some n => by_cases hp : n.parent = none <;> simp [hp, mGET, mHEAD]

namespace Demo

/-- a disk with the directory `site`, which has two files in it; the world lists what was opened and closed -/
def siteDisk : OsFiles (List Str) where
  fs := {
    openFile := fun p w => (w ++ [b!"open " ++ p], if p = b!"site" then some 0 else if p = b!"site/index.html" then some 1 else if p = b!"site/a.txt" then some 2 else none)
    stat := fun f w => (w, if f = 0 then some ⟨true, 1600000000000000000, 0, b!"site"⟩ else
      some ⟨false, 1600000000000000000, 5, if f = 1 then b!"index.html" else b!"a.txt"⟩)
    close := fun _ w => w ++ [b!"close"] }
  openErr := fun p _ => if p = b!"secret" then .permission else .notExist
  statErr := fun _ _ => .other
  entries := fun _ w => (w, some [(b!"a.txt", false), (b!"index.html", false)])

/-- what is in the files -/
def siteIO : ContentIO (List Str) where
  formatTime := fun _ => b!"Sun, 13 Sep 2020 12:26:40 GMT"
  parseTime := fun _ => none
  typeOf := fun _ => b!"text/plain; charset=utf-8"
  read := fun f _ => if f = 1 then b!"index" else b!"hello"
  parts := fun _ _ _ => (b!"multipart/byteranges; boundary=x", [])

/-- net/http for it -/
def siteHttp : Http (List Str) where
  redirect := fun _ => .ret
  serveFile := serveFileStd siteIO chainO siteDisk
  serveContent := serveContentStd siteIO chainO

/-- an application with one file -/
def pageOps (pattern file : Str) : List (Op (Prog (List Str))) := [.newRouter] ++ singleOps 0 siteHttp pattern file ++ []

/-- build it and test it -/
def withPage (pattern file : Str) (p : Engine (Prog (List Str)) → Bool) : Bool :=
  match runOps [] (pageOps pattern file) with
  | .error _ => false
  | .ok heap =>
    match handler rx heap 0 [] with
    | .error _ => false
    | .ok e => p e

/-- status, location, body and what was opened -/
def pageAsk (pattern file path : Str) (p : Int → Option Str → Str → List Str → Bool) : Bool :=
  withPage pattern file (fun e =>
    let sv := serve rx chainO e .new (at' path) Writer.new none []
    match received sv.rw.log, receivedHeader sv.rw.log with
    | some c, some h => p c (fieldOf h b!"Location") (receivedBody sv.rw.log) sv.world
    | _, _ => false)

/-- `StaticFile("/a.txt", "./site/a.txt")` and others: the file, the client sent elsewhere, an error, a directory that is listed, and
the quirk of a name with `..` at the end -/
theorem C134_demo :
    pageAsk b!"/a.txt" b!"./site/a.txt" b!"/a.txt" (fun c l b w => c == 200 && l == none && b == b!"hello" && w == [b!"open site/a.txt", b!"close"]) = true ∧
    pageAsk b!"/index.html" b!"./site/index.html" b!"/index.html" (fun c l b w => c == 301 && l == some b!"./" && b == [] && w == []) = true ∧
    pageAsk b!"/*" b!"site/a.txt" b!"/x/../y" (fun c l b w => c == 400 && l == none && b == b!"invalid URL path\n" && w == []) = true ∧
    pageAsk b!"/*" b!"site/a.txt" b!"/x/..y" (fun c _ b _ => c == 200 && b == b!"hello") = true ∧
    pageAsk b!"/a.txt" b!"site/b.txt" b!"/a.txt" (fun c _ b w => c == 404 && b == b!"404 page not found\n" && w == [b!"open site/b.txt"]) = true ∧
    pageAsk b!"/a.txt" b!"secret" b!"/a.txt" (fun c _ b _ => c == 403 && b == b!"403 Forbidden\n") = true ∧
    pageAsk b!"/d" b!"site" b!"/d" (fun c l _ w => c == 301 && l == some b!"d/" && w == [b!"open site", b!"close"]) = true ∧
    pageAsk b!"/d" b!"site" b!"/d/" (fun c _ b w => c == 200 && b == b!"index" && w == [b!"open site", b!"open site/index.html", b!"close", b!"close"]) = true ∧
    pageAsk b!"/d" b!"site/.." b!"/d/" (fun c _ b _ => c == 200 && b == b!"index") = true := by
  decide +kernel

theorem pageOps_endpoint {pattern file : Str} : Endpoint (pageOps pattern file) 0 1 [0, 1] :=
  ⟨⟨.child (c := ⟨some 0, b!"GET", pattern, _⟩) rfl rfl (.root (c := ⟨none, [], [], []⟩) rfl rfl), rfl⟩, _, rfl, (show mGET ≠ [] by decide)⟩

theorem pageOps_only {pattern file : Str} {j : Nat} {l : List Nat} (h : Endpoint (pageOps pattern file) 0 j l) (hm : methodOf (pageOps pattern file) j = b!"GET") :
    l = [0, 1] := by
  obtain ⟨⟨hlin, _⟩, c, hc1, hc2⟩ := h
  have h1 : j = 1 := by
    match j, hc1, hm with
    | 0, hc1, _ => cases hc1; exact absurd rfl hc2
    | 1, _, _ => rfl
    | 2, _, hm => exact absurd hm (show b!"HEAD" ≠ b!"GET" by decide)
    | _ + 3, hc1, _ => cases hc1
  subst h1
  exact hlin.unique pageOps_endpoint.1.1

theorem withPage_spec {p : Engine (Prog (List Str)) → Bool} (h : withPage b!"/index.html" b!"./site/index.html" p = true) :
    ∃ e, SingleApp rx chainO siteIO siteDisk b!"/index.html" b!"./site/index.html" b!"/index.html" e ∧ p e = true := by
  unfold withPage at h
  cases h1 : runOps [] (pageOps b!"/index.html" b!"./site/index.html") with
  | error _ => rw [h1] at h; cases h
  | ok heap =>
    rw [h1] at h
    dsimp only at h
    cases h2 : handler rx heap 0 [] with
    | error _ => rw [h2] at h; cases h
    | ok e =>
      rw [h2] at h
      refine ⟨e, ⟨[.newRouter], [], 0, siteHttp, heap, [], rfl, h1, h2, rfl, rfl, rfl, ?_, ?_⟩, h⟩
      · rw [show routeSegs (trimSpace b!"/index.html") = [b!"index.html"] by decide +kernel, show pathSegs b!"/index.html" = [b!"index.html"] by decide +kernel]
        exact .last (show acceptsSeg rx b!"index.html" b!"index.html" by unfold acceptsSeg; rw [show kind b!"index.html" = .literal by decide +kernel])
      · intro j l' hj hm _
        have := pageOps_only hj hm
        subst this
        show fullPath (pageOps b!"/index.html" b!"./site/index.html") [0, 1] = _
        decide +kernel

end Demo

open Demo in
/-- C134 as stated: every file that can be read is sent to those who ask for its address. -/
def C134_claim : Prop :=
  ∀ (rx : Regex) (o : Oracle) (io : ContentIO (List Str)) (disk : OsFiles (List Str)) (pattern file path : Str) (e : Engine (Prog (List Str)))
    (req : Req) (c : Ctx (List Str)) (body : Option Str) (w : List Str) (i : FileInfo) (d : Str),
    SingleApp rx o io disk pattern file path e → PlainGet req → Routed req → req.path = path → (∀ x, 100 ≤ x → x ≤ 999 → o.bad x = false) →
    HasDownload disk.fs io.read w (pathClean file) i d →
    received (serve rx o e c req Writer.new body w).rw.log = some 200 ∧ receivedBody (serve rx o e c req Writer.new body w).rw.log = d

open Demo in
/-- C134 fails for `StaticFile("/index.html", "./site/index.html")`: nobody ever gets the file at that address. -/
theorem C134_refuted : ¬ C134_claim := by
  intro h
  obtain ⟨e, he, hp⟩ := withPage_spec (p := fun e => received (serve rx chainO e .new (at' b!"/index.html") Writer.new none []).rw.log == some 301) (by decide +kernel)
  have := (h rx chainO siteIO siteDisk _ _ _ e (at' b!"/index.html") .new none [] ⟨false, 1600000000000000000, 5, b!"index.html"⟩ b!"index" he
    ⟨rfl, by decide +kernel⟩ ⟨Or.inr ⟨rfl, by decide⟩, by decide, by decide⟩ rfl (fun x h1 h2 => by
      show decide _ = _
      simp; omega) ⟨_, 1, _, rfl, rfl, rfl, rfl⟩).1
  rw [eq_of_beq hp] at this
  cases this

end Water
