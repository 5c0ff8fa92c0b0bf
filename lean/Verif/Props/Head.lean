import Verif.Lemmas.Head
import Verif.Props.ServeFile
import Verif.Model.UrlParse
/-
C135: HEAD requests for static files.
-/
namespace Water
open Spec
variable {ω : Type}

theorem blank_alike {hs : List (Prog ω)} {rest : Option Str} {s t : St ω} (hs' : Blank s) (ht : Blank t) (h1 : s.ctx.handlers = hs) (h2 : t.ctx.handlers = hs)
    (hp : ∀ n, rest = some n → s.ctx.params b!"*0" = some n ∧ t.ctx.params b!"*0" = some n) (hrw : s.rw = t.rw) (hb : s.body = t.body) (hw : s.world = t.world) : HeadAlike hs rest s t :=
  ⟨⟨h1, h2⟩, by funext k; rw [hs'.environ, ht.environ], hp, by rw [hs'.index, ht.index], by rw [hs'.written, ht.written], by rw [hs'.status, ht.status],
    by rw [hrw]; exact ⟨rfl, rfl, Iff.rfl⟩, hb, hw⟩

theorem HeadAlike.received {hs : List (Prog ω)} {rest : Option Str} {s t : St ω} (h : HeadAlike hs rest s t) :
    received t.rw.log = received s.rw.log ∧ receivedHeader t.rw.log = receivedHeader s.rw.log := by
  rw [← (received_heads t.rw.log).1, ← (received_heads s.rw.log).1, ← (received_heads t.rw.log).2, ← (received_heads s.rw.log).2, h.rw.heads]
  exact ⟨rfl, rfl⟩

theorem Routed.head {req : Req} (h : Routed req) : Routed (headOf req) := ⟨h.version, h.uri, by simp [headOf]⟩

section
variable {rx : Regex} {env : RedirEnv} {o : Oracle} {io : ContentIO ω} {disk : OsFiles ω} {fs : FS ω} {opt : StaticOptions ω} {req : Req} {e : Engine (Prog ω)}

/-- C135: below a static prefix, a HEAD request is answered with the status and the header of the answer to the GET request, in all cases:
files, parts of files, files that did not change, directories, lists, and what is not there; with files opened and closed, and the
middleware run, alike. -/
theorem C135_static (ha : HeadApp rx env o io disk fs opt req e) (hr : Routed req) (hm : req.method = b!"GET") {name : Str} (hne : name ≠ [])
    (hl : name.getLast? ≠ some slash) (hpath : req.path = pathBelow (elems opt.pre) name ∨ req.path = pathBelow (elems opt.pre) name ++ [slash])
    (c c' : Ctx ω) (body : Option Str) (w : ω) :
    let get := serve rx o e c req Writer.new body w
    let head := serve rx o e c' (headOf req) Writer.new body w
    received head.rw.log = received get.rw.log ∧ receivedHeader head.rw.log = receivedHeader get.rw.log ∧ head.out = get.out ∧ head.world = get.world := by
  obtain ⟨ho, a, b, r, http, heap, opts, hc, hrun, hhand, hst, hbl, hother⟩ := ha
  obtain ⟨s, s1, s2, s3, s4, s5, s6, s7, s8, s9⟩ := C48_below_partial (rx := rx) (o := o) (req := req) rfl hrun hhand hst ho hr (Or.inl hm) hne hl hpath
    (fun i l h1 h2 => hother i l h1 (Or.inl (h2.trans hm))) c Writer.new body w
  obtain ⟨t, t1, t2, t3, t4, t5, t6, t7, t8, t9⟩ := C48_below_partial (rx := rx) (o := o) (req := headOf req) rfl hrun hhand hst ho hr.head (Or.inr rfl) hne hl hpath
    (fun i l h1 h2 => hother i l h1 (Or.inr h2)) c' Writer.new body w
  obtain ⟨k1, k2⟩ := runAll_echoes (o := o) (req := req) (rest := some name) (fun p hp => by
    rcases List.mem_append.1 hp with hp | hp
    · exact blind_echoes (hbl p hp)
    · rw [List.mem_singleton.1 hp]
      exact static_echoes hc hm) (blank_alike s1 t1 s2 t2 (fun n hn => by cases hn; exact ⟨s3, t3⟩) (by rw [s4, t4]) (by rw [s5, t5]) (by rw [s6, t6]))
  dsimp only
  rw [s7, s8, s9, t7, t8, t9]
  exact ⟨k2.received.1, k2.received.2, k1.symm, k2.world.symm⟩

/-- C135 for a single file -/
theorem C135_single {pattern file : Str} (ha : HeadFileApp rx o io disk pattern file req e) (hr : Routed req) (hm : req.method = b!"GET")
    (c c' : Ctx ω) (body : Option Str) (w : ω) :
    let get := serve rx o e c req Writer.new body w
    let head := serve rx o e c' (headOf req) Writer.new body w
    received head.rw.log = received get.rw.log ∧ receivedHeader head.rw.log = receivedHeader get.rw.log ∧ head.out = get.out ∧ head.world = get.world := by
  obtain ⟨a, b, r, http, heap, opts, hc, hrun, hhand, hst, hbl, hacc, hother⟩ := ha
  have hin : ∀ m, m = b!"GET" ∨ m = b!"HEAD" →
      (⟨some r, m, pattern, [.ctxFunc (http.serveFile file)]⟩ : Made (Prog ω)) ∈ made (a ++ singleOps r http pattern file ++ b) := by
    intro m hm
    simp only [made, List.filterMap_append, List.mem_append]
    refine .inl (.inr ?_)
    rcases hm with rfl | rfl <;> simp [singleOps, madeBy, mGET, mHEAD]
  obtain ⟨s, s1, s2, s4, s5, s6, s7, s8, s9⟩ := root_served (rx := rx) (o := o) (req := req) hrun hhand hst (show b!"GET" ≠ [] by decide) (hin _ (Or.inl rfl)) hr hm hacc
    (fun i l h1 h2 => hother i l h1 (Or.inl h2)) c Writer.new body w
  obtain ⟨t, t1, t2, t4, t5, t6, t7, t8, t9⟩ := root_served (rx := rx) (o := o) (req := headOf req) hrun hhand hst (show b!"HEAD" ≠ [] by decide) (hin _ (Or.inr rfl)) hr.head rfl hacc
    (fun i l h1 h2 => hother i l h1 (Or.inr h2)) c' Writer.new body w
  obtain ⟨k1, k2⟩ := runAll_echoes (o := o) (req := req) (rest := none) (fun p hp => by
    rcases List.mem_append.1 hp with hp | hp
    · exact blind_echoes (hbl p hp)
    · rw [List.mem_singleton.1 hp, hc]
      exact serveFile_echoes _ hm) (blank_alike s1 t1 s2 t2 (fun n hn => by cases hn) (by rw [s4, t4]) (by rw [s5, t5]) (by rw [s6, t6]))
  dsimp only
  rw [s7, s8, s9, t7, t8, t9]
  exact ⟨k2.received.1, k2.received.2, k1.symm, k2.world.symm⟩

end

namespace Demo

/-- net/http -/
def wholeHttp : Http (List Str) where
  redirect := fun url => httpRedirect (stdRedir (fun _ => b!"Found")) true url 302
  serveFile := serveFileStd siteIO chainO siteDisk
  serveContent := serveContentStd siteIO chainO

/-- the options: the directory `site` of `siteDisk`, with tags -/
def siteOpt : StaticOptions (List Str) where
  pre := b!"/static"
  indexFile := []
  expires := none
  etag := 1
  fileSystem := some (dirFS siteDisk.fs b!"site")

/-- middleware that sets a header -/
def stamp : Prog (List Str) := .do (.setHeader b!"X-Stamp" b!"1") (.next .ret)

/-- an application with static files and middleware -/
def wholeOps : List (Op (Prog (List Str))) :=
  [.newRouter, .use 0 [.ctxFunc stamp]] ++ staticOps 0 (dirFS siteDisk.fs b!"site") wholeHttp siteOpt ++ []

/-- build it and test it -/
def withWhole (p : Engine (Prog (List Str)) → Bool) : Bool :=
  match runOps [] wholeOps with
  | .error _ => false
  | .ok heap =>
    match handler rx heap 0 [] with
    | .error _ => false
    | .ok e => p e

/-- a GET request with headers -/
def getReq (path : Str) (h : Header) : Req := { at' path with header := h }

/-- status, two fields, body and what was opened and closed -/
def wholeAsk (req : Req) (field : Str) (p : Option Int → Option Str → Option Str → Str → List Str → Bool) : Bool :=
  withWhole (fun e =>
    let sv := serve rx chainO e .new req Writer.new none []
    p (received sv.rw.log) ((receivedHeader sv.rw.log).bind (fieldOf · b!"X-Stamp")) ((receivedHeader sv.rw.log).bind (fieldOf · field)) (receivedBody sv.rw.log) sv.world)

/-- a file, a part of it, a directory, and what is not there: for GET and HEAD -/
theorem C135_demo :
    wholeAsk (getReq b!"/static/a.txt" Map.empty) b!"Content-Length" (fun c x l b w =>
      c == some 200 && x == some b!"1" && l == some b!"5" && b == b!"hello" && w == [b!"open site/a.txt", b!"close"]) = true ∧
    wholeAsk (headOf (getReq b!"/static/a.txt" Map.empty)) b!"Content-Length" (fun c x l b w =>
      c == some 200 && x == some b!"1" && l == some b!"5" && b == [] && w == [b!"open site/a.txt", b!"close"]) = true ∧
    wholeAsk (getReq b!"/static/a.txt" (Header.put Map.empty b!"Range" b!"bytes=1-2")) b!"Content-Range" (fun c _ l b _ =>
      c == some 206 && l == some b!"bytes 1-2/5" && b == b!"el") = true ∧
    wholeAsk (headOf (getReq b!"/static/a.txt" (Header.put Map.empty b!"Range" b!"bytes=1-2"))) b!"Content-Range" (fun c _ l b _ =>
      c == some 206 && l == some b!"bytes 1-2/5" && b == []) = true ∧
    wholeAsk (headOf (getReq b!"/static/b.txt" Map.empty)) b!"Content-Length" (fun c x l b w =>
      c == some 404 && x == some b!"1" && l == none && b == [] && w == [b!"open site/b.txt"]) = true := by
  decide +kernel

theorem whole_app {p : Engine (Prog (List Str)) → Bool} (h : withWhole p = true) (req : Req) :
    ∃ e, HeadApp rx (stdRedir (fun _ => b!"Found")) chainO siteIO siteDisk (dirFS siteDisk.fs b!"site") siteOpt req e ∧ p e = true := by
  unfold withWhole at h
  cases h1 : runOps [] wholeOps with
  | error _ => rw [h1] at h; cases h
  | ok heap =>
    rw [h1] at h
    dsimp only at h
    cases h2 : handler rx heap 0 [] with
    | error _ => rw [h2] at h; cases h
    | ok e =>
      rw [h2] at h
      refine ⟨e, ⟨?_, [.newRouter, .use 0 [.ctxFunc stamp]], [], 0, wholeHttp, heap, [], ⟨rfl, rfl, rfl⟩, h1, h2, rfl, ?_, ?_⟩, h⟩
      · intro s hs
        have : s = b!"static" := by simpa [show elems b!"/static" = [b!"static"] by decide, siteOpt] using hs
        subst this
        exact ⟨by decide, by decide, by decide, by decide⟩
      · intro p hp
        have : p = stamp := by
          exact List.mem_singleton.1 (show p ∈ [stamp] from hp)
        subst this
        exact .call trivial (fun _ => .next .ret)
      · intro i l hi _ _
        obtain ⟨⟨hlin, _⟩, c, hc1, hc2⟩ := hi
        have h12 : i = 1 ∨ i = 2 := by
          match i, hc1 with
          | 0, hc1 => cases hc1; exact absurd rfl hc2
          | 1, _ => exact Or.inl rfl
          | 2, _ => exact Or.inr rfl
          | _ + 3, hc1 => cases hc1
        have hl : l = [0, i] := hlin.unique (by
          rcases h12 with rfl | rfl
          · exact .child (c := ⟨some 0, b!"GET", _, _⟩) rfl rfl (.root (c := ⟨none, [], [], []⟩) rfl rfl)
          · exact .child (c := ⟨some 0, b!"HEAD", _, _⟩) rfl rfl (.root (c := ⟨none, [], [], []⟩) rfl rfl))
        subst hl
        rcases h12 with rfl | rfl <;> decide +kernel

theorem page_app {p : Engine (Prog (List Str)) → Bool} (h : withPage b!"/a.txt" b!"./site/a.txt" p = true) :
    ∃ e, HeadFileApp rx chainO siteIO siteDisk b!"/a.txt" b!"./site/a.txt" (at' b!"/a.txt") e ∧ p e = true := by
  unfold withPage at h
  cases h1 : runOps [] (pageOps b!"/a.txt" b!"./site/a.txt") with
  | error _ => rw [h1] at h; cases h
  | ok heap =>
    rw [h1] at h
    dsimp only at h
    cases h2 : handler rx heap 0 [] with
    | error _ => rw [h2] at h; cases h
    | ok e =>
      rw [h2] at h
      refine ⟨e, ⟨[.newRouter], [], 0, siteHttp, heap, [], rfl, h1, h2, rfl, ?_, ?_, ?_⟩, h⟩
      · intro p hp
        exact absurd (show p ∈ [] from hp) (by simp)
      · rw [show routeSegs (trimSpace b!"/a.txt") = [b!"a.txt"] by decide +kernel, show pathSegs (at' b!"/a.txt").path = [b!"a.txt"] by decide +kernel]
        exact .last (show acceptsSeg rx b!"a.txt" b!"a.txt" by unfold acceptsSeg; rw [show kind b!"a.txt" = .literal by decide +kernel])
      · intro i l hi _ _
        obtain ⟨⟨hlin, _⟩, c, hc1, hc2⟩ := hi
        have h12 : i = 1 ∨ i = 2 := by
          match i, hc1 with
          | 0, hc1 => cases hc1; exact absurd rfl hc2
          | 1, _ => exact Or.inl rfl
          | 2, _ => exact Or.inr rfl
          | _ + 3, hc1 => cases hc1
        have hl : l = [0, i] := hlin.unique (by
          rcases h12 with rfl | rfl
          · exact .child (c := ⟨some 0, b!"GET", _, _⟩) rfl rfl (.root (c := ⟨none, [], [], []⟩) rfl rfl)
          · exact .child (c := ⟨some 0, b!"HEAD", _, _⟩) rfl rfl (.root (c := ⟨none, [], [], []⟩) rfl rfl))
        subst hl
        rcases h12 with rfl | rfl <;> decide +kernel

/-- the theorems, used -/
example : ∃ e : Engine (Prog (List Str)),
    receivedHeader (serve rx chainO e .new (headOf (at' b!"/a.txt")) Writer.new none []).rw.log =
      receivedHeader (serve rx chainO e .new (at' b!"/a.txt") Writer.new none []).rw.log ∧
    received (serve rx chainO e .new (headOf (at' b!"/a.txt")) Writer.new none []).rw.log = some 200 := by
  obtain ⟨e, he, hp⟩ := page_app (p := fun e => received (serve rx chainO e .new (headOf (at' b!"/a.txt")) Writer.new none []).rw.log == some 200) (by decide +kernel)
  exact ⟨e, (C135_single he ⟨Or.inr ⟨rfl, by decide⟩, by decide, by decide⟩ rfl .new .new none []).2.1, eq_of_beq hp⟩

example : ∃ e : Engine (Prog (List Str)), withWhole (fun _ => true) = true ∧
    receivedHeader (serve rx chainO e .new (headOf (at' b!"/static/d/x.txt")) Writer.new none []).rw.log =
      receivedHeader (serve rx chainO e .new (at' b!"/static/d/x.txt") Writer.new none []).rw.log := by
  obtain ⟨e, he, _⟩ := whole_app (p := fun _ => true) (by decide +kernel) (at' b!"/static/d/x.txt")
  exact ⟨e, by decide +kernel, (C135_static he ⟨Or.inr ⟨rfl, by decide⟩, by decide, by decide⟩ rfl (name := b!"d/x.txt") (by decide) (by decide)
    (Or.inl (by decide)) .new .new none []).2.1⟩

end Demo

end Water
