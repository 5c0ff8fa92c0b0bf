import Verif.Spec.ServeFile
import Verif.Lemmas.Resume
import Verif.Lemmas.Walk
import Verif.Props.Clean
/-
Lemmas about `http.ServeFile`.
-/
namespace Water
open Spec
variable {ω : Type}

/-! Elements -/

theorem isSlash_iff {c : UInt8} : isSlash c = true ↔ AnySlash c := by
  unfold isSlash AnySlash
  simp

theorem mem_slashFields {e : Str} (he : e ≠ []) (hs : ∀ c ∈ e, ¬ AnySlash c) (v cur : Str) (hcur : ∀ c ∈ cur, ¬ AnySlash c) :
    e ∈ slashFields cur v ↔ ∃ a b, cur ++ v = a ++ e ++ b ∧ (∀ c, a.getLast? = some c → AnySlash c) ∧ (∀ c, b.head? = some c → AnySlash c) := by
  have hlast : ∀ a : Str, (∀ c, a.getLast? = some c → AnySlash c) → (∀ c ∈ a, ¬ AnySlash c) → a = [] := by
    intro a h1 h2
    cases hl : a.getLast? with
    | none => exact List.getLast?_eq_none_iff.1 hl
    | some c => exact absurd (h1 c hl) (h2 c (List.mem_of_getLast? hl))
  have hhead : ∀ b : Str, (∀ c, b.head? = some c → AnySlash c) → (∀ c ∈ b, ¬ AnySlash c) → b = [] := by
    intro b h1 h2
    cases b with
    | nil => rfl
    | cons c b => exact absurd (h1 c rfl) (h2 c (List.mem_cons_self ..))
  induction v generalizing cur with
  | nil =>
    rw [slashFields, List.append_nil]
    constructor
    · intro h
      split at h
      · cases h
      · rw [List.mem_singleton.1 h]
        exact ⟨[], [], by simp, fun _ h => (by cases h), fun _ h => (by cases h)⟩
    · rintro ⟨a, b, h, h1, h2⟩
      have ha := hlast a h1 (fun c hc => hcur c (by rw [h]; simp [hc]))
      have hb := hhead b h2 (fun c hc => hcur c (by rw [h]; simp [hc]))
      subst ha hb
      simp only [List.nil_append, List.append_nil] at h
      rw [h, if_neg he]
      exact List.mem_singleton.2 rfl
  | cons c cs ih =>
    rw [slashFields]
    by_cases hc : isSlash c = true
    · rw [if_pos hc]
      have hc' := isSlash_iff.1 hc
      have hin : e ∈ (if cur = [] then slashFields [] cs else cur :: slashFields [] cs) ↔ e = cur ∨ e ∈ slashFields [] cs := by
        split
        · rename_i h
          subst h
          exact ⟨Or.inr, fun h => h.elim (fun h => absurd h he) id⟩
        · exact List.mem_cons
      have ih0 := ih [] (by intro _ h; cases h)
      refine hin.trans (Iff.trans (or_congr Iff.rfl ih0) ?_)
      constructor
      · rintro (rfl | ⟨a, b, h, h1, h2⟩)
        · exact ⟨[], c :: cs, by simp, fun _ h => (by cases h), fun d h => (by cases h; exact hc')⟩
        · refine ⟨cur ++ c :: a, b, ?_, ?_, h2⟩
          · rw [List.nil_append] at h
            rw [h]; simp
          · intro d hd
            rw [List.getLast?_append] at hd
            cases a with
            | nil =>
              simp only [List.getLast?_singleton, Option.some_or, Option.some.injEq] at hd
              exact hd ▸ hc'
            | cons x a =>
              rw [List.getLast?_cons_cons] at hd
              refine h1 d ?_
              cases h5 : (x :: a).getLast? with
              | none => simp at h5
              | some y =>
                rw [h5] at hd
                simpa using hd
      · rintro ⟨a, b, h, h1, h2⟩
        rw [List.append_assoc] at h
        rcases List.append_eq_append_iff.1 h with ⟨t, h3, h4⟩ | ⟨t, h3, h4⟩
        · -- a = cur ++ t
          cases t with
          | nil =>
            -- then e begins with the slash
            exfalso
            rw [List.nil_append] at h4
            cases e with
            | nil => exact he rfl
            | cons x e =>
              rw [List.cons_append, List.cons.injEq] at h4
              exact hs x (List.mem_cons_self ..) (h4.1 ▸ hc')
          | cons x t =>
            rw [List.cons_append, List.cons.injEq] at h4
            right
            refine ⟨t, b, by rw [List.nil_append, h4.2, List.append_assoc], ?_, h2⟩
            intro d hd
            refine h1 d ?_
            rw [h3, List.getLast?_append]
            cases t with
            | nil => cases hd
            | cons y t => rw [List.getLast?_cons_cons, hd]; rfl
        · -- cur = a ++ t
          have ha := hlast a h1 (fun c hc => hcur c (by rw [h3]; simp [hc]))
          subst ha
          rw [List.nil_append] at h3
          subst h3
          left
          rcases List.append_eq_append_iff.1 h4 with ⟨u, h5, h6⟩ | ⟨u, h5, h6⟩
          · cases u with
            | nil => rw [h5, List.append_nil]
            | cons x u =>
              exfalso
              refine hcur x (by rw [h5]; simp) (h2 x (by rw [h6]; rfl))
          · cases u with
            | nil => rw [h5, List.append_nil]
            | cons x u =>
              exfalso
              rw [List.cons_append, List.cons.injEq] at h6
              exact hs x (by rw [h5]; simp) (h6.1 ▸ hc')
    · rw [if_neg hc]
      have hn : ¬ AnySlash c := fun h => hc (isSlash_iff.2 h)
      have ih1 := ih (cur ++ [c]) (by
        intro d hd
        rcases List.mem_append.1 hd with hd | hd
        · exact hcur d hd
        · rw [List.mem_singleton.1 hd]; exact hn)
      refine Iff.trans ih1 ?_
      simp

theorem containsDotDot_iff {v : Str} : containsDotDot v = true ↔ HasDotDot v := by
  have key := mem_slashFields (e := b!"..") (by decide) (by unfold AnySlash; decide) v [] (fun _ h => by cases h)
  have hany : (slashFields [] v).any (· == b!"..") = true ↔ HasDotDot v := by
    rw [List.any_eq_true]
    unfold HasDotDot
    rw [List.nil_append] at key
    rw [← key]
    constructor
    · rintro ⟨x, hx, h⟩
      rw [← eq_of_beq h]; exact hx
    · intro h
      exact ⟨_, h, beq_self_eq_true _⟩
  unfold containsDotDot
  split
  · rename_i h
    constructor
    · intro h'; cases h'
    · rintro ⟨a, b, h', _, _⟩
      have := (containsStr_iff (s := v) (t := b!"..") (by decide)).2 ⟨a, b, h'⟩
      rw [h] at this; cases this
  · exact hany

theorem hasSuffix_index {p : Str} : hasSuffix p b!"/index.html" = true ↔ NamesIndex p := by
  unfold hasSuffix NamesIndex
  rw [List.isSuffixOf_iff_suffix]
  constructor
  · rintro ⟨a, h⟩; exact ⟨a, h.symm⟩
  · rintro ⟨a, h⟩; exact ⟨a, h.symm⟩

/-! The path that is opened -/

theorem split_path {dir last : Str} (hs : slash ∉ last) (hd : dir = [] ∨ dir.getLast? = some slash) :
    splitDir (dir ++ last) = dir ∧ splitFile (dir ++ last) = last := by
  have h1 : ∀ c ∈ last.reverse, (c != slash) = true := by
    intro c hc
    simp only [bne_iff_ne, ne_eq]
    rintro rfl
    exact hs (List.mem_reverse.1 hc)
  have h2 : dir.reverse.takeWhile (· != slash) = [] ∧ dir.reverse.dropWhile (· != slash) = dir.reverse := by
    cases hr : dir.reverse with
    | nil => exact ⟨rfl, rfl⟩
    | cons c t =>
      have hc : c = slash := by
        rcases hd with hd | hd
        · subst hd; cases hr
        · rw [← List.head?_reverse, hr] at hd
          exact Option.some.inj hd
      subst hc
      exact ⟨List.takeWhile_cons_of_neg (by simp), List.dropWhile_cons_of_neg (by simp)⟩
  unfold splitDir splitFile
  rw [List.reverse_append, List.dropWhile_append_of_pos h1, List.takeWhile_append_of_pos h1, h2.1, h2.2]
  simp

theorem walk_slash_name {last : Str} (hs : slash ∉ last) (cwd : List Str) : walk cwd (slash :: last) = walkStep [] last := by
  unfold walk
  rw [splitB_cons_slash, splitB_of_not_mem hs]
  rfl

theorem walk_name {dir last : Str} (hs : slash ∉ last) (hd : dir = [] ∨ dir.getLast? = some slash) (cwd : List Str) :
    walk cwd (dir ++ last) = walkStep (walk cwd dir) last := by
  rcases hd with rfl | hd
  · unfold walk
    rw [List.nil_append, splitB_of_not_mem hs, if_neg (fun h : last.head? = some slash => hs (List.mem_of_mem_head? h))]
    rfl
  · obtain ⟨d, rfl⟩ := List.getLast?_eq_some_iff.1 hd
    rw [List.append_assoc, List.singleton_append]
    cases d with
    | nil =>
      rw [List.nil_append, List.nil_append, walk_slash_name hs, walk_slash_name (by simp)]
      rfl
    | cons x d =>
      rw [walk_append cwd (by simp), walk_append cwd (by simp), splitB_of_not_mem hs]
      rfl

/-- What is opened: the file of that name, but the directory itself if the last element is `..`. -/
theorem opened_path {dir last : Str} (hs : slash ∉ last) (hd : dir = [] ∨ dir.getLast? = some slash) :
    dirPath dir last = pathClean (if last = b!".." then dir else dir ++ last) := by
  have hx : ∃ x, dirPath dir last = pathClean x := by
    unfold dirPath pathJoin
    rw [if_pos (by split <;> simp_all)]
    exact ⟨_, rfl⟩
  obtain ⟨x, hx⟩ := hx
  have hplace : SamePlace x (if last = b!".." then dir else dir ++ last) := by
    intro cwd _
    rw [← walk_clean cwd x, ← hx, walk_dirPath, walk_slash_name hs]
    split
    · rename_i h
      subst h
      exact List.append_nil _
    · rename_i h
      rw [walk_name hs hd]
      unfold walkStep
      split
      · exact List.append_nil _
      · rfl
  rw [hx, ← goClean_eq, ← goClean_eq]
  exact (C84_canonical _ _).2 hplace

/-- The index file of a directory. -/
theorem opened_index {dir last : Str} (hs : slash ∉ last) (hd : dir = [] ∨ dir.getLast? = some slash) (hl : last ≠ b!"..") (hne : dir ++ last ≠ []) :
    dirPath dir (last ++ b!"/index.html") = pathClean (dir ++ last ++ b!"/index.html") := by
  have hx : ∃ x, dirPath dir (last ++ b!"/index.html") = pathClean x := by
    unfold dirPath pathJoin
    rw [if_pos (by split <;> simp_all)]
    exact ⟨_, rfl⟩
  obtain ⟨x, hx⟩ := hx
  have hstep : ∀ D : List Str, (splitB slash b!"index.html").foldl walkStep D = D ++ [b!"index.html"] := by
    intro D
    rw [show splitB slash b!"index.html" = [b!"index.html"] by decide +kernel, List.foldl_cons, List.foldl_nil]
    unfold walkStep
    rw [if_neg (by decide), if_neg (by decide)]
  have hplace : SamePlace x (dir ++ last ++ b!"/index.html") := by
    intro cwd _
    rw [← walk_clean cwd x, ← hx, walk_dirPath]
    rw [show slash :: (last ++ b!"/index.html") = (slash :: last) ++ slash :: b!"index.html" by simp [slash], walk_append [] (by simp), walk_slash_name hs, hstep]
    rw [show dir ++ last ++ b!"/index.html" = (dir ++ last) ++ slash :: b!"index.html" by simp [slash], walk_append cwd hne, walk_name hs hd, hstep]
    rw [← List.append_assoc]
    congr 1
    unfold walkStep
    split
    · exact List.append_nil _
    · rfl
  rw [hx, ← goClean_eq, ← goClean_eq]
  exact (C84_canonical _ _).2 hplace

/-! Runs -/

/-- the header of an error -/
def errorHeader (h : Header) : Header :=
  (h.put b!"Content-Type" b!"text/plain; charset=utf-8").put b!"X-Content-Type-Options" b!"nosniff"

/-- what is sent of an error -/
def errorLog (code : Int) (msg : Str) (h : Header) : List WEvent := [.status true code (errorHeader h), .body (msg ++ [10])]

theorem exec_httpError {o : Oracle} {req : Req} {nx : St ω → Out × St ω} {k : Nat} {s : St ω} {code : Int} {msg : Str}
    (hl : s.rw.log = []) (hb : o.bad code = false) :
    exec o req nx k (.httpError code msg) s = (.ret, { s with rw := ⟨errorHeader s.rw.header, errorLog code msg s.rw.header⟩ }) := by
  unfold Prog.httpError errorHeader errorLog errorHeader
  simp [Prog.do, exec, doCall, Writer.writeHeader, Writer.write, hl, hb]

/-- where a redirect inside the site leads -/
def localTo (req : Req) (to : Str) : Str := if req.rawQuery ≠ [] then to ++ b!"?" ++ req.rawQuery else to

theorem exec_localRedirect {o : Oracle} {req : Req} {nx : St ω → Out × St ω} {k : Nat} {s : St ω} {to : Str}
    (hl : s.rw.log = []) (hb : o.bad 301 = false) :
    exec o req nx k (localRedirect to) s = (.ret, { s with rw := ⟨s.rw.header.put b!"Location" (localTo req to),
      [.status true 301 (s.rw.header.put b!"Location" (localTo req to))]⟩ }) := by
  unfold localRedirect localTo
  rw [exec]
  simp [Prog.do, exec, doCall, Writer.writeHeader, hl, hb]

section
variable {o : Oracle} {req : Req} {nx : St ω → Out × St ω} {k : Nat} {s : St ω} {io : ContentIO ω} {disk : OsFiles ω} {name : Str}

theorem serveFile_dots (h : HasDotDot req.path) :
    exec o req nx k (serveFileStd io o disk name) s = exec o req nx k (.httpError 400 b!"invalid URL path") s := by
  unfold serveFileStd
  rw [exec]
  simp only [doCall]
  rw [if_pos (containsDotDot_iff.2 h)]

theorem serveFile_index (h : ¬ HasDotDot req.path) (hi : NamesIndex req.path) :
    exec o req nx k (serveFileStd io o disk name) s = exec o req nx k (localRedirect b!"./") s := by
  unfold serveFileStd
  rw [exec]
  simp only [doCall]
  rw [if_neg (fun h' => h (containsDotDot_iff.1 h')), if_pos (hasSuffix_index.2 hi)]

theorem serveFile_goes (h : ¬ HasDotDot req.path) (hi : ¬ NamesIndex req.path) :
    exec o req nx k (serveFileStd io o disk name) s =
      exec o req nx k (.call (disk.openIn (splitDir name) (splitFile name)) (fun r => match r with
          | .other f => closeAfter disk.fs f (.call (disk.describe f) (fun r => match r with
            | .info i => serveOpened io o disk (splitDir name) (splitFile name) req.path f i
            | .int code => .httpError code (errText code)
            | _ => .ret))
          | .int code => .httpError code (errText code)
          | _ => .ret)) s := by
  unfold serveFileStd
  rw [exec]
  simp only [doCall]
  rw [if_neg (fun h' => h (containsDotDot_iff.1 h')), if_neg (fun h' => hi (hasSuffix_index.1 h'))]
  rfl

theorem serveFile_missing (h : ¬ HasDotDot req.path) (hi : ¬ NamesIndex req.path) {w1 : ω}
    (hopen : disk.fs.openFile (dirPath (splitDir name) (splitFile name)) s.world = (w1, none)) :
    exec o req nx k (serveFileStd io o disk name) s =
      let code := errCode (disk.openErr (dirPath (splitDir name) (splitFile name)) w1)
      exec o req nx k (.httpError code (errText code)) { s with world := w1 } := by
  rw [serveFile_goes h hi, exec]
  simp only [OsFiles.openIn, doCall, hopen]

theorem serveFile_opened (h : ¬ HasDotDot req.path) (hi : ¬ NamesIndex req.path) {w1 : ω} {f : Nat}
    (hopen : disk.fs.openFile (dirPath (splitDir name) (splitFile name)) s.world = (w1, some f)) :
    exec o req nx k (serveFileStd io o disk name) s =
      closing disk.fs f (match disk.fs.stat f w1 with
        | (w2, some i) => exec o req nx k (serveOpened io o disk (splitDir name) (splitFile name) req.path f i) { s with world := w2 }
        | (w2, none) =>
          let code := errCode (disk.statErr f w2)
          exec o req nx k (.httpError code (errText code)) { s with world := w2 }) := by
  rw [serveFile_goes h hi, exec]
  simp only [OsFiles.openIn, doCall, hopen]
  unfold closeAfter
  refine (exec_closing _ _ _ _).trans ?_
  rw [exec]
  rcases hst : disk.fs.stat f w1 with ⟨w2, _ | i⟩ <;> simp only [OsFiles.describe, doCall, hst]

theorem serveOpened_file {dir path : Str} {f : Nat} {i : FileInfo} (hd : i.dir = false) :
    serveOpened io o disk dir name path f i = serveContentStd io o i.name i.modTime f := by
  unfold serveOpened sendOpened
  rw [hd]
  rfl

end

/-! Listings -/

/-- the listing of a directory -/
def listing (names : List Str) : Str := b!"<pre>\n" ++ (names.map listLine).flatten ++ b!"</pre>\n"

/-- the header of a listing -/
def listHeader (io : ContentIO ω) (i : FileInfo) (h : Header) : Header :=
  (setLastModified io i.modTime h).put b!"Content-Type" b!"text/html; charset=utf-8"

theorem receivedBody_map (l : List Str) : receivedBody (l.map WEvent.body) = l.flatten := by
  induction l with
  | nil => rfl
  | cons x l ih => rw [List.map_cons, receivedBody, ih]; rfl

theorem exec_writes {o : Oracle} {req : Req} {nx : St ω → Out × St ω} {k : Nat} (g : Str → Str) (p : Prog ω) (names : List Str) (s : St ω) (hl : s.rw.log ≠ []) :
    exec o req nx k (names.foldr (fun n k => .do (.rawWrite (g n)) k) p) s =
      exec o req nx k p { s with rw := { s.rw with log := s.rw.log ++ names.map (fun n => .body (g n)) } } := by
  induction names generalizing s with
  | nil => simp
  | cons n names ih =>
    rw [List.foldr_cons, Prog.do, exec]
    have hw : doCall o req s (.rawWrite (g n)) = (.ok .unit, { s with rw := { s.rw with log := s.rw.log ++ [.body (g n)] } }) := by
      simp only [doCall, Writer.write]
      simp [hl]
    rw [hw]
    dsimp only
    rw [ih _ (by simp)]
    simp

theorem exec_list {o : Oracle} {req : Req} {nx : St ω → Out × St ω} {k : Nat} {s : St ω} {io : ContentIO ω} {disk : OsFiles ω} {f : Nat} {i : FileInfo}
    (hid : i.dir = true) (hg : PlainGet req) (hl : s.rw.log = []) {w : ω} {l : List (Str × Bool)} (hread : disk.entries f s.world = (w, some l)) :
    exec o req nx k (sendOpened io o disk f i) s = (.ret, { s with world := w, rw := ⟨listHeader io i s.rw.header,
      .status false 200 (listHeader io i s.rw.header) ::
        (b!"<pre>\n" :: (l.map (fun e => if e.2 then e.1 ++ b!"/" else e.1)).map listLine ++ [b!"</pre>\n"]).map WEvent.body⟩ }) := by
  unfold sendOpened
  rw [hid, if_pos (show true = true from rfl), exec]
  simp only [doCall]
  have hn := hg.others b!"If-Modified-Since" (by simp)
  rw [if_neg (by rw [hn]; unfold checkIfModified; simp)]
  rw [Prog.do, exec]
  simp only [doCall]
  unfold dirList
  rw [exec]
  simp only [doCall, hread]
  rw [Prog.do, exec]
  simp only [doCall]
  rw [Prog.do, exec]
  have hw : ∀ t : St ω, t.rw.log = [] → doCall o req t (.rawWrite b!"<pre>\n") =
      (.ok .unit, { t with rw := ⟨t.rw.header, [.status false 200 t.rw.header, .body b!"<pre>\n"]⟩ }) := by
    intro t ht
    simp [doCall, Writer.write, ht]
  rw [hw _ (by exact hl)]
  dsimp only
  rw [exec_writes _ _ _ _ (by simp), Prog.do, exec]
  simp [doCall, Writer.write, exec, listHeader, List.map_map, Function.comp_def]

/-- An endpoint on the root: the handlers that run for a path that no other endpoint accepts. -/
theorem root_served {rx : Regex} {o : Oracle} {ops : List (Op (Prog ω))} {r : Nat} {heap : Heap (Prog ω)} (h : runOps [] ops = .ok heap)
    {opts : List (Opt (Prog ω))} {e : Engine (Prog ω)} (he : handler rx heap r opts = .ok e) (hst : staticOf opts = false)
    {m pattern : Str} {p : Prog ω} (hm : m ≠ []) (hin : (⟨some r, m, pattern, [.ctxFunc p]⟩ : Made (Prog ω)) ∈ made ops)
    {req : Req} (hr : Routed req) (hrm : req.method = m) (hacc : Accepts rx (routeSegs (trimSpace pattern)) (pathSegs req.path))
    (hother : ∀ i l, Endpoint ops r i l → methodOf ops i = m → Accepts rx (routeSegs (fullPath ops l)) (pathSegs req.path) →
      fullPath ops l = trimSpace pattern)
    (c : Ctx ω) (rw : Writer) (body : Option Str) (w : ω) :
    ∃ s : St ω, Blank s ∧ s.ctx.handlers = (beforesOf ops r ++ usesOf ops r).filterMap payload ++ [p] ∧
      s.rw = rw ∧ s.body = body ∧ s.world = w ∧
      let sv := serve rx o e c req rw body w
      sv.out = (runAll o req s).1 ∧ sv.rw = (runAll o req s).2.rw ∧ sv.world = (runAll o req s).2.world := by
  obtain ⟨hroot, es, h1, _, _, _, _, _, _, hmk⟩ := handler_ok h he
  rw [hst] at hmk
  have hrf := run_reflects h
  obtain ⟨i, hend, hmi, hhi, hfi, hui⟩ := root_endpoint hroot h hm hin
  have hv : routeFor ops r (i, [r, i]) ∈ routesOf ops r es := (mem_routesOf h1 hrf).2 ⟨i, _, hend, rfl⟩
  obtain ⟨n, hn⟩ := C02_dispatch_complete hmk hv (path := req.path) (by
    show Accepts rx (routeSegs (fullPath ops [r, i])) _
    rw [hfi]; exact hacc)
  have hvm : (routeFor ops r (i, [r, i])).method = m := hmi
  rw [hvm] at hn
  obtain ⟨j, l, hj, hmj, hch, hacc'⟩ := C17_chain h he hn
  have hji : j = i ∧ l = [r, i] := by
    have hfk : fullPath ops l = fullPath ops [r, i] := by
      rw [hfi]
      rcases hacc' with hacc' | hacc'
      · exact hother j l hj hmj hacc'
      · rw [hst] at hacc'; exact absurd hacc'.1 (by simp)
    by_cases hne : j = i
    · refine ⟨hne, ?_⟩
      subst hne
      exact hj.1.1.unique hend.1.1
    · obtain ⟨p, hp⟩ := C15_double_rejected (rx := rx) (opts := opts) h hj hend hne (by rw [hmj, hmi]) hfk
      rw [he] at hp; cases hp
  obtain ⟨rfl, rfl⟩ := hji
  have hch := filterMap_of_map hch
  rw [hhi] at hch
  simp only [List.flatMap_cons, List.flatMap_nil, hui, List.append_nil, List.filterMap_append] at hch
  obtain ⟨s, s1, s2, _, s4, s5, s6, s7⟩ := serve_ran (o := o) (c := c) (rw := rw) (body := body) (w := w) hr (n := n) (by rw [hrm]; exact hn)
  refine ⟨s, s1, ?_, s4, s5, s6, s7.1, s7.2.1, s7.2.2.1⟩
  rw [s2, hch]
  simp [payload]

end Water
