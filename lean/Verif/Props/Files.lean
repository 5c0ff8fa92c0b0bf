import Verif.Lemmas.Files
import Verif.Lemmas.Text
import Verif.Props.Serve
/-
C48, C49, C50: static files, for all prefixes, file systems, options and requests.
-/
namespace Water
open Spec
variable {ω : Type}

/-! ### C48 -/

/-- `serve_ran` with the route parameters -/
theorem serve_ran_params {rx : Regex} {o : Oracle} {e : Engine (Prog ω)} {c : Ctx ω} {req : Req} {rw : Writer}
    {body : Option Str} {w : ω} (hr : Routed req) {n : EndNode (Prog ω)} (hn : routeOf rx e req.method req.path = some n)
    {par : Params} (hp : paramsOf rx e req.method req.path = some par) :
    ∃ s : St ω, Blank s ∧ s.ctx.handlers = n.handlers ∧ s.ctx.params = par ∧ s.rw = rw ∧ s.body = body ∧ s.world = w ∧
      let sv := serve rx o e c req rw body w
      sv.out = (runAll o req s).1 ∧ sv.rw = (runAll o req s).2.rw ∧ sv.world = (runAll o req s).2.world := by
  obtain ⟨i, hi⟩ := hr.index
  simp only [routeOf, hi] at hn
  simp only [paramsOf, hi, Option.join_eq_some_iff] at hp
  rw [serve_routed hr.ungated hi, serveRouted_chain (hs := n.handlers) (by rw [hn]; rfl)]
  refine ⟨_, blank_start _ _ _ _ _ _ _, rfl, ?_, rfl, rfl, rfl, rfl, rfl, rfl⟩
  simp only [startSt, prepare, hp]

/-- an endpoint that was registered on the root -/
theorem root_endpoint {α : Type} {ops : List (Op α)} {r : Nat} (hroot : IsRoot ops r) {heap : Heap α} (h : runOps [] ops = .ok heap)
    {m p : Str} {hs : List (HVal α)} (hm : m ≠ []) (hin : (⟨some r, m, p, hs⟩ : Made α) ∈ made ops) :
    ∃ i, Endpoint ops r i [r, i] ∧ methodOf ops i = m ∧ handlersOf ops i = hs ∧ fullPath ops [r, i] = trimSpace p ∧
      usesOf ops i = [] := by
  obtain ⟨c, hc, hcp⟩ := hroot
  obtain ⟨i, hi⟩ := List.getElem?_of_mem hin
  have hrf := run_reflects h
  have hlin : Lineage (made ops) i ([r] ++ [i]) := .child hi rfl (.root hc hcp)
  obtain ⟨h1, h2, h3⟩ := getElem_handlersOf hi
  refine ⟨i, ⟨⟨hlin, rfl⟩, _, hi, hm⟩, h1, h3, ?_, ?_⟩
  · have hpr : patternOf ops r = [] := by
      have : (made ops)[r]? = some c := hc
      have hmem := List.mem_of_getElem? this
      unfold made at hmem
      rw [List.mem_filterMap] at hmem
      obtain ⟨op, _, hop⟩ := hmem
      rw [(getElem_handlersOf hc).2.1]
      cases op <;> simp [madeBy] at hop <;> subst hop <;> simp at hcp ⊢
    unfold fullPath
    simp only [List.flatMap_cons, List.flatMap_nil, hpr, h2, List.append_nil]
    rw [show trimSpace [] = [] by decide]
    rfl
  · have hlt : i < heap.length := by rw [hrf.1]; exact (List.getElem?_eq_some_iff.1 hi).1
    exact ((hrf.2 i _ _ (List.getElem?_eq_getElem hlt) hi).leaf hm).2.2.1

theorem trimSpace_pattern (es : List Str) : trimSpace (pathBelow es [star]) = pathBelow es [star] := by
  have h1 : (pathBelow es [star]).head? = some slash := by
    unfold pathBelow; cases es <;> rfl
  have h2 : (pathBelow es [star]).reverse.head? = some star := by
    unfold pathBelow; simp
  unfold trimSpace
  rw [trimLeft_head (c := slash) (by unfold NonSpace; decide) h1]
  unfold trimRight
  have : stripF (spaceEnc.map List.reverse) (pathBelow es [star]).length (pathBelow es [star]).reverse =
      (pathBelow es [star]).reverse := by
    cases hr : (pathBelow es [star]).reverse with
    | nil => rw [hr] at h2; cases h2
    | cons c t =>
      rw [hr] at h2
      simp only [List.head?_cons, Option.some.injEq] at h2
      subst h2
      cases (pathBelow es [star]).length with
      | zero => rfl
      | succ n =>
        unfold stripF
        have : (spaceEnc.map List.reverse).find? (fun e => e.isPrefixOf (star :: t)) = none := by
          rw [List.find?_eq_none]
          intro x hx
          have hx' : x.head? ≠ some star ∧ x ≠ [] := by
            have : ∀ x ∈ spaceEnc.map List.reverse, x.head? ≠ some star ∧ x ≠ [] := by decide
            exact this x hx
          cases x with
          | nil => exact absurd rfl hx'.2
          | cons d x =>
            simp only [List.head?_cons, ne_eq, Option.some.injEq] at hx'
            simp [List.isPrefixOf, hx'.1]
        rw [this]
  rw [this, List.reverse_reverse]

theorem filterMap_of_map {α β : Type} {f : α → Option β} {l : List α} {k : List β} (h : k.map some = l.map f) :
    k = l.filterMap f := by
  induction l generalizing k with
  | nil => simpa using h
  | cons x l ih =>
    cases k with
    | nil => simp at h
    | cons y k =>
      simp only [List.map_cons, List.cons.injEq] at h
      rw [List.filterMap_cons, ← h.1, ← ih h.2]

/-- C48 (partial): after `StaticAdvance` on the root, with a prefix whose elements are ordinary (leading, trailing and
double slashes and `.` do not matter), a GET or HEAD request for `name` below the prefix, with or without a trailing
slash, runs the root's middleware and then the static handler, which sees `name` as `*0` - unless a route registered
elsewhere accepts the path too. Missing: prefixes with `..` or pattern characters, the prefix itself with a trailing
slash (see `C48_refuted`). For routers with the static option see `C48_option_partial`. -/
theorem C48_below_partial {rx : Regex} {a b : List (Op (Prog ω))} {fs : FS ω} {http : Http ω} {opt : StaticOptions ω}
    {r : Nat} {ops : List (Op (Prog ω))} (hops : ops = a ++ staticOps r fs http opt ++ b)
    {heap : Heap (Prog ω)} (h : runOps [] ops = .ok heap)
    {opts : List (Opt (Prog ω))} {e : Engine (Prog ω)} (he : handler rx heap r opts = .ok e) (hst : staticOf opts = false)
    (ho : ∀ s ∈ elems opt.pre, Ordinary s) {o : Oracle} {req : Req} (hr : Routed req)
    (hm : req.method = b!"GET" ∨ req.method = b!"HEAD") {name : Str} (hne : name ≠ []) (hl : name.getLast? ≠ some slash)
    (hpath : req.path = pathBelow (elems opt.pre) name ∨ req.path = pathBelow (elems opt.pre) name ++ [slash])
    (hother : ∀ i l, Endpoint ops r i l → methodOf ops i = req.method →
      Accepts rx (routeSegs (fullPath ops l)) (pathSegs req.path) → fullPath ops l = pathBelow (elems opt.pre) [star])
    (c : Ctx ω) (rw : Writer) (body : Option Str) (w : ω) :
    ∃ s : St ω, Blank s ∧
      s.ctx.handlers = (beforesOf ops r ++ usesOf ops r).filterMap payload ++ [staticHandler fs http opt] ∧
      s.ctx.params b!"*0" = some name ∧ s.rw = rw ∧ s.body = body ∧ s.world = w ∧
      let sv := serve rx o e c req rw body w
      sv.out = (runAll o req s).1 ∧ sv.rw = (runAll o req s).2.rw ∧ sv.world = (runAll o req s).2.world := by
  have hns : ∀ s ∈ elems opt.pre, slash ∉ s := fun s hs => elems_no_slash hs
  have hnn : ∀ s ∈ elems opt.pre, s ≠ [] := fun s hs => elems_ne_nil hs
  have hpat : staticPattern opt.pre = pathBelow (elems opt.pre) [star] := staticPattern_eq (fun s hs => (ho s hs).noParent)
  have hsegs : pathSegs req.path = elems opt.pre ++ splitB slash name := by
    have h1 := pathSegs_below hns hne hl
    rcases hpath with hp | hp
    · rw [hp, h1]
    · rw [hp, pathSegs_append_slash, h1]
      left
      unfold pathBelow
      rw [List.getLast?_append]
      cases name with
      | nil => exact absurd rfl hne
      | cons d t =>
        rw [List.getLast?_cons_cons]
        cases h5 : (d :: t).getLast? with
        | none => simp at h5
        | some x => rw [h5] at hl; simpa using hl
  have hrs := routeSegs_below hns hnn ho
  have hlit : ∀ p ∈ elems opt.pre, kind p = .literal := fun p hp => kind_ordinary (ho p hp)
  obtain ⟨hroot, es, h1, _, _, _, _, _, _, hmk⟩ := handler_ok h he
  rw [hst] at hmk
  have hrf := run_reflects h
  -- the endpoint
  have hin : (⟨some r, req.method, staticPattern opt.pre, [.ctxFunc (staticHandler fs http opt)]⟩ : Made (Prog ω)) ∈ made ops := by
    rw [hops]
    simp only [made, List.filterMap_append, List.mem_append]
    refine .inl (.inr ?_)
    rcases hm with hm | hm <;> rw [hm] <;> simp [staticOps, madeBy, mGET, mHEAD]
  obtain ⟨i, hend, hmi, hhi, hfi, hui⟩ := root_endpoint hroot h (by rcases hm with hm | hm <;> rw [hm] <;> decide) hin
  have hfull : fullPath ops [r, i] = pathBelow (elems opt.pre) [star] := by rw [hfi, hpat, trimSpace_pattern]
  -- dispatch
  have hv : routeFor ops r (i, [r, i]) ∈ routesOf ops r es := (mem_routesOf h1 hrf).2 ⟨i, _, hend, rfl⟩
  have hvu : (routeFor ops r (i, [r, i])).uri = pathBelow (elems opt.pre) [star] := hfull
  obtain ⟨n, hn, v', hv', hm', hu', ha', hpar⟩ := C10_catch_all_remainder hmk hv (ps := elems opt.pre)
    (rest := splitB slash name) (path := req.path) (by rw [hvu]; exact hrs) hlit hsegs (splitB_ne_nil _ _)
  have hvm : (routeFor ops r (i, [r, i])).method = req.method := hmi
  rw [hvm] at hn hm' hpar
  have hvr : routeSegs v'.uri = routeSegs (routeFor ops r (i, [r, i])).uri := by
    obtain ⟨j, k, hj, rfl⟩ := (mem_routesOf h1 hrf).1 hv'
    have : fullPath ops k = _ := hother j k hj hm' ha'
    show routeSegs (fullPath ops k) = routeSegs (fullPath ops [r, i])
    rw [this, hfull]
  obtain ⟨par, hpp, hval⟩ := hpar hvr
  rw [join_splitB] at hval
  -- the chain
  obtain ⟨j, k, hj, hmj, hch, hacc⟩ := C17_chain h he hn
  have hji : j = i ∧ k = [r, i] := by
    have hfk : fullPath ops k = fullPath ops [r, i] := by
      rw [hfull]
      rcases hacc with hacc | hacc
      · exact hother j k hj hmj hacc
      · rw [hst] at hacc; exact absurd hacc.1 (by simp)
    by_cases hne : j = i
    · refine ⟨hne, ?_⟩
      subst hne
      exact hj.1.1.unique hend.1.1
    · obtain ⟨p, hp⟩ := C15_double_rejected (rx := rx) (opts := opts) h hj hend hne (by rw [hmj, hmi]) hfk
      rw [he] at hp; cases hp
  obtain ⟨rfl, rfl⟩ := hji
  have hch := filterMap_of_map hch
  rw [hhi] at hch
  simp only [List.flatMap_cons, List.flatMap_nil, hui, List.append_nil, List.filterMap_append] at hch
  obtain ⟨s, s1, s2, s3, s4⟩ := serve_ran_params (o := o) (c := c) (rw := rw) (body := body) (w := w) hr hn hpp
  refine ⟨s, s1, ?_, by rw [s3]; exact hval, s4⟩
  rw [s2, hch]
  simp [payload]

/-- C48: `StaticAdvance` works on a root with a file system only, and then makes exactly two endpoints. -/
theorem C48_registers {http : Http ω} {heap : Heap (Prog ω)} {r : Nat} {opt : StaticOptions ω} {heap' : Heap (Prog ω)} :
    staticAdvance http heap r opt = .ok heap' ↔
      ∃ n fs, heap[r]? = some n ∧ n.parent = none ∧ opt.fileSystem = some fs ∧
        runOps heap (staticOps r fs http opt) = .ok heap' := by
  unfold staticAdvance
  cases heap[r]? with
  | none => simp
  | some n =>
    cases opt.fileSystem with
    | none => by_cases hp : n.parent = none <;> simp [hp]
    | some fs => by_cases hp : n.parent = none <;> simp [hp]

theorem made_static (a b : List (Op (Prog ω))) (r : Nat) (fs : FS ω) (http : Http ω) (opt : StaticOptions ω) :
    made (a ++ staticOps r fs http opt ++ b) = made a ++
      [⟨some r, b!"GET", staticPattern opt.pre, [.ctxFunc (staticHandler fs http opt)]⟩,
       ⟨some r, b!"HEAD", staticPattern opt.pre, [.ctxFunc (staticHandler fs http opt)]⟩] ++ made b := by
  simp only [made, List.filterMap_append]
  rfl

/-! #### What the static handler does with the name -/

/-- close the file at the end, whatever happened -/
def closing (fs : FS ω) (f : Nat) : Out × St ω → Out × St ω
  | (.fuel, s) => (.fuel, s)
  | (out, s) => (out, { s with world := fs.close f s.world })

/-- the state after the `Expires` header has been set -/
def expiring (opt : StaticOptions ω) (s : St ω) : St ω :=
  match opt.expires with
  | none => s
  | some e => { s with world := (e s.world).1, rw := { s.rw with header := s.rw.header.put kExpires (e s.world).2 } }

/-- a 404 or 304 sent through the context -/
def answered (s : St ω) (code : Int) : St ω :=
  { s with ctx := { s.ctx with written := true, status := code },
           rw := { s.rw with log := s.rw.log ++ [.status true code s.rw.header] } }

theorem writeHeader_answered {o : Oracle} {s : St ω} {code : Int} (hw : s.ctx.written = false) (hb : o.bad code = false) :
    s.writeHeader o code = (false, answered s code) := by
  unfold St.writeHeader
  rw [hw]
  simp only [Bool.false_eq_true, if_false]
  rw [Writer.writeHeader_ok hb]
  rfl

/-- C48: the static handler opens the file named by `*0`; if there is none, the answer is 404. -/
theorem C48_missing {o : Oracle} {req : Req} {nx : St ω → Out × St ω} {k : Nat} {s : St ω} {fs : FS ω} {http : Http ω}
    {opt : StaticOptions ω} {name : Str} {w1 : ω} (hp : s.ctx.params b!"*0" = some name)
    (hopen : fs.openFile name s.world = (w1, none)) (hw : s.ctx.written = false) (h404 : o.bad 404 = false) :
    exec o req nx k (staticHandler fs http opt) s = (.ret, answered { s with world := w1 } 404) := by
  simp only [staticHandler, exec, doCall, kRest, hp, hopen, openRes, Prog.do]
  rw [writeHeader_answered (by exact hw) h404]

theorem exec_closing {o : Oracle} {req : Req} {nx : St ω → Out × St ω} {k : Nat} (fs : FS ω) (f : Nat) (p : Prog ω) (s : St ω) :
    exec o req nx k (.scope p (fun r => .do (.world (fun w => (fs.close f w, .unit)))
      (match r with | none => .ret | some v => .panic v))) s = closing fs f (exec o req nx k p s) := by
  rw [exec]
  rcases exec o req nx k p s with ⟨out, t⟩
  cases out <;> rfl

theorem exec_static_open {o : Oracle} {req : Req} {nx : St ω → Out × St ω} {k : Nat} {s : St ω} {fs : FS ω} {http : Http ω}
    {opt : StaticOptions ω} {name : Str} {w1 : ω} {f : Nat} (hp : s.ctx.params b!"*0" = some name)
    (hopen : fs.openFile name s.world = (w1, some f)) :
    exec o req nx k (staticHandler fs http opt) s =
      closing fs f (exec o req nx k (.call (.world (fun w => let (w, x) := fs.stat f w; (w, statRes x))) (fun r => match r with
              | .info i => staticFound http opt name f i
              | _ => .do (.writeHeader 404) .ret)) { s with world := w1 }) := by
  unfold staticHandler
  rw [exec]
  simp only [doCall, kRest, hp]
  rw [exec]
  simp only [doCall, hopen, openRes]
  exact exec_closing fs f _ _

/-- C48: a file that cannot be described is answered 404, and closed. -/
theorem C48_unreadable {o : Oracle} {req : Req} {nx : St ω → Out × St ω} {k : Nat} {s : St ω} {fs : FS ω} {http : Http ω}
    {opt : StaticOptions ω} {name : Str} {w1 w2 : ω} {f : Nat} (hp : s.ctx.params b!"*0" = some name)
    (hopen : fs.openFile name s.world = (w1, some f)) (hstat : fs.stat f w1 = (w2, none))
    (hw : s.ctx.written = false) (h404 : o.bad 404 = false) :
    exec o req nx k (staticHandler fs http opt) s =
      closing fs f (.ret, answered { s with world := w2 } 404) := by
  rw [exec_static_open hp hopen]
  congr 1
  simp only [exec, doCall, hstat, statRes, Prog.do]
  rw [writeHeader_answered (by exact hw) h404]

theorem exec_static_found {o : Oracle} {req : Req} {nx : St ω → Out × St ω} {k : Nat} {s : St ω} {fs : FS ω} {http : Http ω}
    {opt : StaticOptions ω} {name : Str} {w1 w2 : ω} {f : Nat} {i : FileInfo} (hp : s.ctx.params b!"*0" = some name)
    (hopen : fs.openFile name s.world = (w1, some f)) (hstat : fs.stat f w1 = (w2, some i)) :
    exec o req nx k (staticHandler fs http opt) s =
      closing fs f (exec o req nx k
        (if i.dir then staticDir http opt name req.path else staticFile http opt name f i)
        (expiring opt { s with world := w2 })) := by
  rw [exec_static_open hp hopen]
  congr 1
  rw [exec]
  simp only [doCall, hstat, statRes]
  unfold staticFound expiring
  cases opt.expires with
  | none =>
    simp only []
    cases i.dir
    · rfl
    · simp only [if_true]; rw [exec]; rfl
  | some e =>
    simp only []
    rw [exec]
    simp only [doCall]
    rw [Prog.do, exec]
    simp only [doCall]
    cases i.dir
    · rfl
    · simp only [if_true]; rw [exec]; rfl

/-- C48: a regular file is handed to `http.ServeContent` under its name and modification time (here without tags),
and closed. -/
theorem C48_content {o : Oracle} {req : Req} {nx : St ω → Out × St ω} {k : Nat} {s : St ω} {fs : FS ω} {http : Http ω}
    {opt : StaticOptions ω} {name : Str} {w1 w2 : ω} {f : Nat} {i : FileInfo} (hp : s.ctx.params b!"*0" = some name)
    (hopen : fs.openFile name s.world = (w1, some f)) (hstat : fs.stat f w1 = (w2, some i)) (hd : i.dir = false)
    (he : opt.etag = 0) :
    exec o req nx k (staticHandler fs http opt) s =
      closing fs f (exec o req nx k (http.serveContent name i.modTime f) (expiring opt { s with world := w2 })) := by
  rw [exec_static_found hp hopen hstat, hd]
  simp only [Bool.false_eq_true, if_false, staticFile, he, ne_eq, not_true]

/-! ### C49 -/

/-- C49 (partial): what a static route does is independent of the files of the operating system, that is of
`http.ServeFile`: it only uses the configured file system - unless it finds a directory and the path ends with
a slash or stands for the root.
Missing: that case, see `C49_refuted`. -/
theorem C49_configured_partial {o : Oracle} {req : Req} {nx : St ω → Out × St ω} {k : Nat} {s : St ω} {fs : FS ω}
    {http http' : Http ω} {opt : StaticOptions ω} (hredir : http.redirect = http'.redirect)
    (hserve : http.serveContent = http'.serveContent)
    (hdir : ∀ name w1 f w2 i, s.ctx.params b!"*0" = some name → fs.openFile name s.world = (w1, some f) →
      fs.stat f w1 = (w2, some i) → i.dir = true → req.path.getLast? ≠ some slash ∧ pathClean req.path ≠ [slash]) :
    exec o req nx k (staticHandler fs http opt) s = exec o req nx k (staticHandler fs http' opt) s := by
  cases hp : s.ctx.params b!"*0" with
  | none =>
    unfold staticHandler
    rw [exec, exec]
    simp only [doCall, kRest, hp]
  | some name =>
    rcases hopen : fs.openFile name s.world with ⟨w1, _ | f⟩
    · unfold staticHandler
      rw [exec, exec]
      simp only [doCall, kRest, hp]
      rw [exec, exec]
      simp only [doCall, hopen, openRes]
    · rcases hstat : fs.stat f w1 with ⟨w2, _ | i⟩
      · rw [exec_static_open hp hopen, exec_static_open hp hopen]
        congr 1
        rw [exec, exec]
        simp only [doCall, hstat, statRes]
      · rw [exec_static_found hp hopen hstat, exec_static_found hp hopen hstat]
        cases hd : i.dir with
        | false => simp only [Bool.false_eq_true, if_false, staticFile, hserve]
        | true =>
          obtain ⟨h1, h2⟩ := hdir name w1 f w2 i hp hopen hstat hd
          have h3 : hasSuffix req.path [slash] = false := by
            rw [Bool.eq_false_iff, Ne, hasSuffix_one]; exact h1
          have h4 : hasSuffix (pathClean req.path) [slash] = false := by
            rw [Bool.eq_false_iff, Ne, hasSuffix_one]
            exact pathClean_last h2
          simp only [if_true, staticDir, h3, Bool.false_eq_true, if_false, h4, Bool.not_false, hredir]

/-! ### C50 -/

/-- C50: a tag of the first kind determines the second of the modification time and the size. -/
theorem C50_tag {t t' s s' : Int} :
    generateETag t s = generateETag t' s' ↔ t / 1000000000 = t' / 1000000000 ∧ s = s' := by
  constructor
  · intro h
    unfold generateETag at h
    simp only [List.append_assoc, List.singleton_append] at h
    obtain ⟨h1, h2⟩ := hexInt_cut h
    exact ⟨h1, hexInt_inj h2⟩
  · rintro ⟨h1, rfl⟩; unfold generateETag unixOf; rw [h1]

/-- C50: the text of a tag: the hexadecimal numerals of the second and the size, and for the second kind the bytes of the
name, between dashes. -/
theorem C50_text (t s : Int) (n : Str) :
    ∃ a b c, SignedDigits smallHex (t / 1000000000) a ∧ SignedDigits smallHex s b ∧ HexBytes n c ∧
      generateETag t s = a ++ b!"-" ++ b ∧ generateETag2 t s n = a ++ b!"-" ++ b ++ b!"-" ++ c :=
  ⟨_, _, _, hexInt_digits _, hexInt_digits s, hexStr_bytes n, rfl, rfl⟩

/-- C50: a tag of the second kind determines the second of the modification time, the size and the name. -/
theorem C50_tag2 {t t' s s' : Int} {n n' : Str} :
    generateETag2 t s n = generateETag2 t' s' n' ↔ t / 1000000000 = t' / 1000000000 ∧ s = s' ∧ n = n' := by
  constructor
  · intro h
    unfold generateETag2 at h
    simp only [List.append_assoc, List.singleton_append] at h
    obtain ⟨h1, h2⟩ := hexInt_cut h
    obtain ⟨h3, h4⟩ := hexInt_cut h2
    exact ⟨h1, h3, hexStr_inj h4⟩
  · rintro ⟨h1, rfl, rfl⟩; unfold generateETag2 unixOf; rw [h1]

theorem staticTag_iff {etag : ETagType} {i j : FileInfo} : staticTag etag i = staticTag etag j ↔ SameVersion etag i j := by
  unfold staticTag SameVersion
  by_cases he : etag = 1
  · simp only [he, if_true, ne_eq, not_true, false_implies, and_true]; exact C50_tag
  · simp only [he, if_false, ne_eq, not_false_eq_true, true_implies]; exact C50_tag2

/-- C50: with tags on, a regular file's answer carries the tag of its version. If the client sends a tag made from some
description `j`, the static handler answers 304 exactly if `j` describes the same version, and otherwise hands the file
to `http.ServeContent`. The same if what the client sends is not a tag at all. -/
theorem C50_not_modified {o : Oracle} {req : Req} {nx : St ω → Out × St ω} {k : Nat} {s : St ω} {fs : FS ω} {http : Http ω}
    {opt : StaticOptions ω} {name : Str} {w1 w2 : ω} {f : Nat} {i : FileInfo} (hp : s.ctx.params b!"*0" = some name)
    (hopen : fs.openFile name s.world = (w1, some f)) (hstat : fs.stat f w1 = (w2, some i)) (hd : i.dir = false)
    (he : opt.etag ≠ 0) (hw : s.ctx.written = false) (h304 : o.bad 304 = false) :
    let t := expiring opt { s with world := w2 }
    let tag := if opt.etag = 1 then generateETag i.modTime i.size else generateETag2 i.modTime i.size i.name
    let t : St ω := { t with rw := { t.rw with header := t.rw.header.put b!"ETag" tag } }
    let sent := req.header.get b!"If-None-Match"
    let full := exec o req nx k (http.serveContent name i.modTime f) t
    (∀ j, sent = staticTag opt.etag j → SameVersion opt.etag j i →
      exec o req nx k (staticHandler fs http opt) s = closing fs f (.ret, answered t 304)) ∧
    (∀ j, sent = staticTag opt.etag j → ¬ SameVersion opt.etag j i →
      exec o req nx k (staticHandler fs http opt) s = closing fs f full) ∧
    ((∀ j, sent ≠ staticTag opt.etag j) → exec o req nx k (staticHandler fs http opt) s = closing fs f full) := by
  intro t0 tag t sent full
  have hw' : t.ctx.written = false := by
    show (expiring opt { s with world := w2 }).ctx.written = false
    unfold expiring
    split <;> exact hw
  have key : exec o req nx k (staticHandler fs http opt) s = closing fs f
      (if sent = staticTag opt.etag i then (.ret, answered t 304) else full) := by
    rw [exec_static_found hp hopen hstat, hd]
    simp only [Bool.false_eq_true, if_false, staticFile, ne_eq, he, not_false_eq_true, if_true]
    congr 1
    rw [Prog.do, exec]
    simp only [doCall]
    rw [exec]
    simp only [doCall, Res.str.injEq]
    by_cases hs : sent = staticTag opt.etag i
    · rw [if_pos hs, if_pos (show req.header.get kIfNoneMatch = _ from hs)]
      rw [Prog.do, exec]
      simp only [doCall]
      rw [writeHeader_answered (by exact hw') h304]
      rfl
    · rw [if_neg hs, if_neg (show ¬ req.header.get kIfNoneMatch = _ from hs)]
      rfl
  rw [key]
  refine ⟨?_, ?_, ?_⟩
  · intro j h1 h2
    rw [if_pos (h1.trans (staticTag_iff.2 h2))]
  · intro j h1 h2
    rw [if_neg (fun h3 => h2 (staticTag_iff.1 (h1.symm.trans h3)))]
  · intro h1
    rw [if_neg (h1 i)]

/-! ### Examples and refutations -/

namespace Demo

/-- a file system with a directory `d` and a file `f.txt`; the world lists what was opened and closed -/
def diskFS : FS (List Str) where
  openFile := fun name w => (w ++ [b!"open " ++ name], if name = b!"d" then some 0 else if name = b!"f.txt" then some 1 else none)
  stat := fun f w => (w, if f = 0 then some ⟨true, 0, 0, b!"d"⟩ else some ⟨false, 1600000000000000000, 3, b!"f.txt"⟩)
  close := fun _ w => w ++ [b!"close"]

/-- net/http, and an operating system file system where every file has the content `os` -/
def diskHttp (os : Str) : Http (List Str) where
  redirect := fun url => .do (.setHeader b!"Location" url) (.do (.rawWriteHeader 302) .ret)
  serveFile := fun _ => .do (.rawWrite os) .ret
  serveContent := fun name _ _ => .do (.rawWrite (b!"content of " ++ name)) .ret

/-- options with prefix `static/` -/
def diskOpt (etag : ETagType) : StaticOptions (List Str) where
  pre := b!"static/"
  indexFile := b!"index.html"
  expires := none
  etag := etag
  fileSystem := some diskFS

/-- a router with the static route -/
def diskOps (os : Str) (etag : ETagType) : List (Op (Prog (List Str))) :=
  .newRouter :: staticOps 0 diskFS (diskHttp os) (diskOpt etag)

/-- serve one request by it: status codes, body, world -/
def diskAsk (os : Str) (etag : ETagType) (req : Req) : Option (List Int × Str × List Str) :=
  match runOps [] (diskOps os etag) with
  | .error _ => none
  | .ok heap =>
    match handler rx heap 0 [] with
    | .error _ => none
    | .ok e =>
      let sv := serve rx chainO e .new req Writer.new none []
      some (sv.rw.log.filterMap (fun x => match x with | .status _ c _ => some c | _ => none),
        sv.rw.log.flatMap (fun x => match x with | .body d => d | _ => []), sv.world)

/-- a request with a tag -/
def tagReq (path tag : Str) : Req := { at' path with header := Map.set Map.empty b!"If-None-Match" [tag] }

/-- the hypotheses of C48, C49 and C50 are met: a file, a missing file, a directory without slash, HEAD; tags -/
example : staticPattern b!"static/" = b!"/static/*" ∧ elems b!"static/" = [b!"static"] ∧
    pathBelow [b!"static"] b!"f.txt" = b!"/static/f.txt" ∧
    diskAsk [] 0 (at' b!"/static/f.txt") = some ([200], b!"content of f.txt", [b!"open f.txt", b!"close"]) ∧
    diskAsk [] 0 { at' b!"/static/f.txt/" with method := mHEAD } =
      some ([200], b!"content of f.txt", [b!"open f.txt", b!"close"]) ∧
    diskAsk [] 0 (at' b!"/static/a/b") = some ([404], [], [b!"open a/b"]) ∧
    diskAsk [] 0 (at' b!"/static/d") = some ([302], [], [b!"open d", b!"close"]) := by decide +kernel

example : generateETag 1600000000000000000 3 = b!"5f5e1000-3" ∧
    generateETag2 (-1) 3 b!"f.txt" = b!"-1-3-662e747874" ∧
    diskAsk [] 1 (tagReq b!"/static/f.txt" b!"5f5e1000-3") = some ([304], [], [b!"open f.txt", b!"close"]) ∧
    diskAsk [] 1 (tagReq b!"/static/f.txt" b!"5f5e1000-4") =
      some ([200], b!"content of f.txt", [b!"open f.txt", b!"close"]) ∧
    diskAsk [] 2 (tagReq b!"/static/f.txt" b!"5f5e1000-3-662e747874") =
      some ([304], [], [b!"open f.txt", b!"close"]) := by decide +kernel

theorem diskOrdinary : ∀ s ∈ elems (diskOpt 0).pre, Ordinary s := by
  intro s hs
  have : s = b!"static" := by simpa [show elems (diskOpt 0).pre = [b!"static"] by decide] using hs
  subst this
  exact ⟨by decide, by decide, by decide, by decide⟩

end Demo

open Demo in
/-- C48 as stated fails: the path `/static/` is below the prefix `/static`, with an empty rest, and it is not served. -/
theorem C48_refuted : ¬ ∀ (rx : Regex) (opt : StaticOptions (List Str)) (fs : FS (List Str)) (http : Http (List Str))
    (heap : Heap (Prog (List Str))) (e : Engine (Prog (List Str))) (name : Str),
    (∀ s ∈ elems opt.pre, Ordinary s) → runOps [] (.newRouter :: staticOps 0 fs http opt) = .ok heap →
    handler rx heap 0 [] = .ok e → (routeOf rx e b!"GET" (pathBelow (elems opt.pre) name)).isSome := by
  intro hall
  have hw : (match runOps [] (diskOps [] 0) with
    | .error _ => false
    | .ok heap => match handler Demo.rx heap 0 [] with
      | .error _ => false
      | .ok e => !(routeOf Demo.rx e b!"GET" (pathBelow (elems (diskOpt 0).pre) [])).isSome) = true := by decide +kernel
  cases h1 : runOps [] (diskOps [] 0) with
  | error _ => rw [h1] at hw; cases hw
  | ok heap =>
    rw [h1] at hw
    simp only [] at hw
    cases h2 : handler Demo.rx heap 0 [] with
    | error _ => rw [h2] at hw; cases hw
    | ok e =>
      rw [h2] at hw
      simp only [hall Demo.rx (diskOpt 0) diskFS (diskHttp []) heap e [] diskOrdinary h1 h2] at hw
      cases hw

open Demo in
/-- C49 fails: for a directory of the configured file system the index is read from the operating system, so that the
answers differ if only the files of the operating system differ. -/
theorem C49_refuted : ∃ os os' : Str,
    (diskHttp os).redirect = (diskHttp os').redirect ∧ (diskHttp os).serveContent = (diskHttp os').serveContent ∧
    diskAsk os 0 (at' b!"/static/d/") = some ([200], os, [b!"open d", b!"close"]) ∧
    diskAsk os' 0 (at' b!"/static/d/") = some ([200], os', [b!"open d", b!"close"]) ∧ os ≠ os' :=
  ⟨b!"public", b!"secret", rfl, rfl, by decide +kernel, by decide +kernel, by decide⟩

end Water
