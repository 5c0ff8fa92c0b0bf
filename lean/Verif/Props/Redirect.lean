import Verif.Lemmas.Redirect
import Verif.Props.Chain
import Verif.Spec.Response
/- C85: redirects lead where they say. -/
namespace Water
open Spec
variable {ω : Type}

theorem clean_root_iff {p : Str} (h : p.head? = some slash) : pathClean p = [slash] ↔ walk [] p = [] := by
  obtain ⟨k, rs, hrs, h1, -⟩ := clean_walk p
  obtain ⟨-, h2, h3⟩ := h1 h
  rw [h2, h3]
  constructor
  · intro hh
    cases rs with
    | nil => rfl
    | cons x r =>
      have := length_join (x :: r) (by simp)
      rw [List.cons.injEq] at hh
      rw [hh.2] at this
      have h3 : weight (x :: r) = x.length + 1 + weight r := by simp [weight]
      have := List.length_pos_iff.2 (hrs x (by simp)).some
      simp at *
      omega
  · rintro rfl; rfl

theorem takeWhile_none {s : Str} (h : quest ∉ s) : s.takeWhile (· != quest) = s ∧ s.dropWhile (· != quest) = [] := by
  have : ∀ c ∈ s, (c != quest) = true := fun c hc => by
    simp only [bne_iff_ne, ne_eq]; rintro rfl; exact h hc
  exact ⟨takeWhile_full this, dropWhile_full this⟩

theorem takeWhile_pre {a u : Str} (h : quest ∉ a) :
    (a ++ u).takeWhile (· != quest) = a ++ u.takeWhile (· != quest) ∧ (a ++ u).dropWhile (· != quest) = u.dropWhile (· != quest) := by
  induction a with
  | nil => exact ⟨rfl, rfl⟩
  | cons c a ih =>
    have hc : (c != quest) = true := by simp only [bne_iff_ne, ne_eq]; rintro rfl; exact h (by simp)
    obtain ⟨h1, h2⟩ := ih (fun hh => h (by simp [hh]))
    rw [List.cons_append, List.takeWhile_cons_of_pos (p := (· != quest)) hc, List.dropWhile_cons_of_pos (p := (· != quest)) hc, h1, h2]
    exact ⟨rfl, rfl⟩

theorem mem_splitDir {c : UInt8} {p : Str} (h : c ∈ splitDir p) : c ∈ p := by
  unfold splitDir at h
  rw [List.mem_reverse] at h
  simpa using (List.dropWhile_sublist _).subset h

theorem head_takeWhile {s : Str} (h : s.head? = some slash) : (s.takeWhile (· != quest)).head? = some slash := by
  cases s with
  | nil => simp at h
  | cons c r =>
    have : c = slash := by simpa using h
    subst this
    rw [List.takeWhile_cons_of_pos (by decide)]
    rfl

theorem rooted_old {path : Str} (hp : path = [] ∨ path.head? = some slash) :
    (if path = [] then [slash] else path).head? = some slash ∧ dirOf (if path = [] then [slash] else path) = dirOf path := by
  rcases hp with rfl | hp
  · exact ⟨rfl, rfl⟩
  · rw [if_neg (by rintro rfl; simp at hp)]
    exact ⟨hp, rfl⟩

theorem onHost_query {t q : Str} (h : OnHost t) (hq : q.head? = some quest ∨ q = []) : OnHost (t ++ q) := by
  obtain ⟨h1, h2⟩ := h
  cases t with
  | nil => simp at h1
  | cons c t =>
    refine ⟨h1, ?_⟩
    cases t with
    | nil =>
      show q.head? ≠ _
      rcases hq with hq | rfl
      · rw [hq]; decide
      · simp
    | cons d t => exact h2

theorem dropWhile_head (s : Str) : (s.dropWhile (· != quest)).head? = some quest ∨ s.dropWhile (· != quest) = [] := by
  cases hd : s.dropWhile (· != quest) with
  | nil => exact .inr rfl
  | cons x t =>
    have := List.head?_dropWhile_not (p := (· != quest)) (l := s)
    rw [hd] at this
    exact .inl (by simpa using this)

/-- **C85 (on the host).** A redirect to an address without scheme and host stays on the host, whatever the address and the path
of the request: the location starts with one slash. -/
theorem C85_onhost (env : RedirEnv) {path url : Str} (hl : env.isLocal url = true) (hp : path = [] ∨ path.head? = some slash) :
    OnHost (hexEscapeNonASCII (redirectTarget env path url)) := by
  apply onHost_hexEscape
  unfold redirectTarget
  rw [if_pos hl]
  simp only []
  obtain ⟨ho, -⟩ := rooted_old hp
  have hroot : (if url.head? ≠ some slash then splitDir (if path = [] then [slash] else path) ++ url else url).head? = some slash := by
    split
    · rename_i hu; exact (walk_splitDir ho hu).2
    · rename_i hu; exact Classical.not_not.1 hu
  exact onHost_query (cleanKeep_root (head_takeWhile hroot)) (dropWhile_head _)

/-- **C85 (target).** The location of such a redirect is a path and the query of the address, unchanged. The path leads from the
root to where the path of the address leads from the directory of the request, and ends with a slash if that did (or is the root).
The path of the request must not contain `?`, unless the address starts with a slash. -/
theorem C85_target (env : RedirEnv) {path url : Str} (hl : env.isLocal url = true) (hp : path = [] ∨ path.head? = some slash)
    (hq : url.head? = some slash ∨ quest ∉ path) :
    ∃ t, redirectTarget env path url = t ++ url.dropWhile (· != quest) ∧ quest ∉ t ∧
      walk [] t = walk (dirOf path) (url.takeWhile (· != quest)) ∧
      (t.getLast? = some slash ↔ url.takeWhile (· != quest) = [] ∨ (url.takeWhile (· != quest)).getLast? = some slash ∨ walk [] t = []) := by
  have hnq : ∀ {p : Str}, quest ∉ cleanKeep (p.takeWhile (· != quest)) := by
    intro p hh
    rcases cleanKeep_mem hh with hh | hh | hh
    · exact absurd hh (by decide)
    · exact absurd hh (by decide)
    · have := List.all_takeWhile (p := (· != quest)) (l := p)
      rw [List.all_eq_true] at this
      simpa using this _ hh
  unfold redirectTarget
  rw [if_pos hl]
  simp only []
  by_cases hu : url.head? = some slash
  · rw [if_neg (by simpa using hu)]
    have hr := head_takeWhile hu
    refine ⟨cleanKeep (url.takeWhile (· != quest)), rfl, hnq, ?_, ?_⟩
    · rw [cleanKeep_walk]
      unfold walk
      rw [if_pos hr, if_pos hr]
    · rw [cleanKeep_last, clean_root_iff hr, cleanKeep_walk]
      constructor
      · rintro (h | h)
        · exact .inr (.inl h)
        · exact .inr (.inr h)
      · rintro (h | h | h)
        · rw [h] at hr; simp at hr
        · exact .inl h
        · exact .inr h
  · rw [if_pos hu]
    have hq : quest ∉ path := hq.resolve_left hu
    obtain ⟨ho, hd⟩ := rooted_old hp
    have hqo : quest ∉ splitDir (if path = [] then [slash] else path) := by
      intro hh
      have := mem_splitDir hh
      split at this
      · exact absurd (List.mem_singleton.1 this) (by decide)
      · exact hq this
    obtain ⟨e1, e2⟩ := takeWhile_pre (u := url) hqo
    have hu' : (url.takeWhile (· != quest)).head? ≠ some slash := by
      intro hh
      cases url with
      | nil => simp at hh
      | cons c r =>
        by_cases hc : (c != quest) = true
        · rw [List.takeWhile_cons_of_pos (p := (· != quest)) hc] at hh
          exact hu (by simpa using hh)
        · rw [List.takeWhile_cons_of_neg (p := (· != quest)) hc] at hh; simp at hh
    obtain ⟨w1, w2⟩ := walk_splitDir ho hu'
    refine ⟨cleanKeep ((splitDir (if path = [] then [slash] else path) ++ url).takeWhile (· != quest)), by rw [e2], hnq, ?_, ?_⟩
    · rw [cleanKeep_walk, e1, w1, hd]
    · rw [cleanKeep_last, cleanKeep_walk, e1, clean_root_iff w2]
      obtain ⟨a, l, -, -, hs⟩ := splitDir_eq ho
      rw [hs]
      constructor
      · rintro (h | h)
        · by_cases h0 : url.takeWhile (· != quest) = []
          · exact .inl h0
          · refine .inr (.inl ?_)
            rw [List.getLast?_append] at h
            cases hlast : (url.takeWhile (· != quest)).getLast? with
            | none => rw [List.getLast?_eq_none_iff] at hlast; exact absurd hlast h0
            | some z => rw [hlast] at h; simpa using h
        · exact .inr (.inr h)
      · rintro (h | h | h)
        · rw [h]; simp
        · refine .inl ?_
          rw [List.getLast?_append, h]; rfl
        · exact .inr h

/-- the header map `http.Redirect` leaves -/
def redirHeader (h : Header) (m loc : Str) : Header :=
  if !(h kContentType).isSome ∧ (m = mGET ∨ m = mHEAD) then (h.put kLocation loc).put kContentType mimeHTML else h.put kLocation loc

theorem redirHeader_spec (h : Header) (m loc : Str) :
    (redirHeader h m loc) kLocation = some [loc] ∧
    (redirHeader h m loc) kContentType = (if h kContentType = none ∧ (m = mGET ∨ m = mHEAD) then some [mimeHTML] else h kContentType) ∧
    ∀ k, k ≠ kLocation → k ≠ kContentType → (redirHeader h m loc) k = h k := by
  have c1 : canonKey kLocation = kLocation := by decide
  have c2 : canonKey kContentType = kContentType := by decide
  have c3 : kLocation ≠ kContentType := by decide
  have hn : (!(h kContentType).isSome) = true ↔ h kContentType = none := by cases h kContentType <;> simp
  unfold redirHeader Header.put
  rw [c1, c2]
  by_cases hc : h kContentType = none ∧ (m = mGET ∨ m = mHEAD)
  · rw [if_pos ⟨hn.2 hc.1, hc.2⟩, if_pos hc]
    refine ⟨?_, ?_, ?_⟩
    · simp [Map.set, c3]
    · simp [Map.set]
    · intro k h1 h2; simp [Map.set, h1, h2]
  · rw [if_neg (fun hh => hc ⟨hn.1 hh.1, hh.2⟩), if_neg hc]
    refine ⟨?_, ?_, ?_⟩
    · simp [Map.set]
    · simp [Map.set, Ne.symm c3]
    · intro k h1 h2; simp [Map.set, h1]

/-- what `http.Redirect` does, step by step -/
theorem exec_redirect (o : Oracle) (req : Req) (nx : St ω → Out × St ω) (i : Nat) (env : RedirEnv) (raw : Bool) (url : Str)
    (code : Int) (s : St ω) :
    exec o req nx i (httpRedirect env raw url code) s =
      exec o req nx i
        (.do (if raw then .rawWriteHeader code else .writeHeader code)
          (if s.rw.header kContentType = none ∧ req.method = mGET then
            .do (if raw then .rawWrite (redirectBody env (redirectTarget env req.path url) code)
              else .write (redirectBody env (redirectTarget env req.path url) code)) .ret
          else .ret))
        { s with rw := { s.rw with header := redirHeader s.rw.header req.method (hexEscapeNonASCII (redirectTarget env req.path url)) } } := by
  have hn : (Res.bool (s.rw.header kContentType).isSome = .bool false) ↔ s.rw.header kContentType = none := by
    cases s.rw.header kContentType <;> simp
  have hb : (if Res.bool (s.rw.header kContentType).isSome = .bool false ∧ req.method = mGET then
      (.do (if raw then .rawWrite (redirectBody env (redirectTarget env req.path url) code)
              else .write (redirectBody env (redirectTarget env req.path url) code)) .ret : Prog ω)
          else .ret) = (if s.rw.header kContentType = none ∧ req.method = mGET then
            .do (if raw then .rawWrite (redirectBody env (redirectTarget env req.path url) code)
              else .write (redirectBody env (redirectTarget env req.path url) code)) .ret
          else .ret) := by
    by_cases hc : s.rw.header kContentType = none ∧ req.method = mGET
    · rw [if_pos hc, if_pos ⟨hn.2 hc.1, hc.2⟩]
    · rw [if_neg hc, if_neg (fun hh => hc ⟨hn.1 hh.1, hh.2⟩)]
  rw [← hb]
  rfl

/-- **C85 (sent).** A redirect sent while nothing has been sent yet — by `Found` and `MovedPermanently` through the context, by the
static handler past it — is one status line with the code and the location, and for a GET request without content type a body with
the link. Other headers are left alone. Through the context, the response counts as written with this status; past it, it does not. -/
theorem C85_sent (o : Oracle) (req : Req) (nx : St ω → Out × St ω) (i : Nat) (env : RedirEnv) (raw : Bool) (url : Str) (code : Int)
    (s : St ω) (hlog : s.rw.log = []) (hw : raw = false → s.ctx.written = false) (hbad : o.bad code = false) :
    ∃ s' h, exec o req nx i (httpRedirect env raw url code) s = (.ret, s') ∧
      s'.rw.log = .status true code h ::
        (if s.rw.header kContentType = none ∧ req.method = mGET then
          [.body (redirectBody env (redirectTarget env req.path url) code)] else []) ∧
      h b!"Location" = some [hexEscapeNonASCII (redirectTarget env req.path url)] ∧
      h kContentType = (if s.rw.header kContentType = none ∧ (req.method = mGET ∨ req.method = mHEAD) then
          some [b!"text/html; charset=utf-8"]
        else s.rw.header kContentType) ∧
      (∀ k, k ≠ b!"Location" → k ≠ kContentType → h k = s.rw.header k) ∧
      (if raw then s'.ctx = s.ctx else s'.ctx.written = true ∧ s'.ctx.status = code) := by
  obtain ⟨r1, r2, r3⟩ := redirHeader_spec s.rw.header req.method (hexEscapeNonASCII (redirectTarget env req.path url))
  rw [exec_redirect]
  generalize redirHeader s.rw.header req.method (hexEscapeNonASCII (redirectTarget env req.path url)) = h at r1 r2 r3 ⊢
  generalize redirectBody env (redirectTarget env req.path url) code = b
  cases raw with
  | true =>
    by_cases hb : s.rw.header kContentType = none ∧ req.method = mGET
    · refine ⟨{ s with rw := ⟨h, [.status true code h, .body b]⟩ }, h, ?_, ?_, r1, r2, r3, rfl⟩
      · rw [if_pos hb]
        simp [Prog.do, exec, doCall, Writer.writeHeader, Writer.write, hlog, hbad]
      · rw [if_pos hb]
    · refine ⟨{ s with rw := ⟨h, [.status true code h]⟩ }, h, ?_, ?_, r1, r2, r3, rfl⟩
      · rw [if_neg hb]
        simp [Prog.do, exec, doCall, Writer.writeHeader, hlog, hbad]
      · rw [if_neg hb]
  | false =>
    have hw := hw rfl
    by_cases hb : s.rw.header kContentType = none ∧ req.method = mGET
    · refine ⟨{ s with rw := ⟨h, [.status true code h, .body b]⟩, ctx := { s.ctx with written := true, status := code } }, h, ?_, ?_, r1, r2, r3, ⟨rfl, rfl⟩⟩
      · rw [if_pos hb]
        simp [Prog.do, exec, doCall, St.writeHeader, St.write, Writer.writeHeader, Writer.write, hlog, hbad, hw]
      · rw [if_pos hb]
    · refine ⟨{ s with rw := ⟨h, [.status true code h]⟩, ctx := { s.ctx with written := true, status := code } }, h, ?_, ?_, r1, r2, r3, ⟨rfl, rfl⟩⟩
      · rw [if_neg hb]
        simp [Prog.do, exec, doCall, St.writeHeader, Writer.writeHeader, hlog, hbad, hw]
      · rw [if_neg hb]

/-- **C85 (late, partial).** A redirect after the response was written changes neither the status nor what was sent; the full claim
is that it adds nothing either. That holds unless the request is a GET and no content type was set: then the link is appended to
the body of the other response (`C85_refuted`). -/
theorem C85_late_partial (o : Oracle) (req : Req) (nx : St ω → Out × St ω) (i : Nat) (env : RedirEnv) (url : Str) (code : Int)
    (s : St ω) (hw : s.ctx.written = true) (hlog : s.rw.log ≠ []) :
    ∃ s', exec o req nx i (httpRedirect env false url code) s = (.ret, s') ∧ s'.ctx = s.ctx ∧
      s'.rw.log = s.rw.log ++ (if s.rw.header kContentType = none ∧ req.method = mGET then
        [.body (redirectBody env (redirectTarget env req.path url) code)] else []) := by
  rw [exec_redirect]
  generalize redirHeader s.rw.header req.method (hexEscapeNonASCII (redirectTarget env req.path url)) = h
  generalize redirectBody env (redirectTarget env req.path url) code = b
  by_cases hb : s.rw.header kContentType = none ∧ req.method = mGET
  · refine ⟨{ s with rw := ⟨h, s.rw.log ++ [.body b]⟩ }, ?_, rfl, ?_⟩
    · rw [if_pos hb]
      simp [Prog.do, exec, doCall, St.writeHeader, St.write, Writer.write, hlog, hw]
    · rw [if_pos hb]
  · refine ⟨{ s with rw := ⟨h, s.rw.log⟩ }, ?_, rfl, ?_⟩
    · rw [if_neg hb]
      simp [Prog.do, exec, doCall, St.writeHeader, hw]
    · rw [if_neg hb]; simp

/-- **C85 (link).** The text of the link has no quotes and no angle brackets, and a browser reads the location in it. -/
theorem C85_link (url : Str) : htmlRead (htmlEscape url) = url ∧
    ∀ c ∈ htmlEscape url, c ≠ 34 ∧ c ≠ 39 ∧ c ≠ 60 ∧ c ≠ 62 := by
  refine ⟨htmlRead_escape url, ?_⟩
  intro c hc
  unfold htmlEscape at hc
  rw [List.mem_flatMap] at hc
  obtain ⟨x, -, hx⟩ := hc
  obtain ⟨h1, h2, h3, h4⟩ := htmlByte_clean x c hx
  exact ⟨h1, h4, h2, h3⟩

/-- the redirect of a directory: the location before escaping -/
theorem static_target (env : RedirEnv) {path : Str} (hp : path.head? = some slash) :
    OnHost (redirectTarget env path (pathClean path ++ [slash])) ∨ pathClean path = [slash] := by
  by_cases h0 : pathClean path = [slash]
  · exact .inr h0
  · left
    have hr := clean_root path hp
    have hne := pathClean_ne_nil path
    have hon : OnHost (pathClean path ++ [slash]) := by
      cases hc : pathClean path with
      | nil => exact absurd hc hne
      | cons c r =>
        rw [hc] at hr h0
        have : c = slash := by simpa using hr.1
        subst this
        cases r with
        | nil => exact absurd rfl h0
        | cons d r => exact ⟨rfl, hr.2⟩
    by_cases hl : env.isLocal (pathClean path ++ [slash]) = true
    · unfold redirectTarget
      rw [if_pos hl]
      simp only []
      rw [if_neg (by simpa using hon.1)]
      exact onHost_query (cleanKeep_root (head_takeWhile hon.1)) (dropWhile_head _)
    · unfold redirectTarget
      rw [if_neg hl]
      exact hon

theorem static_target_eq (env : RedirEnv) {path : Str} (hp : path.head? = some slash) (hq : quest ∉ path)
    (h0 : pathClean path ≠ [slash]) : redirectTarget env path (pathClean path ++ [slash]) = pathClean path ++ [slash] := by
  have hr := clean_root path hp
  unfold redirectTarget
  split
  · simp only []
    have hh : (pathClean path ++ [slash]).head? = some slash := by
      cases hc : pathClean path with
      | nil => exact absurd hc (pathClean_ne_nil path)
      | cons c r => rw [hc] at hr; simpa using hr.1
    rw [if_neg (by simpa using hh)]
    have hq' : quest ∉ pathClean path ++ [slash] := by
      intro hm
      rcases List.mem_append.1 hm with hm | hm
      · rcases mem_clean hm with hm | hm | hm
        · exact absurd hm (by decide)
        · exact absurd hm (by decide)
        · exact hq hm
      · exact absurd (List.mem_singleton.1 hm) (by decide)
    obtain ⟨e1, e2⟩ := takeWhile_none hq'
    rw [e1, e2, List.append_nil]
    have hg : goClean (pathClean path ++ [slash]) = pathClean path := by
      have : SamePlace (pathClean path ++ [slash]) path := fun cwd _ => by
        rw [walk_snoc_slash cwd (pathClean_ne_nil path), walk_clean]
      rw [(C84_canonical _ _).2 this, goClean_eq]
    unfold cleanKeep
    rw [hg, if_pos]
    refine ⟨hasSuffix_one.2 (by simp), fun hs => pathClean_last h0 (hasSuffix_one.1 hs)⟩
  · rfl

/-- **C85 (directory).** The static handler on a directory without trailing slash, on an untouched response: one status line 302
with a location on the same host, whatever the path. If the path has none of `?`, `#`, `%`, then a client that follows the location
asks for the same place with a trailing slash, and on that path the handler does not redirect again. -/
theorem C85_directory_partial (o : Oracle) (req : Req) (nx : St ω → Out × St ω) (i : Nat) (env : RedirEnv) (http : Http ω)
    (opt : StaticOptions ω) (name : Str) (s : St ω) (hp : req.path.head? = some slash) (hlast : req.path.getLast? ≠ some slash)
    (h0 : pathClean req.path ≠ [slash]) (hlog : s.rw.log = []) (hbad : o.bad 302 = false) :
    ∃ s' h loc body, exec o req nx i (staticDir (withRedirect env http) opt name req.path) s = (.ret, s') ∧
      s'.rw.log = .status true 302 h :: body ∧ h b!"Location" = some [loc] ∧ OnHost loc ∧
      ((∀ c ∈ req.path, c ≠ 63 ∧ c ≠ 35 ∧ c ≠ 37) →
        SamePlace (locPath loc) req.path ∧ (locPath loc).getLast? = some slash ∧
        staticDir (withRedirect env http) opt name (locPath loc) = http.serveFile (pathJoin name opt.indexFile)) := by
  have hsl : hasSuffix req.path [slash] = false := by
    cases h : hasSuffix req.path [slash] with
    | false => rfl
    | true => exact absurd (hasSuffix_one.1 h) hlast
  have hsc : hasSuffix (pathClean req.path) [slash] = false := by
    cases h : hasSuffix (pathClean req.path) [slash] with
    | false => rfl
    | true => exact absurd (hasSuffix_one.1 h) (pathClean_last h0)
  have hdir : staticDir (withRedirect env http) opt name req.path = httpRedirect env true (pathClean req.path ++ [slash]) 302 := by
    unfold staticDir
    simp [hsl, hsc, withRedirect]
  rw [hdir]
  obtain ⟨s', h, a1, a2, a3, -, -, -⟩ := C85_sent o req nx i env true (pathClean req.path ++ [slash]) 302 s hlog (by simp) hbad
  refine ⟨s', h, _, _, a1, a2, a3, ?_, ?_⟩
  · exact onHost_hexEscape ((static_target env hp).resolve_right h0)
  · intro hc
    rw [static_target_eq env hp (fun hm => (hc _ hm).1 rfl) h0]
    have hm : ∀ c ∈ pathClean req.path ++ [slash], c ≠ 63 ∧ c ≠ 35 ∧ c ≠ 37 := by
      intro c hm
      rcases List.mem_append.1 hm with hm | hm
      · rcases mem_clean hm with rfl | rfl | hm
        · decide
        · decide
        · exact hc c hm
      · rw [List.mem_singleton.1 hm]; decide
    rw [locPath_hexEscape (fun hh => (hm _ hh).2.2 rfl) (fun hh => (hm _ hh).1 rfl) (fun hh => (hm _ hh).2.1 rfl)]
    refine ⟨fun cwd _ => by rw [walk_snoc_slash cwd (pathClean_ne_nil _), walk_clean], by simp, ?_⟩
    have h1 : hasSuffix (pathClean req.path ++ [slash]) [slash] = true := hasSuffix_one.2 (by simp)
    unfold staticDir
    have h2 : hasSuffix (pathClean (pathClean req.path ++ [slash]) ++ [slash]) [slash] = true := hasSuffix_one.2 (by simp)
    simp only [h1, if_true, h2]
    rfl

namespace Demo

/-- a `url.Parse` that is right on the examples -/
def redirEnv : RedirEnv where
  isLocal := fun u => !hasPrefix u b!"//" && !u.contains 58
  statusText := fun c => if c = 301 then b!"Moved Permanently" else b!"Found"

/-- a request for a path -/
def pathReq (p : Str) : Req := { chainReq with path := p }

/-- what is sent when one handler runs -/
def sentBy (h : Prog Unit) (p : Str) : List WEvent := (runAll chainO (pathReq p) (chainSt [h])).2.rw.log

/-- the location a client receives -/
def locationOf (l : List WEvent) : Option (List Str) := (receivedHeader l).bind (· kLocation)

/-- static files whose directory branch is looked at -/
def dirHttp : Http Unit := { redirect := fun _ => .ret, serveFile := fun _ => .ret, serveContent := fun _ _ _ => .ret }

/-- options without index file -/
def dirOpt : StaticOptions Unit := { pre := b!"/s", indexFile := [], expires := none, etag := 0, fileSystem := none }

theorem C85_demo :
    locationOf (sentBy (found redirEnv b!"../b/?x=1/..") b!"/a/c/d") = some [b!"/a/b/?x=1/.."] ∧
    received (sentBy (found redirEnv b!"../b") b!"/a/c/d") = some 302 ∧
    received (sentBy (movedPermanently redirEnv b!"/b") b!"/") = some 301 ∧
    receivedBody (sentBy (found redirEnv b!"/b?\"<") b!"/") = b!"<a href=\"/b?&#34;&lt;\">Found</a>.\n\n" ∧
    locationOf (sentBy (found redirEnv b!"https://x/") b!"/") = some [b!"https://x/"] ∧
    locationOf (sentBy (staticDir (withRedirect redirEnv dirHttp) dirOpt b!"a" b!"/s//a") b!"/s//a") = some [b!"/s/a/"] ∧
    redirEnv.isLocal b!"../b/?x=1/.." = true ∧ dirOf b!"/a/c/d" = [b!"a", b!"c"] := by
  decide +kernel

end Demo
open Demo

/-- **C85 refuted.** (1) After `WriteHeader(404)`, `Found` appends its link to the body of the 404. (2) For the directory `a?b`, and
for the directory `a%41`, the client is sent to another path. -/
theorem C85_refuted :
    (received (sentBy (.do (.writeHeader 404) (found redirEnv b!"/login")) b!"/") = some 404 ∧
      receivedBody (sentBy (.do (.writeHeader 404) (found redirEnv b!"/login")) b!"/") = b!"<a href=\"/login\">Found</a>.\n\n") ∧
    (locationOf (sentBy (staticDir (withRedirect redirEnv dirHttp) dirOpt b!"a?b" b!"/s/a?b") b!"/s/a?b") = some [b!"/s/a?b/"] ∧
      ¬ SamePlace (locPath b!"/s/a?b/") b!"/s/a?b") ∧
    (locationOf (sentBy (staticDir (withRedirect redirEnv dirHttp) dirOpt b!"a%41" b!"/s/a%41") b!"/s/a%41") = some [b!"/s/a%41/"] ∧
      ¬ SamePlace (locPath b!"/s/a%41/") b!"/s/a%41") := by
  refine ⟨by decide +kernel, ⟨by decide +kernel, ?_⟩, ⟨by decide +kernel, ?_⟩⟩
  · intro h
    exact absurd ((C84_canonical _ _).2 h) (by decide +kernel)
  · intro h
    exact absurd ((C84_canonical _ _).2 h) (by decide +kernel)

end Water
