import Verif.Lemmas.Wire
import Verif.Lemmas.Chain
import Verif.Lemmas.Cookie
import Verif.Props.Chain
import Verif.Props.Serve
import Verif.Model.Status
import Verif.Model.Download
import Verif.Model.Redirect
import Verif.Model.ServeFile
/-
C154: an answer is read as one answer, whatever texts were put into its header.
-/
namespace Water
open Spec
variable {ω : Type}

/-- the names that net/http adds are names -/
theorem added_token {k : Str} (h : k ∈ addedFields) : Token k := by
  have : ∀ k ∈ addedFields, k ≠ [] ∧ ∀ c ∈ k, c ∈ tokenBytes := by decide +kernel
  exact this k h

theorem lines_named {h : Header} (hh : Named h) {lines : List (Str × Str)} (hl : LinesOf h lines) : ∀ l ∈ lines, Token l.1 := by
  intro l hm
  rcases hl l hm with ⟨vs, h1, _⟩ | h1
  · exact hh l.1 (by rw [h1]; exact fun h => nomatch h)
  · exact added_token h1

theorem head_read {h : Header} (hh : Named h) {lines : List (Str × Str)} (hl : LinesOf h lines) {digits reason : Str}
    (hd : 10 ∉ digits ∧ 32 ∉ digits) (hr : 10 ∉ reason) (rest : Str) (c : Str) (fs : List (Str × Str)) (r : Str) :
    ReadsAnswer (writeHead digits reason lines ++ rest) c fs r ↔
      c = digits ∧ fs = lines.map (fun l => (l.1, fieldText l.2)) ∧ r = rest := by
  have ht := lines_named hh hl
  constructor
  · rintro ⟨reason', e, t, h1, he, h2, h3, h4, h5⟩
    obtain ⟨q, rfl, hq⟩ := lineEnd_cases he
    have e : (b!"HTTP/1.1 " ++ digits ++ b!" " ++ reason ++ [13]) ++ 10 :: (lines.flatMap writeField ++ b!"\r\n" ++ rest) =
        (b!"HTTP/1.1 " ++ c ++ b!" " ++ reason' ++ q) ++ 10 :: t := by
      unfold writeHead at h2
      simpa [List.append_assoc] using h2
    have hq10 : (10 : UInt8) ∉ q := by rcases hq with rfl | rfl <;> decide
    obtain ⟨e1, e2⟩ := cut_once (by simp [hd.1, hr]) (by simp [h1, h3, hq10]) e
    have e3 : digits ++ 32 :: (reason ++ [13]) = c ++ 32 :: (reason' ++ q) := by simpa [List.append_assoc] using e1
    obtain ⟨e4, _⟩ := cut_once hd.2 h4 e3
    obtain ⟨e5, e6⟩ := headLines_unique ht rest h5 e2.symm
    exact ⟨e4.symm, e5, e6⟩
  · rintro ⟨rfl, rfl, rfl⟩
    exact ⟨reason, b!"\r\n", _, hr, .inl rfl, by simp [writeHead, List.append_assoc], hd.1, hd.2, headLines_read ht r⟩

theorem named_new : Named Writer.new.header ∧ ∀ b c x, WEvent.status b c x ∈ Writer.new.log → Named x :=
  ⟨fun _ hk => absurd rfl hk, fun _ _ _ h => nomatch h⟩

theorem named_run (o : Oracle) (req : Req) (s : St ω) (hs : s.rw = Writer.new) (hh : ∀ p ∈ s.ctx.handlers, CallsIn NamesWell p) :
    NamedSt (runAll o req s).2 := by
  refine runAll_inv o req NamedSt NamesWell (fun _ _ h => h) (fun _ h => h) named_call s hh ?_
  unfold NamedSt
  rw [hs]
  exact named_new

/-- Handlers put any texts into values of header fields: however net/http orders the lines, a client reads from the head of the answer exactly
the fields that the handlers set, with their values (line breaks made blanks, ends stripped), and what follows the head is what was sent
behind it. -/
theorem C154 (o : Oracle) (req : Req) (s : St ω) (hs : s.rw = Writer.new) (hh : ∀ p ∈ s.ctx.handlers, CallsIn NamesWell p)
    {b : Bool} {code : Int} {h : Header} (hsent : .status b code h ∈ (runAll o req s).2.rw.log)
    {lines : List (Str × Str)} (hl : LinesOf h lines) {digits reason : Str} (hd : 10 ∉ digits ∧ 32 ∉ digits) (hr : 10 ∉ reason) (rest : Str)
    (c : Str) (fs : List (Str × Str)) (r : Str) :
    ReadsAnswer (writeHead digits reason lines ++ rest) c fs r ↔
      c = digits ∧ fs = lines.map (fun l => (l.1, fieldText l.2)) ∧ r = rest :=
  head_read ((named_run o req s hs hh).2 b code h hsent) hl hd hr rest c fs r

/-- C154 for applications: they are made with `Before`, `Use`, `Handle` and the options from any handlers that use names of fields for names,
and a request of any kind comes, in a context of any earlier request. -/
theorem C154_app {rx : Regex} {ops : List (Op (Prog ω))} {heap : Heap (Prog ω)} (hops : runOps [] ops = .ok heap) {r : Nat}
    {opts : List (Opt (Prog ω))} {e : Engine (Prog ω)} (he : handler rx heap r opts = .ok e)
    (hgiven : ∀ v p, HandedTo ops opts v → payload v = some p → CallsIn NamesWell p)
    (o : Oracle) (ctx : Ctx ω) (req : Req) (body : Option Str) (w : ω)
    {b : Bool} {code : Int} {h : Header} (hsent : .status b code h ∈ (serve rx o e ctx req Writer.new body w).rw.log)
    {lines : List (Str × Str)} (hl : LinesOf h lines) {digits reason : Str} (hd : 10 ∉ digits ∧ 32 ∉ digits) (hr : 10 ∉ reason) (rest : Str)
    (c : Str) (fs : List (Str × Str)) (t : Str) :
    ReadsAnswer (writeHead digits reason lines ++ rest) c fs t ↔
      c = digits ∧ fs = lines.map (fun l => (l.1, fieldText l.2)) ∧ t = rest := by
  refine head_read ?_ hl hd hr rest c fs t
  have hfrom : ∀ (ps : List (Prog ω)) (vs : List (HVal (Prog ω))), ps.map some = vs.map payload → (∀ v ∈ vs, HandedTo ops opts v) →
      ∀ p ∈ ps, CallsIn NamesWell p := by
    intro ps vs h1 h2 p hp
    have : some p ∈ vs.map payload := h1 ▸ List.mem_map.2 ⟨p, hp, rfl⟩
    obtain ⟨v, hv, e⟩ := List.mem_map.1 this
    exact hgiven v p (h2 v hv) e
  by_cases hg : Gated req
  · have hg' := (gate_iff req).2 hg
    simp only [serve] at hsent
    rw [if_pos hg'] at hsent
    exact (named_writeHeader (bad := o.bad) 406 named_new).2 b code h hsent
  · have hg' := mt (gate_iff req).1 hg
    cases hi : methodIndex req.method with
    | none =>
      simp only [serve, hi] at hsent
      rw [if_neg hg'] at hsent
      exact (named_writeHeader (bad := o.bad) 405 named_new).2 b code h hsent
    | some i =>
      rw [serve_routed hg hi] at hsent
      cases hn : (lookup rx e i req.path).1 with
      | some n =>
        rw [hn, serveRouted_chain (hs := n.handlers) rfl] at hsent
        refine (named_run o req _ rfl ?_).2 b code h hsent
        obtain ⟨j, l, _, _, h3, _⟩ := C17_chain hops he (n := n) (m := req.method) (path := req.path) (by simp only [routeOf, hi]; exact hn)
        refine hfrom _ _ h3 fun v hv => ?_
        rcases List.mem_append.1 hv with hv | hv
        · rcases List.mem_append.1 hv with hv | hv
          · exact .inl ⟨r, hv⟩
          · obtain ⟨k, _, hk⟩ := List.mem_flatMap.1 hv
            exact .inr (.inl ⟨k, hk⟩)
        · exact .inr (.inr (.inl ⟨j, hv⟩))
      | none =>
        rw [hn] at hsent
        by_cases hnf : e.noFound = []
        · obtain ⟨cx, hc⟩ := serveRouted_none (c := ctx) (rw := Writer.new) (body := body) (w := w) (req := req) (o := o)
            (params := (lookup rx e i req.path).2) (n := none) (e := e) (by simp [chainFor, hnf])
          rw [hc] at hsent
          exact (named_writeHeader (bad := o.bad) 404 named_new).2 b code h hsent
        · rw [serveRouted_chain (hs := e.noFound) (by simp [chainFor, hnf])] at hsent
          refine (named_run o req _ rfl ?_).2 b code h hsent
          refine hfrom _ _ (handler_noFound hops he) fun v hv => ?_
          unfold noFoundOf at hv
          split at hv
          · cases hv
          · rename_i g hgv
            rcases List.mem_append.1 hv with hv | hv
            · exact .inl ⟨r, hv⟩
            · exact .inr (.inr (.inr ⟨g, hgv, hv⟩))

/-- A value that net/http sends has no line break in it at all. -/
theorem C154_value (v : Str) : 10 ∉ trimString (newlineToSpace v) ∧ 13 ∉ trimString (newlineToSpace v) := by
  have h := writeField_text ([], v)
  have e : trimString (newlineToSpace v) = fieldText v := by
    unfold writeField at h
    simpa [List.append_assoc] using h
  rw [e]
  exact ⟨(fieldText_safe v).1, (fieldText_safe v).2.1⟩

/-! ### The helpers of the framework -/

theorem well_do {c : Call ω} {k : Prog ω} (hc : NamesWell c) (hk : CallsIn NamesWell k) : CallsIn NamesWell (.do c k) := ⟨hc, fun _ => hk⟩

/-- decide that a name is a name of a field -/
theorem token_check {k : Str} (h : (k != [] && k.all validHeaderByte) = true) : Token k := by
  simp only [Bool.and_eq_true, bne_iff_ne, ne_eq, List.all_eq_true] at h
  exact ⟨h.1, fun c hc => (valid_iff c).1 (h.2 c hc)⟩

theorem well_set {k : Str} (v : Str) (h : (k != [] && k.all validHeaderByte) = true) {p : Prog ω} (hp : CallsIn NamesWell p) :
    CallsIn NamesWell (.do (.setHeader k v) p) := well_do (token_check h) hp

theorem well_writes (f : Str → Call ω) (hf : ∀ d, NamesWell (f d)) (ds : List Str) {k : Prog ω} (hk : CallsIn NamesWell k) :
    CallsIn NamesWell (ds.foldr (fun d k => .do (f d) k) k) := by
  induction ds with
  | nil => exact hk
  | cons d ds ih => exact well_do (hf d) ih

theorem well_via (p : Prog ω) (h : CallsIn NamesWell p) : CallsIn NamesWell p.viaCtx := by
  induction p with
  | ret => trivial
  | panic v => trivial
  | next k ih => exact ih h
  | call c k ih =>
    refine ⟨?_, fun r => ih r (h.2 r)⟩
    cases c <;> first | exact h.1 | trivial
  | scope b f ihb ihf => exact ⟨ihb h.1, fun r => ihf r (h.2 r)⟩

/-- `String`, `HTMLRaw`, `Data`, `JSON`, `XML`, `HTML`, `Stream`, `Abort` and `NoCache` use only names of fields, whatever texts they are given. -/
theorem C154_content (code : Int) (ctype data : Str) (chunks : List Str) {k : Prog ω} (hk : CallsIn NamesWell k) :
    CallsIn NamesWell (.data code ctype data k) ∧ CallsIn NamesWell (.string code data k) ∧ CallsIn NamesWell (.htmlRaw code data k) ∧
    CallsIn NamesWell (.json code chunks k) ∧ CallsIn NamesWell (.xml code chunks k) ∧ CallsIn NamesWell (.html code k) ∧
    CallsIn NamesWell (.stream ctype chunks k) ∧ CallsIn NamesWell (.abort code k) ∧ CallsIn NamesWell (.noCache k) := by
  have hw : CallsIn NamesWell (chunks.foldr (fun d k => .do (.write d) k) k) := well_writes (fun d => .write d) (fun _ => trivial) chunks hk
  have hd : ∀ t, CallsIn NamesWell (.data code t data k) := fun t => well_do trivial (well_set _ (by decide +kernel) (well_do trivial hk))
  exact ⟨hd _, hd _, hd _, well_do trivial (well_set _ (by decide +kernel) hw), well_do trivial (well_set _ (by decide +kernel) hw),
    well_do trivial (well_set _ (by decide +kernel) hk), well_set _ (by decide +kernel) hw, well_do trivial hk,
    well_set _ (by decide +kernel) (well_set _ (by decide +kernel) hk)⟩

/-- `SetCookie` uses only a name of a field, whatever the cookie. -/
theorem C154_cookie (ip : Str → Bool) (name value : Str) (others : List CArg) :
    NamesWell (ω := ω) (.header (fun h => (setCookie ip h name value others, .unit))) :=
  fun _ hh => named_add hh (token_check (by decide +kernel)) _

theorem well_redirect (env : RedirEnv) (raw : Bool) (url : Str) (code : Int) : CallsIn (ω := ω) NamesWell (httpRedirect env raw url code) := by
  unfold httpRedirect
  refine ⟨trivial, fun r => ?_⟩
  cases r with
  | str path =>
    refine ⟨trivial, fun r => ?_⟩
    cases r with
    | str m =>
      refine ⟨?_, fun r => ?_⟩
      · intro h hh
        dsimp only
        have h1 := named_put hh (k := kLocation) (token_check (by decide +kernel)) (hexEscapeNonASCII (redirectTarget env path url))
        split
        · exact named_put h1 token_ctype _
        · exact h1
      · refine well_do ?_ ?_
        · cases raw <;> trivial
        · split
          · refine well_do ?_ trivial
            cases raw <;> trivial
          · trivial
    | _ => trivial
  | _ => trivial

/-- The redirects use only names of fields, whatever the address. -/
theorem C154_redirect (env : RedirEnv) (uri : Str) :
    CallsIn (ω := ω) NamesWell (movedPermanently env uri) ∧ CallsIn (ω := ω) NamesWell (found env uri) :=
  ⟨well_redirect env false uri 301, well_redirect env false uri 302⟩

theorem well_add {k : Str} (v : Str) (h : (k != [] && k.all validHeaderByte) = true) {p : Prog ω} (hp : CallsIn NamesWell p) :
    CallsIn NamesWell (.addHeader k v p) := well_do (fun _ hh => named_add hh (token_check h) v) hp

theorem well_setIf (b : Bool) {k : Str} (v : Str) (h : (k != [] && k.all validHeaderByte) = true) {p : Prog ω} (hp : CallsIn NamesWell p) :
    CallsIn NamesWell (.setHeaderIf b k v p) := by
  unfold Prog.setHeaderIf
  cases b
  · exact hp
  · exact well_set v h hp

/-- `CORS` uses only names of fields, whatever its configuration and the request; `Recovery` and `Logger` do. -/
theorem C154_middleware (cfg : CORSConfig) (o : Oracle) (closed withBody : Bool) (emit : List Str → Int → Str → ω → ω) :
    CallsIn (ω := ω) NamesWell (cors cfg) ∧ CallsIn (ω := ω) NamesWell (recovery o) ∧ CallsIn NamesWell (logger closed withBody emit) := by
  refine ⟨?_, ?_, ?_⟩
  · unfold cors
    refine ⟨trivial, fun r => ?_⟩
    cases r with
    | str origin =>
      refine ⟨trivial, fun r => ?_⟩
      dsimp only
      split
      · exact well_add _ (by decide +kernel) (well_set _ (by decide +kernel) (well_setIf _ _ (by decide +kernel) (well_setIf _ _ (by decide +kernel) trivial)))
      · refine well_add _ (by decide +kernel) (well_add _ (by decide +kernel) (well_add _ (by decide +kernel) (well_set _ (by decide +kernel)
          (well_set _ (by decide +kernel) (well_setIf _ _ (by decide +kernel) ?_)))))
        have hr : CallsIn (ω := ω) NamesWell (.setHeaderIf (decide ((corsDefaults cfg).maxAge > 0)) hMaxAge (itoa (corsDefaults cfg).maxAge) (.do (.writeHeader 204) .ret)) :=
          well_setIf _ _ (by decide +kernel) (well_do trivial trivial)
        dsimp only
        split
        · exact well_set _ (by decide +kernel) hr
        · refine ⟨trivial, fun r => ?_⟩
          cases r with
          | str h => exact well_setIf _ _ (by decide +kernel) hr
          | _ => exact hr
    | _ => trivial
  · unfold recovery
    refine ⟨trivial, fun r => ?_⟩
    have hs : ∀ m, CallsIn (ω := ω) NamesWell (if o.stable then .ret else .string 500 (o.crashText (.val m)) .ret) := by
      intro m
      split
      · trivial
      · exact (C154_content (k := .ret) 500 [] _ [] trivial).2.1
    have hother : CallsIn (ω := ω) NamesWell (.call .written (fun w => if w = .bool false then .do (.writeHeader 200) .ret else .ret)) := by
      refine ⟨trivial, fun w => ?_⟩
      dsimp only
      split
      · exact well_do trivial trivial
      · trivial
    cases r with
    | none => exact hother
    | some v =>
      cases v with
      | val msg =>
        refine ⟨trivial, fun w => ?_⟩
        dsimp only
        split
        · exact well_do trivial (hs msg)
        · exact hs msg
      | _ => exact hother
  · have ht : ∀ b, CallsIn NamesWell (loggerTail emit b) := by
      intro b
      refine ⟨trivial, fun st => ?_⟩
      cases st with
      | int st =>
        refine ⟨trivial, fun a => ?_⟩
        cases a with
        | strs a => exact well_do trivial trivial
        | _ => trivial
      | _ => trivial
    unfold logger
    split
    · trivial
    · split
      · exact ht _
      · refine ⟨trivial, fun b => ?_⟩
        dsimp only
        split
        · refine ⟨trivial, fun ct => ?_⟩
          cases ct with
          | str ct =>
            dsimp only
            split
            · refine ⟨trivial, fun d => ?_⟩
              cases d with
              | str d => exact well_do trivial (ht _)
              | _ => trivial
            · exact ht _
          | _ => trivial
        · exact ht _

/-! ### Files -/

theorem well_error (code : Int) (msg : Str) : CallsIn (ω := ω) NamesWell (.httpError code msg) :=
  well_set _ (by decide +kernel) (well_set _ (by decide +kernel) (well_do trivial (well_do trivial trivial)))

theorem well_send (method : Str) (code : Int) (encoded : Bool) (data : Str) : CallsIn (ω := ω) NamesWell (sendContent method code encoded data) := by
  unfold sendContent
  refine well_set _ (by decide +kernel) ?_
  have hr : CallsIn (ω := ω) NamesWell (.do (.rawWriteHeader code) (if method ≠ mHEAD ∧ data ≠ [] then .do (.rawWrite data) .ret else .ret)) := by
    refine well_do trivial ?_
    split
    · exact well_do trivial trivial
    · trivial
  dsimp only
  split
  · exact hr
  · exact well_set _ (by decide +kernel) hr

theorem well_ranges (io : ContentIO ω) (method range ctype : Str) (encoded : Bool) (data : Str) :
    CallsIn (ω := ω) NamesWell (sendRanges io method range ctype encoded data) := by
  unfold sendRanges
  split
  · exact well_error _ _
  · exact well_set _ (by decide +kernel) (well_error _ _)
  · dsimp only
    split
    · exact well_send ..
    · exact well_set _ (by decide +kernel) (well_send ..)
    · exact well_set _ (by decide +kernel) (well_send ..)

theorem named_modified (io : ContentIO ω) (t : Int) {h : Header} (hh : Named h) : Named (setLastModified io t h) := by
  unfold setLastModified
  split
  · exact hh
  · exact named_put hh (token_check (by decide +kernel)) _

theorem named_notModified {h : Header} (hh : Named h) : Named (notModifiedHeader h) := by
  unfold notModifiedHeader
  dsimp only
  split
  · exact named_drop (named_drop (named_drop hh _) _) _
  · exact named_drop (named_drop hh _) _

theorem named_typed (io : ContentIO ω) (o : Oracle) (name data : Str) {h : Header} (hh : Named h) : Named (typedHeader io o name data h) := by
  unfold typedHeader
  split
  · exact hh
  · exact named_put hh (token_check (by decide +kernel)) _

theorem well_content (io : ContentIO ω) (o : Oracle) (name : Str) (t : Int) (f : Nat) : CallsIn NamesWell (serveContentStd io o name t f) := by
  unfold serveContentStd
  refine ⟨fun h hh => named_modified io t hh, fun r => ?_⟩
  cases r with
  | str etag =>
    refine ⟨trivial, fun r => ?_⟩
    dsimp only
    split
    · split
      · exact well_do trivial trivial
      · exact well_do (fun _ hh => named_notModified hh) (well_do trivial trivial)
      · unfold sendFile
        refine ⟨trivial, fun r => ?_⟩
        cases r with
        | str data =>
          refine ⟨fun h hh => named_typed io o name data hh, fun r => ?_⟩
          dsimp only
          split
          · exact well_ranges ..
          · trivial
        | _ => trivial
    · trivial
  | _ => trivial

theorem well_local (to : Str) : CallsIn (ω := ω) NamesWell (localRedirect to) := by
  unfold localRedirect
  refine ⟨trivial, fun r => ?_⟩
  dsimp only
  split
  · exact well_set _ (by decide +kernel) (well_do trivial trivial)
  · trivial

theorem well_close (fs : FS ω) (f : Nat) {p : Prog ω} (hp : CallsIn NamesWell p) : CallsIn NamesWell (closeAfter fs f p) := by
  refine ⟨hp, fun r => well_do trivial ?_⟩
  cases r <;> trivial

theorem well_opened (io : ContentIO ω) (o : Oracle) (disk : OsFiles ω) (f : Nat) (i : FileInfo) : CallsIn NamesWell (sendOpened io o disk f i) := by
  unfold sendOpened
  split
  · refine ⟨trivial, fun r => ?_⟩
    dsimp only
    split
    · split
      · exact well_do (fun _ hh => named_notModified hh) (well_do trivial trivial)
      · refine well_do (fun _ hh => named_modified io _ hh) ?_
        unfold dirList
        refine ⟨trivial, fun r => ?_⟩
        dsimp only
        split
        · exact well_set _ (by decide +kernel) (well_do trivial (well_writes (fun n => .rawWrite (listLine n)) (fun _ => trivial) _ (well_do trivial trivial)))
        · exact well_error _ _
    · trivial
  · exact well_content ..

theorem well_serveFile (io : ContentIO ω) (o : Oracle) (disk : OsFiles ω) (name : Str) : CallsIn NamesWell (serveFileStd io o disk name) := by
  unfold serveFileStd
  refine ⟨trivial, fun r => ?_⟩
  cases r with
  | str path =>
    dsimp only
    split
    · exact well_error _ _
    · split
      · exact well_local _
      · refine ⟨trivial, fun r => ?_⟩
        cases r with
        | other f =>
          refine well_close _ _ ⟨trivial, fun r => ?_⟩
          cases r with
          | info i =>
            dsimp only
            unfold serveOpened
            split
            · split
              · exact well_local _
              · refine ⟨trivial, fun r => ?_⟩
                cases r with
                | other ff =>
                  refine well_close _ _ ⟨trivial, fun r => ?_⟩
                  cases r with
                  | info ii => exact well_opened ..
                  | _ => exact well_opened ..
                | _ => exact well_opened ..
            · exact well_opened ..
          | int code => exact well_error _ _
          | _ => trivial
        | int code => exact well_error _ _
        | _ => trivial
  | _ => trivial

/-- `File`, `ServeFile`, `Attachment`, `Download` and the handler of `Static` use only names of fields, whatever the files are called and
contain and whatever is asked for. -/
theorem C154_files (io : ContentIO ω) (o : Oracle) (disk : OsFiles ω) (env : RedirEnv) (fs : FS ω) (http : Http ω)
    (h1 : http.redirect = fun url => httpRedirect env true url 302) (h2 : http.serveFile = serveFileStd io o disk)
    (h3 : ∀ n t f, http.serveContent n t f = serveContentStd io o n t f ∨ http.serveContent n t f = (serveContentStd io o n t f).viaCtx)
    (opt : StaticOptions ω) (name : Str) (t : Int) (f : Nat) (inline : List Bool) {k : Bool → Prog ω} (hk : ∀ b, CallsIn NamesWell (k b)) :
    CallsIn NamesWell (ctxFile io o disk name) ∧ CallsIn NamesWell (ctxServeFile io o disk name) ∧
    CallsIn NamesWell (attachment io o name t f inline) ∧ CallsIn NamesWell (.download fs http name inline k) ∧
    CallsIn NamesWell (staticHandler fs http opt) := by
  have hc : ∀ n t f, CallsIn NamesWell (http.serveContent n t f) := by
    intro n t f
    rcases h3 n t f with e | e
    · rw [e]; exact well_content ..
    · rw [e]; exact well_via _ (well_content ..)
  refine ⟨well_serveFile .., well_via _ (well_serveFile ..), well_set _ (by decide +kernel) (well_via _ (well_content ..)), ?_, ?_⟩
  · unfold Prog.download
    refine ⟨trivial, fun r => ?_⟩
    cases r with
    | other f =>
      refine ⟨trivial, fun r => ?_⟩
      cases r with
      | info fi =>
        dsimp only
        split
        · exact well_do trivial (hk false)
        · refine ⟨?_, fun r => well_do trivial ?_⟩
          · exact well_set _ (by decide +kernel) (well_set _ (by decide +kernel) (well_set _ (by decide +kernel) (well_set _ (by decide +kernel)
              (well_set _ (by decide +kernel) (well_set _ (by decide +kernel) (well_set _ (by decide +kernel) (hc ..)))))))
          · cases r with
            | none => exact hk true
            | some v => trivial
      | _ => exact well_do trivial (hk false)
    | _ => exact hk false
  · unfold staticHandler
    refine ⟨trivial, fun r => ?_⟩
    cases r with
    | str name =>
      refine ⟨trivial, fun r => ?_⟩
      cases r with
      | other f =>
        refine ⟨⟨trivial, fun r => ?_⟩, fun r => well_do trivial ?_⟩
        · cases r with
          | info i =>
            dsimp only
            unfold staticFound
            have hrest : CallsIn NamesWell (if i.dir then .call .reqPath (fun r => match r with | .str path => staticDir http opt name path | _ => .ret)
                else staticFile http opt name f i) := by
              split
              · refine ⟨trivial, fun r => ?_⟩
                cases r with
                | str path =>
                  dsimp only
                  unfold staticDir
                  rw [h1, h2]
                  dsimp only
                  generalize (if hasSuffix path [slash] = true then pathClean path ++ [slash] else pathClean path) = rp
                  split
                  · exact well_redirect ..
                  · exact well_serveFile ..
                | _ => trivial
              · unfold staticFile
                dsimp only
                split
                · refine well_set _ (by decide +kernel) ⟨trivial, fun r => ?_⟩
                  dsimp only
                  split
                  · exact well_do trivial trivial
                  · exact hc ..
                · exact hc ..
            cases opt.expires with
            | none => exact hrest
            | some e =>
              refine ⟨trivial, fun r => ?_⟩
              cases r with
              | str s => exact well_set _ (by decide +kernel) hrest
              | _ => trivial
          | _ => exact well_do trivial trivial
        · cases r <;> trivial
      | _ => exact well_do trivial trivial
    | _ => trivial

/-! ### A concrete case, and why the names matter -/

namespace Demo

/-- a text that tries to begin another line, and a page -/
def splitText : Str := b!"a\r\nSet-Cookie: b=c\r\n\r\n<html>"

/-- a handler that puts a text into the value of a field -/
def noteH (v : Str) : Prog Unit := .do (.setHeader b!"X-Note" v) (.string 200 b!"hi" .ret)

/-- what it sends -/
theorem note_sent : (runAll chainO chainReq (chainSt [noteH splitText])).2.rw.log = [.status true 200 (Header.put Map.empty b!"X-Note" splitText), .body b!"hi"] := rfl

/-- the head with the text in it is read as one field, and the page is not a page -/
theorem C154_demo (c : Str) (fs : List (Str × Str)) (r : Str) :
    ReadsAnswer (writeHead b!"200" b!"OK" [(b!"Date", b!"now"), (b!"X-Note", splitText)] ++ b!"hi") c fs r ↔
      c = b!"200" ∧ fs = [(b!"Date", b!"now"), (b!"X-Note", b!"a  Set-Cookie: b=c    <html>")] ∧ r = b!"hi" := by
  have h := C154 chainO chainReq (chainSt [noteH splitText]) rfl
    (by
      intro p hp
      cases List.mem_singleton.1 hp
      exact well_set _ (by decide +kernel) (C154_content (k := .ret) 200 [] b!"hi" [] trivial).2.1)
    (b := true) (code := 200) (h := Header.put Map.empty b!"X-Note" splitText) (by rw [note_sent]; exact .head _)
    (lines := [(b!"Date", b!"now"), (b!"X-Note", splitText)])
    (by
      intro l hl
      simp only [List.mem_cons, List.not_mem_nil, or_false] at hl
      rcases hl with rfl | rfl
      · exact .inr (by decide)
      · exact .inl ⟨[splitText], by unfold Header.put Map.set; rw [if_pos (by decide +kernel)], by simp⟩)
    (digits := b!"200") (reason := b!"OK") (by decide) (by decide) b!"hi" c fs r
  have e : [(b!"Date", b!"now"), (b!"X-Note", splitText)].map (fun l => (l.1, fieldText l.2)) =
      [(b!"Date", b!"now"), (b!"X-Note", b!"a  Set-Cookie: b=c    <html>")] := by decide +kernel
  rw [e] at h
  exact h

/-- an application with CORS, with the handler in a group, and with a not-found handler -/
def wireOps : List (Op (Prog Unit)) :=
  [.newRouter, .before 0 [.handler (cors defaultCORS)], .group 0 b!"/v1", .use 1 [.ctxFunc (recovery chainO)], .handle 1 mGET b!"/note" [.ctxFunc (noteH splitText)]]

/-- its not-found handler -/
def wireOpts : List (Opt (Prog Unit)) := [.noFound [.ctxFunc (.notFound .ret)]]

/-- what it sends, as status codes -/
def wireSent (path : Str) : Option (Option Int) :=
  match runOps [] wireOps with
  | .error _ => none
  | .ok heap =>
    match handler rx heap 0 wireOpts with
    | .error _ => none
    | .ok e => some (received (serve rx chainO e Ctx.new { chainReq with method := mGET, path } Writer.new none ()).rw.log)

theorem wire_sent : wireSent b!"/v1/note" = some (some 200) ∧ wireSent b!"/v2" = some (some 404) := by decide +kernel

/-- Beside `C154_app`: its hypotheses hold of this application. -/
theorem C154_app_demo : (∀ v p, HandedTo wireOps wireOpts v → payload v = some p → CallsIn NamesWell p) ∧
    ∃ heap e, runOps [] wireOps = .ok heap ∧ handler rx heap 0 wireOpts = .ok e ∧
      received (serve rx chainO e Ctx.new { chainReq with method := mGET, path := b!"/v1/note" } Writer.new none ()).rw.log = some 200 := by
  constructor
  · have hm := C154_middleware (ω := Unit) defaultCORS chainO false false (fun _ _ _ w => w)
    intro v p h hp
    rcases h with ⟨r, h⟩ | ⟨k, h⟩ | ⟨k, h⟩ | ⟨g, hg, h⟩
    · simp only [beforesOf, wireOps, List.flatMap_cons, List.flatMap_nil, beforesBy, List.nil_append, List.append_nil] at h
      split at h
      · cases List.mem_singleton.1 h; cases hp; exact hm.1
      · cases h
    · simp only [usesOf, wireOps, List.flatMap_cons, List.flatMap_nil, usesBy, List.nil_append, List.append_nil] at h
      split at h
      · cases List.mem_singleton.1 h; cases hp; exact hm.2.1
      · cases h
    · match k, h with
      | 0, h => cases h
      | 1, h => cases h
      | 2, h =>
        cases List.mem_singleton.1 h; cases hp
        exact well_set _ (by decide +kernel) (C154_content (k := .ret) 200 [] b!"hi" [] trivial).2.1
      | _ + 3, h => cases h
    · cases hg
      cases List.mem_singleton.1 h; cases hp
      exact (C154_content (k := .ret) 404 [] [] [] trivial).2.2.2.2.2.2.2.1
  · have h := wire_sent.1
    unfold wireSent at h
    cases h1 : runOps [] wireOps with
    | error _ => rw [h1] at h; cases h
    | ok heap =>
      rw [h1] at h
      dsimp only at h
      cases h2 : handler rx heap 0 wireOpts with
      | error _ => rw [h2] at h; cases h
      | ok e => rw [h2] at h; exact ⟨heap, e, rfl, h2, Option.some.inj h⟩

/-- a name that tries to begin another line -/
def splitName : Str := b!"X: 1\r\nSet-Cookie"

/-- a handler that takes the name of a field from outside -/
def nameH (k v : Str) : Prog Unit := .do (.setHeader k v) (.string 200 b!"hi" .ret)

end Demo

open Demo in
/-- The names must be names of fields: with a name that has a line break in it, `SetHeader` sets a cookie. -/
theorem C154_names :
    ∃ h, .status true 200 h ∈ (runAll chainO chainReq (chainSt [nameH splitName b!"a=b"])).2.rw.log ∧ LinesOf h [(splitName, b!"a=b")] ∧
      ReadsAnswer (writeHead b!"200" b!"OK" [(splitName, b!"a=b")] ++ b!"hi") b!"200" [(b!"X", b!"1"), (b!"Set-Cookie", b!"a=b")] b!"hi" := by
  refine ⟨Header.put Map.empty splitName b!"a=b", .head _, ?_, b!"OK", b!"\r\n", b!"X: 1\r\nSet-Cookie: a=b\r\n\r\nhi", by decide, .inl rfl, by decide +kernel,
    by decide, by decide, ?_⟩
  · intro l hl
    cases List.mem_singleton.1 hl
    exact .inl ⟨[b!"a=b"], by unfold Header.put Map.set; rw [if_pos (by decide +kernel)], by simp⟩
  · have h0 : ReadsFields (b!"\r\n" ++ b!"hi") [] b!"hi" := .done _ (.inl rfl)
    have h1 := ReadsFields.line (name := b!"Set-Cookie") (v := b!" a=b") (e := b!"\r\n") (token_check (by decide +kernel)) (by decide) (.inl rfl) h0
    have h2 := ReadsFields.line (name := b!"X") (v := b!" 1") (e := b!"\r\n") (token_check (by decide +kernel)) (by decide) (.inl rfl) h1
    exact h2

end Water
