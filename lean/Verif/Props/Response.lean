import Verif.Lemmas.Response
import Verif.Props.Chain
/-
C29-C33: what handlers send to the client, for all chains of arbitrary handlers.
-/
namespace Water
open Spec Demo
variable {ω : Type}

/-- At the beginning of a chain, on a response writer that has not sent anything. -/
def AtStartW (s : St ω) : Prop := AtStart s ∧ s.rw.log = []

theorem chainSt_freshW (hs : List (Prog Unit)) : AtStartW (chainSt hs) := ⟨chainSt_fresh hs, rfl⟩

/-! ### C29 -/

/-- C29. A chain that only uses the context, with whatever codes, hands at most one status line to the writer
(explicit or implied), hence at most one `WriteHeader` call, and everything else that is sent is body. -/
theorem C29_one_status_line (o : Oracle) (req : Req) (s : St ω) (hs : AtStartW s)
    (hA : ∀ h ∈ s.ctx.handlers, CallsIn (fun c => ¬ Bypass c) h) :
    statusLines false (runAll o req s).2.rw.log ≤ 1 ∧ statusLines true (runAll o req s).2.rw.log ≤ 1 := by
  have h := runAll_inv o req Through _ log_through bump_through (fun s c => through_call o req s c) s hA
    ⟨fun _ => hs.2, .inl hs.2⟩
  have hb : ∀ b rest, (∀ e ∈ rest, ∃ d, e = WEvent.body d) → statusLines b rest = 0 := by
    intro b rest hr
    induction rest with
    | nil => rfl
    | cons e es ih =>
      obtain ⟨d, rfl⟩ := hr e (by simp)
      exact ih (fun e he => hr e (by simp [he]))
  rcases h.2 with h | ⟨x, c, hd, rest, h, hr⟩
  · rw [h]; simp [statusLines]
  · rw [h]; simp only [statusLines, hb _ rest hr]
    constructor <;> split <;> omega

/-- C29, partial: if all codes are valid, then after any chain that only uses the context either nothing was sent and
`Written()` is false, or `Written()` is true, exactly one `WriteHeader` reached the writer, as the first thing, and its
code is `Status()`. Missing: a chain that calls `WriteHeader` with an invalid code, see `C29_refuted`. -/
theorem C29_status_partial (o : Oracle) (h200 : o.bad 200 = false) (req : Req) (s : St ω) (hs : AtStartW s)
    (hA : ∀ h ∈ s.ctx.handlers, CallsIn (fun c => ¬ Bypass c ∧ ValidCode o.bad c) h) :
    let s' := (runAll o req s).2
    (s'.ctx.written = false ∧ s'.rw.log = []) ∨
    (s'.ctx.written = true ∧ received s'.rw.log = some s'.ctx.status ∧ statusLines true s'.rw.log = 1 ∧
      statusLines false s'.rw.log = 1) := by
  have h := runAll_inv o req Sent _ (fun _ _ h => h) (fun _ h => h)
    (fun s c (hc : ¬ Bypass c ∧ ValidCode o.bad c) => sent_call o h200 req s c hc.1 hc.2) s hA (.inl ⟨hs.1.2.1, hs.2⟩)
  have hb : ∀ b rest, (∀ e ∈ rest, ∃ d, e = WEvent.body d) → statusLines b rest = 0 := by
    intro b rest hr
    induction rest with
    | nil => rfl
    | cons e es ih =>
      obtain ⟨d, rfl⟩ := hr e (by simp)
      exact ih (fun e he => hr e (by simp [he]))
  rcases h with h | ⟨hw, hd, rest, h, hr⟩
  · exact .inl h
  · refine .inr ⟨hw, ?_⟩
    rw [h]; simp [received, statusLines, hb _ rest hr]

/-- C29, for all codes. After any chain that only uses the context: nothing was sent and `Written()` is false; or `Status()` is a code the
writer takes, and it was sent, by the one `WriteHeader` that reached the writer; or `Status()` is a code the writer rejects, and then no
`WriteHeader` took effect: nothing was sent, or 200, implied by a write. -/
theorem C29_exact (o : Oracle) (h200 : o.bad 200 = false) (req : Req) (s : St ω) (hs : AtStartW s)
    (hA : ∀ h ∈ s.ctx.handlers, CallsIn (fun c => ¬ Bypass c) h) :
    let s' := (runAll o req s).2
    (s'.ctx.written = false ∧ s'.rw.log = []) ∨
    (s'.ctx.written = true ∧ o.bad s'.ctx.status = false ∧ received s'.rw.log = some s'.ctx.status ∧ statusLines true s'.rw.log = 1 ∧
      statusLines false s'.rw.log = 1) ∨
    (s'.ctx.written = true ∧ o.bad s'.ctx.status = true ∧ statusLines true s'.rw.log = 0 ∧
      (s'.rw.log = [] ∨ received s'.rw.log = some 200 ∧ statusLines false s'.rw.log = 1)) := by
  have h := runAll_inv o req (SentAny o) _ (fun _ _ h => h) (fun _ h => h)
    (fun s c (hc : ¬ Bypass c) => sentAny_call o h200 req s c hc) s hA (.inl ⟨hs.1.2.1, hs.2⟩)
  have hb : ∀ b rest, (∀ e ∈ rest, ∃ d, e = WEvent.body d) → statusLines b rest = 0 := by
    intro b rest hr
    induction rest with
    | nil => rfl
    | cons e es ih =>
      obtain ⟨d, rfl⟩ := hr e (by simp)
      exact ih (fun e he => hr e (by simp [he]))
  rcases h with h | ⟨hw, hg, hd, rest, h, hr⟩ | ⟨hw, hg, h | ⟨hd, d, rest, h, hr⟩⟩
  · exact .inl h
  · refine .inr (.inl ⟨hw, hg, ?_⟩)
    rw [h]; simp [received, statusLines, hb _ rest hr]
  · exact .inr (.inr ⟨hw, hg, by rw [h]; rfl, .inl h⟩)
  · refine .inr (.inr ⟨hw, hg, ?_, .inr ?_⟩)
    · rw [h]; simp [statusLines, hb _ rest hr]
    · rw [h]; simp [received, statusLines, hb _ rest hr]

/-- C29. Hence `Status()` is not what the client received only if it is a code the writer rejects. -/
theorem C29_status_iff (o : Oracle) (h200 : o.bad 200 = false) (req : Req) (s : St ω) (hs : AtStartW s)
    (hA : ∀ h ∈ s.ctx.handlers, CallsIn (fun c => ¬ Bypass c) h) (hw : (runAll o req s).2.ctx.written = true) :
    received (runAll o req s).2.rw.log = some (runAll o req s).2.ctx.status ↔ o.bad (runAll o req s).2.ctx.status = false := by
  rcases C29_exact o h200 req s hs hA with h | ⟨-, h1, h2, -⟩ | ⟨-, h1, -, h2⟩
  · rw [hw] at h; simp at h
  · rw [h2, h1]; simp
  · rw [h1]
    simp only [Bool.true_eq_false, iff_false]
    intro h
    rcases h2 with h2 | ⟨h2, -⟩
    · rw [h2] at h; simp [received] at h
    · rw [h2] at h
      have := Option.some.inj h
      rw [← this, h200] at h1
      simp at h1

/-- a handler that calls `WriteHeader(0)`, which panics in net/http -/
def badCodeH : Prog Unit := .do (.writeHeader 0) .ret

/-- both kinds of codes occur -/
example : (∀ h ∈ (chainSt [badCodeH, writeH]).ctx.handlers, CallsIn (fun c => ¬ Bypass c) h) ∧
    (runAll chainO chainReq (chainSt [catchH, badCodeH])).2.ctx.written = true ∧
    chainO.bad (runAll chainO chainReq (chainSt [catchH, badCodeH])).2.ctx.status = true := by
  refine ⟨?_, by decide +kernel⟩
  intro p hp
  simp only [chainSt, List.mem_cons, List.not_mem_nil, or_false] at hp
  rcases hp with rfl | rfl
  · exact ⟨id, fun _ => trivial⟩
  · exact ⟨id, fun _ => trivial⟩

/-- C29. Once `Written()`, a further `WriteHeader` changes nothing at all. -/
theorem C29_frozen (o : Oracle) (req : Req) (s : St ω) (code : Int) (h : s.ctx.written = true) :
    doCall o req s (.writeHeader code) = (.ok .unit, s) := by
  simp [doCall, St.writeHeader_written h]

/-- C29. `Write` without prior `WriteHeader` sends 200 and then the data, and `Status()` is 200. -/
theorem C29_write_200 (o : Oracle) (h200 : o.bad 200 = false) (req : Req) (s : St ω) (data : Str)
    (h : s.ctx.written = false) (hl : s.rw.log = []) :
    ∃ hd s', doCall o req s (.write data) = (.ok .unit, s') ∧ s'.rw.log = [.status true 200 hd, .body data] ∧
      s'.ctx.status = 200 ∧ s'.ctx.written = true := by
  rw [doCall, St.write_fresh h h200]
  exact ⟨sniffed o s.rw.header data, _, rfl, by simp [hl], rfl, rfl⟩

/-- the claim of C29 about `Status()`, for all chains that only use the context -/
def C29_claim : Prop :=
  ∀ (s : St Unit), AtStartW s → (∀ h ∈ s.ctx.handlers, CallsIn (fun c => ¬ Bypass c) h) →
    (runAll chainO chainReq s).2.ctx.written = true →
      received (runAll chainO chainReq s).2.rw.log = some (runAll chainO chainReq s).2.ctx.status

/-- C29, as stated, fails for invalid codes: the panic of `WriteHeader(0)` is recovered (by `Recovery`), which then
writes; the client gets 200, but `Status()` is 0. -/
theorem C29_refuted : ¬ C29_claim := by
  intro h
  have := h (chainSt [recovery chainO, badCodeH]) (chainSt_freshW _) (by
    intro p hp
    simp only [chainSt, List.mem_cons, List.not_mem_nil, or_false] at hp
    rcases hp with rfl | rfl
    · refine ⟨trivial, fun r => ?_⟩
      rcases r with _ | _ | m
      · refine ⟨id, fun r => ?_⟩
        dsimp only; split
        · exact ⟨id, fun _ => trivial⟩
        · trivial
      · refine ⟨id, fun r => ?_⟩
        dsimp only; split
        · exact ⟨id, fun _ => trivial⟩
        · trivial
      · refine ⟨id, fun r => ?_⟩
        dsimp only; split
        · exact ⟨id, fun _ => ⟨id, fun _ => ⟨id, fun _ => ⟨id, fun _ => trivial⟩⟩⟩⟩
        · exact ⟨id, fun _ => ⟨id, fun _ => ⟨id, fun _ => trivial⟩⟩⟩
    · exact ⟨id, fun _ => trivial⟩)
  revert this
  decide +kernel

/-- a chain meeting the hypotheses of the theorems above -/
example : (∀ h ∈ (chainSt [wrapH, writeH]).ctx.handlers,
      CallsIn (fun c => ¬ Bypass c ∧ ValidCode chainO.bad c) h) ∧
    received (runAll chainO chainReq (chainSt [wrapH, writeH])).2.rw.log = some 200 := by
  refine ⟨?_, by decide +kernel⟩
  intro p hp
  simp only [chainSt, List.mem_cons, List.not_mem_nil, or_false] at hp
  rcases hp with rfl | rfl
  · exact ⟨⟨id, trivial⟩, fun _ => trivial⟩
  · exact ⟨⟨id, trivial⟩, fun _ => trivial⟩

/-! ### C30 -/

/-- C30, partial: for a chain that does not bypass the context and uses valid codes, `Written()` is true exactly when a
response was started. Missing: chains that use `File`/the static handler, or an invalid code: there it is false,
see `C30_refuted`. -/
theorem C30_written_partial (o : Oracle) (h200 : o.bad 200 = false) (req : Req) (s : St ω) (hs : AtStartW s)
    (hA : ∀ h ∈ s.ctx.handlers, CallsIn (fun c => ¬ Bypass c ∧ ValidCode o.bad c) h) :
    (runAll o req s).2.ctx.written = true ↔ (runAll o req s).2.rw.log ≠ [] := by
  have h := runAll_inv o req Sent _ (fun _ _ h => h) (fun _ h => h)
    (fun s c (hc : ¬ Bypass c ∧ ValidCode o.bad c) => sent_call o h200 req s c hc.1 hc.2) s hA (.inl ⟨hs.1.2.1, hs.2⟩)
  rcases h with ⟨h1, h2⟩ | ⟨h1, hd, rest, h2, -⟩
  · rw [h1, h2]; simp
  · rw [h1, h2]; simp

/-- C30, for all codes and chains that do not bypass the context: a response that was started is always `Written()`, and `Written()`
without one means that `WriteHeader` was called with a code the writer rejects, which is `Status()`. -/
theorem C30_exact (o : Oracle) (h200 : o.bad 200 = false) (req : Req) (s : St ω) (hs : AtStartW s)
    (hA : ∀ h ∈ s.ctx.handlers, CallsIn (fun c => ¬ Bypass c) h) :
    ((runAll o req s).2.rw.log ≠ [] → (runAll o req s).2.ctx.written = true) ∧
    ((runAll o req s).2.ctx.written = true → (runAll o req s).2.rw.log = [] → o.bad (runAll o req s).2.ctx.status = true) := by
  rcases C29_exact o h200 req s hs hA with ⟨h1, h2⟩ | ⟨h1, -, h2, -⟩ | ⟨h1, h2, -⟩
  · exact ⟨fun h => absurd h2 h, fun h => by rw [h1] at h; simp at h⟩
  · exact ⟨fun _ => h1, fun _ h => by rw [h] at h2; simp [received] at h2⟩
  · exact ⟨fun _ => h1, fun _ _ => h2⟩

/-- C30, one direction for all chains with valid codes, including ones that use `File`. -/
theorem C30_sound_partial (o : Oracle) (h200 : o.bad 200 = false) (req : Req) (s : St ω) (hs : AtStartW s)
    (hA : ∀ h ∈ s.ctx.handlers, CallsIn (ValidCode o.bad) h) :
    (runAll o req s).2.ctx.written = true → (runAll o req s).2.rw.log ≠ [] :=
  runAll_inv o req (fun s => s.ctx.written = true → s.rw.log ≠ []) _ (fun _ _ h => h) (fun _ h => h)
    (fun s c hc => written_sent_call o h200 req s c hc) s hA (by rw [hs.1.2.1]; simp)

/-- a handler that serves a file with `ctx.File` -/
def fileH : Prog Unit := .file 200 id b!"content" .ret

/-- C30, as stated, fails in both directions: `File` sends a response that `Written()` does not see, and
`WriteHeader` with an invalid code leaves `Written()` true with nothing sent. -/
theorem C30_refuted :
    (∃ s : St Unit, AtStartW s ∧ (runAll chainO chainReq s).2.ctx.written = false ∧
      received (runAll chainO chainReq s).2.rw.log = some 200) ∧
    (∃ s : St Unit, AtStartW s ∧ (runAll chainO chainReq s).2.ctx.written = true ∧
      received (runAll chainO chainReq s).2.rw.log = none) := by
  refine ⟨⟨chainSt [fileH], chainSt_freshW _, by decide +kernel⟩,
    ⟨chainSt [badCodeH], chainSt_freshW _, by decide +kernel⟩⟩

/-- A consequence: after `File`, the next handlers of the chain still run, and `Recovery` sends a second
status line. -/
theorem C30_file_does_not_stop :
    starts (traceOf [fileH, idleH]) = [0, 1] ∧
    statusLines true (runAll chainO chainReq (chainSt [recovery chainO, fileH])).2.rw.log = 2 := by
  decide +kernel

/-! ### C31 -/

/-- C31, partial: what the helpers send. On a context that has not written, with a valid code, `Data` (and so `String`
and `HTMLRaw`) sends exactly one status line, with that code, then the data as body; but the headers sent are those
that were set before the call. -/
theorem C31_data_partial (o : Oracle) (req : Req) (nx : St ω → Out × St ω) (i : Nat) (s : St ω) (code : Int)
    (ctype data : Str) (hc : o.bad code = false) (hw : s.ctx.written = false) (hl : s.rw.log = []) :
    ∃ s', exec o req nx i (.data code ctype data .ret) s = (.ret, s') ∧
      s'.rw.log = [.status true code s.rw.header, .body data] ∧ s'.ctx.status = code ∧ s'.ctx.written = true := by
  simp only [Prog.data, Prog.do, exec, doCall, St.writeHeader_fresh hw, Writer.writeHeader_ok hc]
  rw [St.write_written (by rfl), Writer.write_late (by simp)]
  exact ⟨_, rfl, by simp [hl], rfl, rfl⟩

/-- C31, partial: so the client sees the Content-Type of the helper exactly if it had already been set. -/
theorem C31_content_type (o : Oracle) (req : Req) (nx : St ω → Out × St ω) (i : Nat) (s : St ω) (code : Int)
    (ctype data : Str) (hc : o.bad code = false) (hw : s.ctx.written = false) (hl : s.rw.log = []) :
    (receivedHeader (exec o req nx i (.data code ctype data .ret) s).2.rw.log).map (·.get kContentType) =
      some (s.rw.header.get kContentType) := by
  obtain ⟨s', h1, h2, -⟩ := C31_data_partial o req nx i s code ctype data hc hw hl
  rw [h1, h2]; rfl

/-- The helpers that send a body, called with a code: the media type each of them is for, and the pieces of its body. -/
inductive Helper (code : Int) : Prog ω → Str → List Str → Prop where
  | string (str : Str) : Helper code (.string code str .ret) b!"text/plain; charset=utf-8" [str]
  | data (ctype data : Str) : Helper code (.data code ctype data .ret) ctype [data]
  | htmlRaw (str : Str) : Helper code (.htmlRaw code str .ret) b!"text/html; charset=utf-8" [str]
  | json (enc : List Str) : Helper code (.json code enc .ret) b!"application/json; charset=utf-8" enc
  | xml (enc : List Str) : Helper code (.xml code enc .ret) b!"application/xml; charset=utf-8" enc
  | html : Helper code (.html code .ret) b!"text/html; charset=utf-8" []

/-- C31, partial: every helper sends one status line with its code, and its pieces as body; its media type ends up in the
header map, but the header sent is the one from before. -/
theorem C31_helpers_partial (o : Oracle) (req : Req) (nx : St ω → Out × St ω) (i : Nat) (s : St ω) {code : Int} {p : Prog ω}
    {ctype : Str} {pieces : List Str} (hp : Helper code p ctype pieces) (hc : o.bad code = false) (hw : s.ctx.written = false)
    (hl : s.rw.log = []) :
    ∃ s', exec o req nx i p s = (.ret, s') ∧
      s'.rw.log = .status true code s.rw.header :: pieces.map .body ∧
      s'.rw.header b!"Content-Type" = some [ctype] ∧ (∀ k, k ≠ b!"Content-Type" → s'.rw.header k = s.rw.header k) ∧
      s'.ctx.status = code ∧ s'.ctx.written = true := by
  have writes : ∀ (ds : List Str) (s : St ω), s.ctx.written = true → s.rw.log ≠ [] →
      ∃ s', exec o req nx i (ds.foldr (fun d k => Prog.do (.write d) k) .ret) s = (.ret, s') ∧
        s'.rw.log = s.rw.log ++ ds.map .body ∧ s'.rw.header = s.rw.header ∧ s'.ctx = s.ctx := by
    intro ds
    induction ds with
    | nil => intro s _ _; exact ⟨s, rfl, by simp, rfl, rfl⟩
    | cons d ds ih =>
      intro s hw hl
      simp only [List.foldr_cons, Prog.do, exec, doCall, St.write_written hw]
      rw [Writer.write_late hl]
      obtain ⟨s', h1, h2, h3, h4⟩ := ih { s with rw := { s.rw with log := s.rw.log ++ [.body d] } } hw (by simp)
      exact ⟨s', h1, by rw [h2]; simp, h3, h4⟩
  have key : ∀ (ctype : Str) (ds : List Str),
      ∃ s', exec o req nx i (.do (.writeHeader code) (.do (.setHeader b!"Content-Type" ctype)
          (ds.foldr (fun d k => Prog.do (.write d) k) .ret))) s = (.ret, s') ∧
        s'.rw.log = .status true code s.rw.header :: ds.map .body ∧
        s'.rw.header b!"Content-Type" = some [ctype] ∧ (∀ k, k ≠ b!"Content-Type" → s'.rw.header k = s.rw.header k) ∧
        s'.ctx.status = code ∧ s'.ctx.written = true := by
    intro ctype ds
    simp only [Prog.do, exec, doCall, St.writeHeader_fresh hw, Writer.writeHeader_ok hc]
    obtain ⟨s', h1, h2, h3, h4⟩ := writes ds
      { s with
        ctx := { s.ctx with written := true, status := code }
        rw := { header := s.rw.header.put b!"Content-Type" ctype, log := s.rw.log ++ [.status true code s.rw.header] } } rfl (by simp)
    have hck : canonKey b!"Content-Type" = b!"Content-Type" := by decide
    refine ⟨s', h1, by rw [h2]; simp [hl], ?_, ?_, by rw [h4], by rw [h4]⟩
    · rw [h3]; simp [Header.put, Map.set, hck]
    · intro k hk
      rw [h3]; simp [Header.put, Map.set, hck, hk]
  cases hp with
  | string str => exact key _ [str]
  | data ctype data => exact key _ [data]
  | htmlRaw str => exact key _ [str]
  | json => exact key _ pieces
  | xml => exact key _ pieces
  | html => exact key _ []

/-- the claim of C31 -/
def C31_claim (helper : Prog Unit) (ctype : Str) : Prop :=
  ∀ s : St Unit, s.ctx.written = false → s.rw.log = [] →
    (receivedHeader (exec chainO chainReq (runAll chainO chainReq) 0 helper s).2.rw.log).map (·.get kContentType) =
      some ctype

/-- C31 is false for every helper: on a fresh response the client gets no Content-Type at all from the helper. -/
theorem C31_refuted :
    ¬ C31_claim (.string 200 b!"hi" .ret) b!"text/plain; charset=utf-8" ∧
    ¬ C31_claim (.data 200 b!"image/png" b!"hi" .ret) b!"image/png" ∧
    ¬ C31_claim (.htmlRaw 200 b!"hi" .ret) b!"text/html; charset=utf-8" ∧
    ¬ C31_claim (.json 200 [b!"1"] .ret) b!"application/json; charset=utf-8" ∧
    ¬ C31_claim (.xml 200 [b!"1"] .ret) b!"application/xml; charset=utf-8" ∧
    ¬ C31_claim (.html 200 .ret) b!"text/html; charset=utf-8" := by
  refine ⟨?_, ?_, ?_, ?_, ?_, ?_⟩ <;>
  · intro h
    have := h (chainSt []) rfl rfl
    revert this
    decide +kernel

/-- `Stream` does send its Content-Type, since it sets the header first. -/
theorem C31_stream_ok (o : Oracle) (h200 : o.bad 200 = false) (req : Req) (nx : St ω → Out × St ω) (i : Nat) (s : St ω)
    (ctype d : Str) (ds : List Str) (hct : ctype ≠ []) (hw : s.ctx.written = false) (hl : s.rw.log = []) :
    (exec o req nx i (.stream ctype (d :: ds) .ret) s).1 = .ret ∧
    (receivedHeader (exec o req nx i (.stream ctype (d :: ds) .ret) s).2.rw.log).map (·.get kContentType) = some ctype ∧
    receivedBody (exec o req nx i (.stream ctype (d :: ds) .ret) s).2.rw.log = (d :: ds).flatten := by
  have hget : ∀ h : Header, (h.put kContentType ctype).get kContentType = ctype := by
    intro h; simp [Header.put, Header.get, Map.set]
  have hsn : ∀ h : Header, sniffed o (h.put kContentType ctype) d = h.put kContentType ctype := by
    intro h; simp [sniffed, hget, hct]
  have hrest : ∀ (ds : List Str) (s : St ω) hd bs, s.ctx.written = true → s.rw.log = .status true 200 hd :: bs →
      ∃ bs', (exec o req nx i (ds.foldr (fun d k => Prog.do (.write d) k) .ret) s).1 = .ret ∧
        (exec o req nx i (ds.foldr (fun d k => Prog.do (.write d) k) .ret) s).2.rw.log = .status true 200 hd :: bs' ∧
        receivedBody bs' = receivedBody bs ++ ds.flatten := by
    intro ds
    induction ds with
    | nil => intro s hd bs _ hl; exact ⟨bs, rfl, hl, by simp⟩
    | cons d ds ih =>
      intro s hd bs hw hl
      simp only [List.foldr_cons, Prog.do, exec, doCall, St.write_written hw]
      rw [Writer.write_late (by simp [hl])]
      obtain ⟨bs', h1, h2, h3⟩ := ih { s with rw := { s.rw with log := s.rw.log ++ [.body d] } } hd (bs ++ [.body d]) hw (by simp [hl])
      refine ⟨bs', h1, h2, ?_⟩
      have happ : ∀ a b, receivedBody (a ++ b) = receivedBody a ++ receivedBody b := by
        intro a b
        induction a with
        | nil => rfl
        | cons e es ih => cases e <;> simp [receivedBody, ih]
      rw [h3, happ]; simp [receivedBody]
  simp only [Prog.stream, List.foldr_cons, Prog.do, exec, doCall]
  rw [St.write_fresh (by exact hw) h200]
  simp only [hl, List.nil_append, hsn]
  obtain ⟨bs', h1, h2, h3⟩ := hrest ds
    { s with
      ctx := { s.ctx with written := true, status := 200 }
      rw := { header := s.rw.header.put kContentType ctype, log := [.status true 200 (s.rw.header.put kContentType ctype), .body d] } }
    (s.rw.header.put kContentType ctype) [.body d] rfl rfl
  simp only [Prog.do] at h1 h2
  rw [h1, h2]
  refine ⟨rfl, ?_, ?_⟩
  · simp [receivedHeader, hget]
  · simp only [receivedBody] at h3 ⊢; rw [h3]; simp

/-! ### C32, C33 -/

/-- What happens downstream of the first handler when it calls `Next` at once. -/
def downstream (o : Oracle) (req : Req) (s : St ω) : Out × St ω :=
  runAll o req ((s.log (.start 0)).log (.next 0)).bump

/-- C32. With `Recovery` first, no panic escapes the chain, and a response has been started through the context: if
downstream wrote nothing, with status 500 if it panicked with a value other than nil and else 200. If downstream had
started a response, no further status is sent. (The body of a crash is added unless the build is `Stable`.) -/
theorem C32_recovery_partial (o : Oracle) (h200 : o.bad 200 = false) (h500 : o.bad 500 = false) (req : Req) (s : St ω)
    (hs : AtStart s) (rest : List (Prog ω)) (hh : s.ctx.handlers = recovery o :: rest) :
    let d := downstream o req s
    let f := runAll o req s
    f.1 = .ret ∧ f.2.ctx.written = true ∧
    (d.2.ctx.written = false → f.2.ctx.status = (match d.1 with | .panic (.val _) => 500 | _ => 200) ∧
      ∃ tail, (∀ e ∈ tail, ∃ b, e = WEvent.body b) ∧
        f.2.rw.log = d.2.rw.log ++ .status true f.2.ctx.status d.2.rw.header :: tail) ∧
    (d.2.ctx.written = true → f.2.ctx.status = d.2.ctx.status ∧
      (d.2.rw.log ≠ [] → ∃ tail, (∀ e ∈ tail, ∃ b, e = WEvent.body b) ∧ f.2.rw.log = d.2.rw.log ++ tail) ∧
      (d.2.rw.log = [] → received f.2.rw.log =
        match d.1 with | .panic (.val _) => if o.stable then none else some 200 | _ => none)) := by
  intro d f
  have hnf : d.1 ≠ .fuel := 
    (runAll_drives o req _ ((s.log (.start 0)).log (.next 0)).bump rfl (by omega)).1
  have hfd : f = runAll o req s := rfl
  rw [runAll_unfold, hs.1, hh] at hfd
  simp only [List.getElem?_cons_zero] at hfd
  rcases hd : d with ⟨out, s1⟩
  have hd' : runAll o req ((s.log (.start 0)).log (.next 0)).bump = (out, s1) := hd
  rw [recovery_exec h200 h500 hd'] at hfd
  -- the state after the deferred function
  have key : ∃ (r : Option PVal) (s2 : St ω), s2.ctx = s1.ctx ∧ s2.rw = s1.rw ∧
      (r = (match out with | .panic v => some v | _ => none)) ∧
      f = (.ret, ((recovered o r s2).log (.stop 0 (recovered o r s2).ctx.written)).bump) := by
    have hw : ∀ r (s2 : St ω), ((recovered o r s2).log (.stop 0 (recovered o r s2).ctx.written)).bump.ctx.written = true :=
      fun r s2 => recovered_written o r s2
    rw [hd] at hnf
    cases out with
    | fuel => exact absurd rfl hnf
    | ret => exact ⟨none, s1.log (.back 0), rfl, rfl, rfl, by rw [hfd]; simp only [hw, if_true]⟩
    | panic v => exact ⟨some v, s1.log (.thrown 0), rfl, rfl, rfl, by rw [hfd]; simp only [hw, if_true]⟩
  obtain ⟨r, s2, e1, e2, er, ef⟩ := key
  have g1 : f.2.ctx.written = (recovered o r s2).ctx.written := by rw [ef]; rfl
  have g2 : f.2.ctx.status = (recovered o r s2).ctx.status := by rw [ef]; rfl
  have g3 : f.2.rw = (recovered o r s2).rw := by rw [ef]; rfl
  refine ⟨by rw [ef], by rw [g1]; exact recovered_written o r s2, fun hw => ?_, fun hw => ?_⟩
  · simp only at hw
    have hss : ∀ code, sendStatus s2 code = { s2 with ctx := { s2.ctx with written := true, status := code }, rw := { s2.rw with log := s2.rw.log ++ [.status true code s2.rw.header] } } := by
      intro code; simp [sendStatus, e1, hw]
    rw [g2, g3, ← e2]
    unfold recovered
    rw [er]
    rcases out with _ | ⟨_ | m⟩ | _
    · simp only [hss]; exact ⟨trivial, [], by simp, rfl⟩
    · simp only [hss]; exact ⟨trivial, [], by simp, rfl⟩
    · simp only [hss]
      split
      · exact ⟨rfl, [], by simp, rfl⟩
      · refine ⟨rfl, [.body (o.crashText (.val m))], by simp, ?_⟩
        rw [Writer.write_late (by simp)]; simp
    · simp only [hss]; exact ⟨trivial, [], by simp, rfl⟩
  · simp only at hw
    have hss : ∀ code, sendStatus s2 code = s2 := by intro code; simp [sendStatus, e1, hw]
    rw [g2, g3, ← e2, ← e1]
    unfold recovered
    rw [er]
    rcases out with _ | ⟨_ | m⟩ | _
    · simp only [hss]; exact ⟨trivial, fun _ => ⟨[], by simp, by simp⟩, fun hl => by rw [hl]; rfl⟩
    · simp only [hss]; exact ⟨trivial, fun _ => ⟨[], by simp, by simp⟩, fun hl => by rw [hl]; rfl⟩
    · simp only [hss]
      split
      · exact ⟨rfl, fun _ => ⟨[], by simp, by simp⟩, fun hl => by rw [hl]; rfl⟩
      · refine ⟨rfl, fun hl => ⟨[.body (o.crashText (.val m))], by simp, ?_⟩, fun hl => ?_⟩
        · rw [Writer.write_late (by exact hl)]
        · rw [Writer.write_first (by exact hl)]; rfl
    · simp only [hss]; exact ⟨trivial, fun _ => ⟨[], by simp, by simp⟩, fun hl => by rw [hl]; rfl⟩

/-- C32. Wherever `Recovery` stands in a chain, it never panics and never returns without a response: panics that
arise inside its call of `Next` end there (by C27 they can reach the outside only through it). -/
theorem C32_contained (o : Oracle) (h200 : o.bad 200 = false) (h500 : o.bad 500 = false) (req : Req) (s : St ω)
    (hs : AtStart s) (k : Nat) (hk : s.ctx.handlers[k]? = some (recovery o)) :
    Event.crash k ∉ (runAll o req s).2.trace ∧ Event.stop k false ∉ (runAll o req s).2.trace :=
  (run_recovery o req h200 h500 s.ctx.handlers k hk _ s ⟨rfl, by rw [hs.2.2]; simp, by rw [hs.2.2]; simp⟩).2

/-- C32, partial: if the handlers before `Recovery` do not panic themselves and call `Next` at most once, then nothing
escapes the chain, and a response has been started through the context when it ends. Missing: earlier handlers that
call `Next` repeatedly, see `C32_refuted`. -/
theorem C32_no_escape_partial (o : Oracle) (h200 : o.bad 200 = false) (h500 : o.bad 500 = false) (req : Req) (s : St ω)
    (hs : AtStart s) (pre post : List (Prog ω)) (hh : s.ctx.handlers = pre ++ recovery o :: post)
    (hp : ∀ p ∈ pre, Decent o req true p) :
    (runAll o req s).1 = .ret ∧ (runAll o req s).2.ctx.written = true :=
  run_decent o req h200 h500 pre post hp pre.length s hh (by rw [hs.1]; omega)

/-- a handler that does nothing but call `Next` -/
def OnlyNext : Prog Unit → Prop
  | .ret => True
  | .next k => OnlyNext k
  | _ => False

/-- C32, as stated, is false: an earlier handler that calls `Next` twice makes handlers downstream of `Recovery` run
outside of it; here the last handler panics, and the panic escapes. -/
theorem C32_refuted : ¬ ∀ (s : St Unit) (pre post : List (Prog Unit)), AtStartW s →
    s.ctx.handlers = pre ++ recovery chainO :: post → (∀ p ∈ pre, OnlyNext p) → (runAll chainO chainReq s).1 = .ret := by
  intro h
  have := h (chainSt [twiceH, recovery chainO, writeH, idleH, idleH, panicH]) [twiceH] [writeH, idleH, idleH, panicH]
    (chainSt_freshW _) rfl (by
      intro p hp
      simp only [List.mem_singleton] at hp
      subst hp; trivial)
  revert this
  decide +kernel

/-- chains meeting the hypotheses: a crash becomes 500, inside a handler that calls `Next` first -/
example : (∀ p ∈ [(.next .ret : Prog Unit)], Decent chainO chainReq true p) ∧
    received (runAll chainO chainReq (chainSt [.next .ret, recovery chainO, idleH, panicH])).2.rw.log = some 500 ∧
    received (runAll chainO chainReq (chainSt [.next .ret, recovery chainO, idleH, idleH])).2.rw.log = some 200 ∧
    received (runAll chainO chainReq (chainSt [recovery chainO, panicH])).2.rw.log = some 500 := by
  refine ⟨?_, by decide +kernel⟩
  intro p hp
  simp only [List.mem_singleton] at hp
  subst hp; exact ⟨rfl, trivial⟩

/-- C33, partial: if downstream of `Recovery` panics with a value other than nil before any response was sent, the client
receives 500, provided all codes used downstream are valid (whether or not handlers bypass the context). Missing:
`panic(nil)` and the panic caused by an invalid code, see `C33_refuted`. -/
theorem C33_crash_partial (o : Oracle) (h200 : o.bad 200 = false) (h500 : o.bad 500 = false) (req : Req) (s : St ω)
    (hs : AtStartW s) (rest : List (Prog ω)) (hh : s.ctx.handlers = recovery o :: rest)
    (hv : ∀ h ∈ rest, CallsIn (ValidCode o.bad) h) (msg : Str) (hd : (downstream o req s).1 = .panic (.val msg))
    (hl : (downstream o req s).2.rw.log = []) :
    received (runAll o req s).2.rw.log = some 500 := by
  have hinv := runAll_inv o req (fun s => s.ctx.written = true → s.rw.log ≠ []) (ValidCode o.bad) (fun _ _ h => h)
    (fun _ h => h) (fun s c hc => written_sent_call o h200 req s c hc) ((s.log (.start 0)).log (.next 0)).bump
    (by
      intro p hp
      have hp' : p ∈ recovery o :: rest := by rw [← hh]; exact hp
      rcases List.mem_cons.1 hp' with rfl | hp'
      · exact recovery_valid o h200 h500
      · exact hv p hp')
    (by
      intro hw
      have : s.ctx.written = true := hw
      rw [hs.1.2.1] at this; cases this)
  have hw : (downstream o req s).2.ctx.written = false := by
    cases hw : (downstream o req s).2.ctx.written with
    | false => rfl
    | true => exact absurd hl (hinv hw)
  obtain ⟨-, -, h3, -⟩ := C32_recovery_partial o h200 h500 req s hs.1 rest hh
  obtain ⟨h4, tail, -, h5⟩ := h3 hw
  rw [hd] at h4
  simp only at h4
  rw [h5, hl, h4]; rfl

/-- C33, exactly, whatever the handlers do: what the client receives when `Recovery` is first. If downstream started a response,
its status; else, if downstream did not call `WriteHeader`, 500 for a panic with a value and 200 otherwise; and else downstream called
`WriteHeader` with a code the writer rejects, and the client gets the 200 that goes with the text of the panic, or no status
from the chain at all. -/
theorem C33_exact (o : Oracle) (h200 : o.bad 200 = false) (h500 : o.bad 500 = false) (req : Req) (s : St ω)
    (hs : AtStartW s) (rest : List (Prog ω)) (hh : s.ctx.handlers = recovery o :: rest) :
    let d := downstream o req s
    let got := received (runAll o req s).2.rw.log
    (d.2.rw.log ≠ [] → ∃ c, received d.2.rw.log = some c ∧ got = some c) ∧
    (d.2.rw.log = [] → d.2.ctx.written = false → got = some (match d.1 with | .panic (.val _) => 500 | _ => 200)) ∧
    (d.2.rw.log = [] → d.2.ctx.written = true → o.bad d.2.ctx.status = true ∧
      got = match d.1 with | .panic (.val _) => if o.stable then none else some 200 | _ => none) := by
  have hinv := runAll_inv o req (Told o) (fun _ => True) (fun _ _ h => h) (fun _ h => h)
    (fun s c _ h => told_call o h200 req s c h) ((s.log (.start 0)).log (.next 0)).bump
    (fun p _ => callsIn_true p)
    ⟨fun h => absurd hs.2 h, fun hw => by
      have : s.ctx.written = true := hw
      rw [hs.1.2.1] at this; cases this⟩
  obtain ⟨-, -, h3, h4⟩ := C32_recovery_partial o h200 h500 req s hs.1 rest hh
  intro d got
  have hinv : Told o d.2 := hinv
  refine ⟨fun hl => ?_, fun hl hw => ?_, fun hl hw => ?_⟩
  · obtain ⟨c, hc⟩ := Option.isSome_iff_exists.1 (hinv.1 hl)
    refine ⟨c, hc, ?_⟩
    show received (runAll o req s).2.rw.log = some c
    cases hw : d.2.ctx.written with
    | false =>
      obtain ⟨-, tail, -, h5⟩ := h3 hw
      rw [h5, received_more (hinv.1 hl)]; exact hc
    | true =>
      obtain ⟨tail, -, h5⟩ := (h4 hw).2.1 hl
      rw [h5, received_more (hinv.1 hl)]; exact hc
  · obtain ⟨h5, tail, -, h6⟩ := h3 hw
    show received (runAll o req s).2.rw.log = _
    rw [h6, show (downstream o req s).2.rw.log = [] from hl, h5]
    rfl
  · exact ⟨hinv.2 hw hl, (h4 hw).2.2 hl⟩

/-- C33: when nothing was sent downstream, the client receives 500 exactly if downstream panicked with a value other than nil and did
not call `WriteHeader` before. -/
theorem C33_iff (o : Oracle) (h200 : o.bad 200 = false) (h500 : o.bad 500 = false) (req : Req) (s : St ω)
    (hs : AtStartW s) (rest : List (Prog ω)) (hh : s.ctx.handlers = recovery o :: rest)
    (hl : (downstream o req s).2.rw.log = []) :
    received (runAll o req s).2.rw.log = some 500 ↔
      (∃ msg, (downstream o req s).1 = .panic (.val msg)) ∧ (downstream o req s).2.ctx.written = false := by
  obtain ⟨-, h2, h3⟩ := C33_exact o h200 h500 req s hs rest hh
  cases hw : (downstream o req s).2.ctx.written with
  | false =>
    rw [h2 hl hw]
    rcases (downstream o req s).1 with _ | ⟨_ | m⟩ | _ <;> simp
  | true =>
    rw [(h3 hl hw).2]
    rcases (downstream o req s).1 with _ | ⟨_ | m⟩ | _ <;> simp

/-- the cases of `C33_exact` occur: a response was started, nothing was sent, a rejected code was given -/
example :
    received (downstream chainO chainReq (chainSt [recovery chainO, fileH])).2.rw.log = some 200 ∧
    (downstream chainO chainReq (chainSt [recovery chainO, .panic (.val b!"x")])).2.ctx.written = false ∧
    received (runAll chainO chainReq (chainSt [recovery chainO, .panic (.val b!"x")])).2.rw.log = some 500 ∧
    (downstream chainO chainReq (chainSt [recovery chainO, badCodeH])).2.ctx.written = true ∧
    received (downstream chainO chainReq (chainSt [recovery chainO, badCodeH])).2.rw.log = none := by
  decide +kernel

/-- the claim of C33 -/
def C33_claim : Prop :=
  ∀ (s : St Unit) (rest : List (Prog Unit)), AtStartW s → s.ctx.handlers = recovery chainO :: rest →
    (downstream chainO chainReq s).1.isPanic = true → (downstream chainO chainReq s).2.rw.log = [] →
    ∃ c, received (runAll chainO chainReq s).2.rw.log = some c ∧ 500 ≤ c ∧ c < 600

/-- C33, as stated, is false: under the Go version of go.mod `panic(nil)` is not noticed by `Recovery`, and the client
receives 200. -/
theorem C33_refuted : ¬ C33_claim := by
  intro h
  obtain ⟨c, h1, h2, h3⟩ := h (chainSt [recovery chainO, .panic .nil]) [.panic .nil] (chainSt_freshW _) rfl
    (by decide +kernel) (by
      have : (downstream chainO chainReq (chainSt [recovery chainO, .panic .nil])).2.rw.log.length = 0 := by decide +kernel
      exact List.eq_nil_of_length_eq_zero this)
  have e : received (runAll chainO chainReq (chainSt [recovery chainO, .panic .nil])).2.rw.log = some 200 := by
    decide +kernel
  rw [e] at h1
  injection h1 with h1
  omega

/-- C33 also fails for the panic raised by `WriteHeader` with an invalid code, since `Written()` is already true. -/
theorem C33_refuted_code : ¬ C33_claim := by
  intro h
  obtain ⟨c, h1, h2, h3⟩ := h (chainSt [recovery chainO, badCodeH]) [badCodeH] (chainSt_freshW _) rfl
    (by decide +kernel) (by
      have : (downstream chainO chainReq (chainSt [recovery chainO, badCodeH])).2.rw.log.length = 0 := by decide +kernel
      exact List.eq_nil_of_length_eq_zero this)
  have e : received (runAll chainO chainReq (chainSt [recovery chainO, badCodeH])).2.rw.log = some 200 := by
    decide +kernel
  rw [e] at h1
  injection h1 with h1
  omega

end Water
