import Verif.Spec.Fetch
import Verif.Props.Guarded
/- C122: what a browser makes of the answers of CORS. -/
namespace Water
open Spec Demo
variable {ω : Type}

/-! ### headers that the later handlers leave alone -/

/-- the header `key` is `x`, now and in everything sent -/
def KeySent (key : Str) (x : Option (List Str)) (s : St ω) : Prop :=
  s.rw.header key = x ∧ ∀ b code h, .status b code h ∈ s.rw.log → h key = x

theorem keySent_header {key : Str} {x : Option (List Str)} {s : St ω} (h : KeySent key x s) {h' : Header}
    (hk : h' key = s.rw.header key) : KeySent key x (withHeader s h') := ⟨hk.trans h.1, h.2⟩

theorem keySent_writeHeader {key : Str} {x : Option (List Str)} {s : St ω} (o : Oracle) (code : Int) (h : KeySent key x s) :
    (s.rw.writeHeader o.bad code).2.header key = x ∧ ∀ b c h', .status b c h' ∈ (s.rw.writeHeader o.bad code).2.log → h' key = x := by
  unfold Writer.writeHeader
  split
  · exact h
  · refine ⟨h.1, ?_⟩
    intro b c h' hm
    rcases List.mem_append.1 hm with hm | hm
    · exact h.2 b c h' hm
    · simp only [List.mem_singleton, WEvent.status.injEq] at hm
      rw [hm.2.2]; exact h.1

theorem keySent_rawWrite {key : Str} {x : Option (List Str)} {s : St ω} (d : Str) (h : KeySent key x s) :
    (s.rw.write d).header key = x ∧ ∀ b c h', .status b c h' ∈ (s.rw.write d).log → h' key = x := by
  unfold Writer.write
  split
  · refine ⟨h.1, ?_⟩
    intro b c h' hm
    simp only [List.mem_cons, WEvent.status.injEq, List.not_mem_nil, or_false, reduceCtorEq] at hm
    rw [hm.2.2]; exact h.1
  · refine ⟨h.1, ?_⟩
    intro b c h' hm
    rcases List.mem_append.1 hm with hm | hm
    · exact h.2 b c h' hm
    · simp at hm

theorem keySent_ctxWriteHeader {key : Str} {x : Option (List Str)} {s : St ω} (o : Oracle) (code : Int) (h : KeySent key x s) :
    KeySent key x (s.writeHeader o code).2 := by
  unfold St.writeHeader
  split
  · exact h
  · exact keySent_writeHeader o code h

theorem keySent_write {key : Str} {x : Option (List Str)} {s : St ω} (hct : key ≠ kContentType) (o : Oracle) (d : Str)
    (h : KeySent key x s) : KeySent key x (s.write o d).2 := by
  unfold St.write
  split
  · exact keySent_rawWrite d h
  · have h1 : KeySent key x (if d.length > 0 ∧ s.rw.header.get kContentType = [] then
        { s with rw := { s.rw with header := s.rw.header.put kContentType (o.detect d) } } else s) := by
      split
      · refine keySent_header h ?_
        rw [put_canon (by decide), set_ne _ _ hct]
      · exact h
    have h2 := keySent_ctxWriteHeader o 200 h1
    simp only
    rcases hr : St.writeHeader o (if d.length > 0 ∧ s.rw.header.get kContentType = [] then
        { s with rw := { s.rw with header := s.rw.header.put kContentType (o.detect d) } } else s) 200 with ⟨p, s2⟩
    rw [hr] at h2
    cases p
    · exact keySent_rawWrite d h2
    · exact h2

theorem keySent_doCall {key : Str} {x : Option (List Str)} (hct : key ≠ kContentType) (o : Oracle) (req : Req) (s : St ω) (c : Call ω)
    (hc : Keeps key c) (h : KeySent key x s) : KeySent key x (doCall o req s c).2 := by
  cases c with
  | writeHeader code =>
    have h1 := keySent_ctxWriteHeader o code h
    simp only [doCall]
    rcases hr : s.writeHeader o code with ⟨_ | _, s2⟩ <;> rw [hr] at h1 <;> exact h1
  | write d =>
    have h1 := keySent_write hct o d h
    simp only [doCall]
    rcases hr : s.write o d with ⟨_ | _, s2⟩ <;> rw [hr] at h1 <;> exact h1
  | setHeader k v =>
    refine keySent_header h ?_
    simp only [Header.put]
    exact set_ne _ _ (fun e => hc e.symm)
  | header f => exact keySent_header h (hc _)
  | rawWriteHeader code =>
    have h1 := keySent_writeHeader o code h
    simp only [doCall]
    rcases hr : s.rw.writeHeader o.bad code with ⟨_ | _, rw⟩ <;> rw [hr] at h1 <;> exact h1
  | rawWrite d => exact keySent_rawWrite d h
  | param k => simp only [doCall]; split <;> exact h
  | envSet k v => simp only [doCall]; split <;> exact h
  | envGet k => simp only [doCall]; split <;> exact h
  | readBody l => simp only [doCall]; split <;> exact h
  | parseForm =>
    simp only [doCall, St.parseForm]
    cases s.ctx.parsedParams
    · simp only [Bool.false_eq_true, if_false]
      cases (o.parse req (wantsMultipart req) s.body).fails <;> exact h
    · exact h
  | readForm f =>
    simp only [doCall, St.parseForm]
    cases s.ctx.parsedParams
    · simp only [Bool.false_eq_true, if_false]
      cases (o.parse req (wantsMultipart req) s.body).fails <;> exact h
    · exact h
  | _ => exact h

theorem keySent_runAll {key : Str} {x : Option (List Str)} (hct : key ≠ kContentType) (o : Oracle) (req : Req) (s : St ω)
    (hrest : ∀ (i : Nat) p, s.ctx.index ≤ i → s.ctx.handlers[i]? = some p → CallsIn (Keeps key) p) (h : KeySent key x s) :
    KeySent key x (runAll o req s).2 := by
  refine (run_inv_at o req (fun s' => KeySent key x s' ∧ s'.ctx.handlers = s.ctx.handlers ∧ s.ctx.index ≤ s'.ctx.index)
    (Keeps key) ?_ ?_ ?_ ?_ _ s ⟨h, rfl, Nat.le_refl _⟩).1
  · exact fun s' e h => h
  · exact fun s' h => ⟨h.1, h.2.1, by simp only [St.bump]; have := h.2.2; omega⟩
  · intro s' c hc h
    have f := doCall_frame o req s' c
    exact ⟨keySent_doCall hct o req s' c hc h.1, f.1.trans h.2.1, by rw [f.2.2.1]; exact h.2.2⟩
  · intro s' h p hp
    rw [h.2.1] at hp
    exact hrest _ p h.2.2 hp

/-- everything sent behind CORS has the header `key` as CORS leaves it -/
theorem cors_key {key : Str} (hct : key ≠ kContentType) (o : Oracle) (req : Req) (s : St ω) (cfg : CORSConfig)
    (hcors : s.ctx.handlers[s.ctx.index]? = some (cors cfg)) (hw : s.ctx.written = false) (hlog : s.rw.log = [])
    (hrest : ∀ (i : Nat) p, s.ctx.index < i → s.ctx.handlers[i]? = some p → CallsIn (Keeps key) p) {x : Option (List Str)}
    (hs : req.method ≠ b!"OPTIONS" → ∀ h, SimpleHeaders cfg req s.rw.header h → h key = x)
    (hp : req.method = b!"OPTIONS" → ∀ h, PreflightHeaders cfg req s.rw.header h → h key = x) :
    ∀ b code h, .status b code h ∈ (runAll o req s).2.rw.log → h key = x := by
  by_cases hm : req.method = b!"OPTIONS"
  · intro b code h hh
    cases h204 : o.bad 204 with
    | true =>
      rw [runAll_unfold, hcors] at hh
      simp only at hh
      rw [cors_preflight o req _ _ cfg _ hm] at hh
      have e : ((withHeader (s.log (.start s.ctx.index)) (preflightH cfg req (s.log (.start s.ctx.index)).rw.header)).writeHeader o 204).1 = true ∧
          ((withHeader (s.log (.start s.ctx.index)) (preflightH cfg req (s.log (.start s.ctx.index)).rw.header)).writeHeader o 204).2.rw.log = [] := by
        simp [St.writeHeader, withHeader, St.log, hw, Writer.writeHeader, h204, hlog]
      simp only [Prog.do, exec, doCall] at hh
      revert hh e
      generalize (withHeader (s.log (.start s.ctx.index)) (preflightH cfg req (s.log (.start s.ctx.index)).rw.header)).writeHeader o 204 = r
      obtain ⟨p, s2⟩ := r
      rintro ⟨rfl, e⟩ hh
      simp only at e
      simp [St.log, e] at hh
    | false =>
      obtain ⟨h', h1, -, h2, -⟩ := C45_preflight o req s cfg hm hcors hw h204
      rw [h2, hlog] at hh
      simp only [List.nil_append, List.mem_singleton, WEvent.status.injEq] at hh
      rw [hh.2.2]
      exact hp hm h' h1
  · obtain ⟨h', h1, h2⟩ := C45_passes o req s cfg hm hcors
    simp only at h2
    rw [h2.2.1]
    refine (keySent_runAll hct o req _ ?_ ⟨hs hm h' h1, ?_⟩).2
    · intro i p hi hp
      exact hrest i p (by simp only [St.bump, St.log, withHeader] at hi; omega) hp
    · intro b code h hh
      simp only [St.bump, St.log, withHeader, hlog] at hh
      cases hh

/-! ### the list of origins -/

theorem isOrigin_ne {o : Str} (h : IsOrigin o) : o ≠ [] ∧ o ≠ b!"*" := by
  rcases h with rfl | ⟨a, b, rfl⟩
  · exact ⟨by decide, by decide⟩
  · refine ⟨by simp, fun e => ?_⟩
    have := congrArg List.length e
    simp at this
    omega

/-- the browser's check of the value that CORS names -/
theorem allowed_check {origins : List Str} {origin v : Str} (ho : IsOrigin origin) (h : Allowed origins origin v) :
    (v = b!"*" ∨ v = origin ↔ origin ∈ origins ∨ b!"*" ∈ origins) ∧
    (v = origin ↔ ∃ pre post, origins = pre ++ origin :: post ∧ b!"*" ∉ pre) := by
  obtain ⟨h1, h2⟩ := isOrigin_ne ho
  rcases h with ⟨p, q, e, hv, hp⟩ | ⟨e, hn⟩
  · refine ⟨⟨fun _ => ?_, fun _ => hv⟩, ⟨fun hv => ?_, ?_⟩⟩
    · rcases hv with hv | hv
      · right; rw [e, hv]; simp
      · left; rw [e, hv]; simp
    · subst hv
      exact ⟨p, q, e, fun hm => hp _ hm (.inl rfl)⟩
    · rintro ⟨p', q', e', hp'⟩
      have hall : Allowed origins origin v := .inl ⟨p, q, e, hv, hp⟩
      -- the first entry named `origin`
      suffices ∀ (l : List Str) (p' q' : List Str), l = p' ++ origin :: q' → b!"*" ∉ p' → Allowed l origin origin from
        C44_unique hall (this _ _ _ e' hp')
      intro l p'
      induction p' generalizing l with
      | nil => rintro q' rfl -; exact .inl ⟨[], q', rfl, .inr rfl, fun _ h => nomatch h⟩
      | cons a p' ih =>
        rintro q' rfl hn
        by_cases ha : a = origin
        · subst ha
          exact .inl ⟨[], _, rfl, .inr rfl, fun _ h => nomatch h⟩
        · rcases ih _ q' rfl (fun h => hn (by simp [h])) with ⟨p, q, e, hv, hp⟩ | ⟨e, hn'⟩
          · refine .inl ⟨a :: p, q, by rw [List.cons_append, e]; rfl, hv, ?_⟩
            intro o ho
            rcases List.mem_cons.1 ho with rfl | ho
            · rintro (hx | hx)
              · exact hn (by simp [hx])
              · exact ha hx
            · exact hp o ho
          · exact absurd e h1
  · refine ⟨⟨?_, ?_⟩, ⟨?_, ?_⟩⟩
    · rintro (hv | hv)
      · rw [e] at hv; exact absurd hv (by decide)
      · exact absurd (hv.symm.trans e) h1
    · rintro (hm | hm)
      · exact absurd (.inr rfl) (hn _ hm)
      · exact absurd (.inl rfl) (hn _ hm)
    · intro hv; exact absurd (hv.symm.trans e) h1
    · rintro ⟨p, q, e', -⟩
      exact absurd (.inr rfl) (hn origin (by rw [e']; simp))

theorem fieldOf_one {h : Header} {k v : Str} (hk : h k = some [v]) : fieldOf h k = some v := by
  simp only [fieldOf, hk, join]

theorem fieldOf_none {h : Header} {k : Str} (hk : h k = none) : fieldOf h k = none := by
  simp only [fieldOf, hk]

/-- the check, from the two headers -/
theorem corsCheck_iff {cfg : CORSConfig} {origin v : Str} {cred : Bool} {h : Header} (ho : IsOrigin origin)
    (h1 : h b!"Access-Control-Allow-Origin" = some [v]) (hv : Allowed (originsOf cfg) origin v)
    (h2 : h b!"Access-Control-Allow-Credentials" = if cfg.allowCredentials then some [b!"true"] else none) :
    CorsCheck origin cred h ↔ Reads cfg origin cred := by
  obtain ⟨a1, a2⟩ := allowed_check ho hv
  have hc : fieldOf h b!"Access-Control-Allow-Credentials" = some b!"true" ↔ cfg.allowCredentials = true := by
    cases hb : cfg.allowCredentials <;> simp only [hb] at h2
    · rw [fieldOf_none (by simpa using h2)]; simp
    · rw [fieldOf_one (by simpa using h2)]; simp
  simp only [CorsCheck, fieldOf_one h1, Reads, hc, ← a1, ← a2]
  cases cred
  · simp
  · simp only [Bool.true_eq_false, false_and, false_or, if_true, forall_const]
    constructor
    · rintro ⟨w, hw, h3, h4⟩
      cases hw
      exact ⟨h4, h3⟩
    · rintro ⟨h4, h3⟩
      exact ⟨v, rfl, h3, h4⟩

/-! ### lists -/

theorem token_chars {c : UInt8} (h : TokenChar c) : c ≠ 44 ∧ c ≠ 32 ∧ c ≠ 9 := by
  refine ⟨?_, ?_, ?_⟩ <;> (rintro rfl; revert h; unfold TokenChar; decide)

theorem padded_token {p e : Str} (hp : FieldToken p) (h : Padded p e) : e = p := by
  obtain ⟨a, b, e1, h1, -⟩ := h
  have key : ∀ c ∈ a ++ b, False := by
    intro c hc
    have : c ∈ p := by
      rw [e1]
      rcases List.mem_append.1 hc with h | h <;> simp [h]
    have t := token_chars (hp.2 c this)
    rcases h1 c hc with h | h
    · exact t.2.1 h
    · exact t.2.2 h
  have ha : a = [] := by
    cases a with
    | nil => rfl
    | cons x a => exact absurd (key x (by simp)) (fun h => h)
  have hb : b = [] := by
    cases b with
    | nil => rfl
    | cons x b => exact absurd (key x (by simp)) (fun h => h)
  subst ha; subst hb
  simpa using e1.symm

theorem padded_self {p : Str} (hp : FieldToken p) : Padded p p := by
  refine ⟨[], [], by simp, (fun _ h => (nomatch h)), ?_, ?_⟩
  · intro c hc
    exact (token_chars (hp.2 c (List.mem_of_mem_head? hc))).2
  · intro c hc
    exact (token_chars (hp.2 c (List.mem_of_mem_getLast? hc))).2

theorem pieces_tokens {ps : List Str} (h : ∀ p ∈ ps, FieldToken p) {es : List Str} : Pieces ps es ↔ es = ps := by
  induction ps generalizing es with
  | nil => constructor
           · intro h; cases h; rfl
           · rintro rfl; exact .nil
  | cons p ps ih =>
    have hp := h p (by simp)
    have ih := fun {es} => ih (fun q hq => h q (by simp [hq])) (es := es)
    constructor
    · intro h
      cases h with
      | skip h1 _ => exact absurd (padded_token hp h1).symm hp.1
      | take h1 _ h2 => rw [padded_token hp h1, ih.1 h2]
    · rintro rfl
      exact .take (padded_self hp) hp (ih.2 rfl)

/-- a list of tokens is read back -/
theorem listed_tokens {ts : List Str} (hne : ts ≠ []) (h : ∀ t ∈ ts, FieldToken t) {es : List Str} : Listed (join b!"," ts) es ↔ es = ts := by
  have hc : ∀ t ∈ ts, (44 : UInt8) ∉ t := fun t ht hm => (token_chars ((h t ht).2 _ hm)).1 rfl
  constructor
  · rintro ⟨ps, h1, h2, h3, h4⟩
    have e1 := splitB_join hne hc
    have e2 := splitB_join h1 h2
    have : (b!"," : Str) = [44] := rfl
    rw [this] at h3
    rw [h3, e2] at e1
    subst e1
    exact (pieces_tokens h).1 h4
  · rintro rfl
    exact ⟨es, hne, hc, rfl, (pieces_tokens h).2 rfl⟩

theorem join_ne_nil {ts : List Str} (hne : ts ≠ []) (h : ∀ t ∈ ts, FieldToken t) : join b!"," ts ≠ [] := by
  cases ts with
  | nil => exact absurd rfl hne
  | cons t ts =>
    have := (h t (by simp)).1
    cases t with
    | nil => exact absurd rfl this
    | cons c t => cases ts <;> simp [join]

theorem methodsOf_ne (c : CORSConfig) : methodsOf c ≠ [] := by
  unfold methodsOf
  split
  · simp
  · assumption

/-! ### C122 -/

/-- the answer to a preflight request, as the browser sees it -/
theorem permitted_iff {cfg : CORSConfig} (hcfg : CleanConfig cfg) {f : Fetch} (hf : f.Ok) {req : Req} (hp : f.Preflight req)
    {h h' : Header} (hh : PreflightHeaders cfg req h h') (h1 : h b!"Access-Control-Allow-Credentials" = none)
    (h2 : h b!"Access-Control-Allow-Headers" = none) :
    f.Permitted 204 h' ↔ Reads cfg f.origin f.cred ∧ MaySend cfg f := by
  obtain ⟨v, hv1, hv2⟩ := hh.origin
  rw [hp.origin] at hv2
  have hcheck := corsCheck_iff (cred := f.cred) hf.origin hv1 hv2 (by rw [hh.credentials, h1])
  have hms : ∀ ms, ListedField h' b!"Access-Control-Allow-Methods" ms ↔ ms = methodsOf cfg := by
    intro ms
    simp only [ListedField, fieldOf_one hh.methods]
    exact listed_tokens (methodsOf_ne cfg) hcfg.1
  have hhs : (∃ hs, ListedField h' b!"Access-Control-Allow-Headers" hs ∧ f.Names hs) ↔ cfg.allowHeaders = [] ∨ f.Names cfg.allowHeaders := by
    have hd := hh.headers
    by_cases ha : cfg.allowHeaders = []
    · simp only [ha, true_or, iff_true]
      rw [ha] at hd
      by_cases hn : f.names = []
      · have : req.header.get b!"Access-Control-Request-Headers" = [] := by rw [hp.names, hn]; rfl
        rw [this, h2] at hd
        refine ⟨[], ?_, fun n hm => ?_⟩
        · have : fieldOf h' b!"Access-Control-Allow-Headers" = none := fieldOf_none (by simpa [join] using hd)
          simp only [ListedField, this]
        · rw [hn] at hm; cases hm
      · have hj := join_ne_nil hn hf.names
        rw [hp.names, if_neg (by simp [join]), if_pos hj] at hd
        refine ⟨f.names, ?_, fun n hm => .inl ⟨n, hm, rfl⟩⟩
        simp only [ListedField, fieldOf_one hd]
        exact (listed_tokens hn hf.names).2 rfl
    · rw [if_pos (join_ne_nil ha hcfg.2)] at hd
      simp only [ListedField, fieldOf_one hd, listed_tokens ha hcfg.2, ha, false_or]
      constructor
      · rintro ⟨hs, rfl, h⟩; exact h
      · intro h; exact ⟨_, rfl, h⟩
  constructor
  · rintro ⟨p1, -, ms, hs, p2, p3, p4, p5⟩
    rw [hms] at p2
    subst p2
    exact ⟨hcheck.1 p1, p4, hhs.1 ⟨hs, p3, p5⟩⟩
  · rintro ⟨p1, p4, p5⟩
    obtain ⟨hs, p3, p5⟩ := hhs.2 p5
    exact ⟨hcheck.2 p1, by decide, _, hs, (hms _).2 rfl, p3, p4, p5⟩

theorem serve_answering {rx : Regex} {o : Oracle} {e : Engine (Prog ω)} {req : Req} (hr : Routed req) {p : Prog ω} {rest : List (Prog ω)}
    (hch : answering rx e req = p :: rest) (c : Ctx ω) (rw : Writer) (body : Option Str) (w : ω) :
    ∃ s : St ω, AtStart s ∧ s.ctx.handlers = p :: rest ∧ s.rw = rw ∧
      (serve rx o e c req rw body w).rw = (runAll o req s).2.rw := by
  obtain ⟨i, hi⟩ := hr.index
  rw [serve_routed hr.ungated hi]
  simp only [answering, routeOf, hi] at hch
  have hc : chainFor e (lookup rx e i req.path).1 = some (p :: rest) := by
    cases hn : (lookup rx e i req.path).1 with
    | none => rw [hn] at hch; simp only at hch; simp [chainFor, hch]
    | some n => rw [hn] at hch; simp only at hch; simp [chainFor, hch]
  rw [serveRouted_chain hc]
  exact ⟨_, ⟨rfl, rfl, rfl⟩, rfl, rfl, rfl⟩

/-- **C122 (read).** A request from a page, answered by a chain that begins with CORS and whose other handlers leave the two headers alone.
Whatever they do, whatever the method and the status: the browser lets the page read what is sent exactly if the page's origin or `*` is
configured; with cookies, exactly if AllowCredentials is set and the origin is configured by name and no `*` stands before it. -/
theorem C122_read {rx : Regex} {o : Oracle} {e : Engine (Prog ω)} {req : Req} (hr : Routed req) {cfg : CORSConfig} {rest : List (Prog ω)}
    (hch : answering rx e req = cors cfg :: rest) (hrest : ∀ p ∈ rest, LeavesCors p) {origin : Str} (ho : IsOrigin origin)
    (hor : req.header.get b!"Origin" = origin) (cred : Bool) (c : Ctx ω) (body : Option Str) (w : ω) :
    ∀ b code h, .status b code h ∈ (serve rx o e c req Writer.new body w).rw.log → (CorsCheck origin cred h ↔ Reads cfg origin cred) := by
  obtain ⟨s, ⟨hi, hw, -⟩, hh, hrw, hs⟩ := serve_answering hr hch c Writer.new body w (o := o)
  have hcors : s.ctx.handlers[s.ctx.index]? = some (cors cfg) := by rw [hi, hh]; rfl
  have hlog : s.rw.log = [] := by rw [hrw]; rfl
  have hin : ∀ (i : Nat) p, s.ctx.index < i → s.ctx.handlers[i]? = some p → p ∈ rest := by
    intro i p hi' hp
    rw [hi] at hi'
    rw [hh] at hp
    cases i with
    | zero => omega
    | succ i => exact List.mem_of_getElem? (by simpa using hp)
  have hnone : s.rw.header b!"Access-Control-Allow-Credentials" = none := by rw [hrw]; rfl
  rw [hs]
  intro b code h hm
  obtain ⟨v, hv1, hv2⟩ := C44_sent o req s cfg hcors hlog (fun i p hi hp => (hrest p (hin i p hi hp)).1) b code h hm
  rw [hor] at hv2
  refine corsCheck_iff ho hv1 hv2 ?_
  refine cors_key (by decide) o req s cfg hcors hw hlog (fun i p hi hp => (hrest p (hin i p hi hp)).2) ?_ ?_ b code h hm
  · intro _ h' hh'; rw [hh'.credentials, hnone]
  · intro _ h' hh'; rw [hh'.credentials, hnone]

/-- **C122 (ask).** A browser that asks first, and is answered by a chain that begins with CORS: it gets one answer, and goes on exactly if
the page may read the response (as above), and the method and all headers are listed, or no headers are configured. -/
theorem C122_ask {rx : Regex} {o : Oracle} (h204 : o.bad 204 = false) {e : Engine (Prog ω)} {cfg : CORSConfig} (hcfg : CleanConfig cfg)
    {f : Fetch} (hf : f.Ok) {req : Req} (hr : Routed req) (hp : f.Preflight req) {rest : List (Prog ω)}
    (hch : answering rx e req = cors cfg :: rest) (c : Ctx ω) (body : Option Str) (w : ω) :
    ∃ h, (serve rx o e c req Writer.new body w).rw.log = [.status true 204 h] ∧
      (f.Permitted 204 h ↔ Reads cfg f.origin f.cred ∧ MaySend cfg f) := by
  obtain ⟨s, ⟨hi, hw, -⟩, hh, hrw, hs⟩ := serve_answering hr hch c Writer.new body w (o := o)
  have hcors : s.ctx.handlers[s.ctx.index]? = some (cors cfg) := by rw [hi, hh]; rfl
  obtain ⟨h, h1, -, h2, -⟩ := C45_preflight o req s cfg hp.method hcors hw h204
  refine ⟨h, ?_, permitted_iff hcfg hf hp h1 (by rw [hrw]; rfl) (by rw [hrw]; rfl)⟩
  rw [hs, h2, hrw]
  rfl

/-- **C122 (safe).** Never more than the configuration says. In particular, with cookies the page's origin is configured by name. -/
theorem C122_safe {cfg : CORSConfig} {origin : Str} {cred : Bool} (h : Reads cfg origin cred) : MayRead cfg origin cred := by
  unfold Reads at h
  unfold MayRead
  cases cred
  · exact h
  · simp only [if_true] at h ⊢
    obtain ⟨h1, p, q, h2, -⟩ := h
    exact ⟨h1, by rw [h2]; simp⟩

/-- **C122 (named, partial).** And no less, for requests without cookies, and for configurations without `*`. -/
theorem C122_named_partial {cfg : CORSConfig} {origin : Str} {cred : Bool} (hc : cred = false ∨ b!"*" ∉ originsOf cfg) :
    Reads cfg origin cred ↔ MayRead cfg origin cred := by
  refine ⟨C122_safe, fun h => ?_⟩
  unfold MayRead at h
  unfold Reads
  cases cred
  · exact h
  · simp only [if_true] at h ⊢
    obtain ⟨h1, h2⟩ := h
    obtain ⟨p, q, h3⟩ := List.append_of_mem h2
    have hn := hc.resolve_left (by simp)
    exact ⟨h1, p, q, h3, fun hm => hn (by rw [h3]; simp [hm])⟩

/-- In an application whose first `Before` handler is CORS and that has a NoFound option, CORS is the first to see every request. -/
theorem C122_first {rx : Regex} {ops : List (Op (Prog ω))} {r : Nat} {opts : List (Opt (Prog ω))} {e : Engine (Prog ω)}
    (he : app rx ops r opts = .ok e) {x : HVal (Prog ω)} {more : List (HVal (Prog ω))} (hb : beforesOf ops r = x :: more)
    {p : Prog ω} (hx : payload x = some p) {given : List (HVal (Prog ω))} (hnf : noFoundGiven opts = some given) (req : Req) :
    ∃ rest, answering rx e req = p :: rest ∧ ∀ q ∈ rest, ∃ y, payload y = some q ∧ (y ∈ more ∨ GivenTo ops opts y) := by
  obtain ⟨heap, hrun, hhan⟩ := app_ok he
  have key : ∀ (l : List (Prog ω)) (tail : List (HVal (Prog ω))), l.map some = (x :: tail).map payload →
      (∀ y ∈ tail, y ∈ more ∨ GivenTo ops opts y) →
      ∃ rest, l = p :: rest ∧ ∀ q ∈ rest, ∃ y, payload y = some q ∧ (y ∈ more ∨ GivenTo ops opts y) := by
    intro l tail hl ht
    obtain ⟨A, B, h1, h2, h3⟩ := payload_cut (pre := []) hl hx
    have : A = [] := by simpa using h2
    subst this
    refine ⟨B, h1, fun q hq => ?_⟩
    have : some q ∈ tail.map payload := by rw [← h3]; exact List.mem_map_of_mem hq
    obtain ⟨y, hy, hyq⟩ := List.mem_map.1 this
    exact ⟨y, hyq, ht y hy⟩
  cases hr : routeOf rx e req.method req.path with
  | none =>
    have hn := app_noFound he
    simp only [noFoundOf, hnf, hb, List.cons_append] at hn
    simp only [answering, hr]
    refine key _ _ hn (fun y hy => ?_)
    rcases List.mem_append.1 hy with hy | hy
    · exact .inl hy
    · exact .inr (.inr (.inr ⟨given, hnf, hy⟩))
  | some n =>
    obtain ⟨i, l, hend, -, hh, -⟩ := C17_chain hrun hhan hr
    rw [hb] at hh
    simp only [List.append_assoc, List.cons_append] at hh
    simp only [answering, hr]
    refine key _ _ hh (fun y hy => ?_)
    rcases List.mem_append.1 hy with hy | hy
    · exact .inl hy
    · rcases List.mem_append.1 hy with hy | hy
      · obtain ⟨g, -, hg⟩ := List.mem_flatMap.1 hy
        exact .inr (.inl ⟨g, hg⟩)
      · exact .inr (.inr (.inl ⟨i, hy⟩))

/-- **C122 (partial).** An application whose first `Before` handler is CORS, that has a NoFound option, and whose other handlers leave the
two headers alone. A page makes a request, for any path at all; `pre` is the request by which its browser asks. Whatever is sent as the
response, the page gets it exactly if the configuration lets the page's origin in, and, if the browser has to ask, lists the method and the
headers. Missing: other places for CORS, and a name behind `*` if cookies are sent: there the page may get less than the configuration
says, never more. -/
theorem C122_fetch_partial {rx : Regex} {o : Oracle} (h204 : o.bad 204 = false) {ops : List (Op (Prog ω))} {r : Nat}
    {opts : List (Opt (Prog ω))} {e : Engine (Prog ω)} (he : app rx ops r opts = .ok e) {cfg : CORSConfig} (hcfg : CleanConfig cfg)
    {x : HVal (Prog ω)} {more : List (HVal (Prog ω))} (hb : beforesOf ops r = x :: more) (hx : payload x = some (cors cfg))
    {given : List (HVal (Prog ω))} (hnf : noFoundGiven opts = some given)
    (hall : ∀ y p, payload y = some p → y ∈ more ∨ GivenTo ops opts y → LeavesCors p)
    {f : Fetch} (hf : f.Ok) {pre req : Req} (hpre : Routed pre) (hp : f.Preflight pre) (hr : Routed req)
    (ho : req.header.get b!"Origin" = f.origin) (c c' : Ctx ω) (body body' : Option Str) (w w' : ω) :
    ∀ b code h, .status b code h ∈ (serve rx o e c req Writer.new body w).rw.log →
      (f.Succeeds (serve rx o e c' pre Writer.new body' w').rw.log h ↔ Reads cfg f.origin f.cred ∧ (f.Asks → MaySend cfg f)) := by
  intro b code h hm
  obtain ⟨rest, h1, h2⟩ := C122_first he hb hx hnf req
  obtain ⟨rest', h3, -⟩ := C122_first he hb hx hnf pre
  have hread := C122_read hr h1 (fun p hp => by obtain ⟨y, hy, hy'⟩ := h2 p hp; exact hall y p hy hy') hf.origin ho f.cred c body w b code h hm
  obtain ⟨h', hl, hask⟩ := C122_ask h204 hcfg hf hpre hp h3 c' body' w'
  constructor
  · rintro ⟨p1, p2⟩
    refine ⟨hread.1 p2, fun ha => ?_⟩
    obtain ⟨code, h'', e1, e2⟩ := p1 ha
    rw [hl] at e1
    simp only [List.cons.injEq, WEvent.status.injEq, true_and, and_true] at e1
    obtain ⟨rfl, rfl⟩ := e1
    exact (hask.1 e2).2
  · rintro ⟨p1, p2⟩
    exact ⟨fun ha => ⟨204, h', hl, hask.2 ⟨p1, p2 ha⟩⟩, hread.2 p1⟩

/-! ### cases -/

namespace Demo

/-- two origins by name, cookies, PUT and POST, one header -/
def shopCfg : CORSConfig where
  allowOrigins := [b!"https://a.example", b!"https://b.example"]
  allowMethods := [b!"PUT", b!"POST"]
  allowHeaders := [b!"Content-Type"]
  allowCredentials := true
  exposeHeaders := []
  maxAge := 0

/-- the same with `*` in front -/
def starCfg : CORSConfig := { shopCfg with allowOrigins := [b!"*", b!"https://a.example"] }

/-- CORS given with `Before`, and a route for PUT -/
def shopOps (cfg : CORSConfig) : List (Op (Prog Unit)) :=
  [.newRouter, .before 0 [.handler (cors cfg)], .handle 0 b!"PUT" b!"/cart" [.handler writeH]]

/-- CORS given with `Use` -/
def usedOps (cfg : CORSConfig) : List (Op (Prog Unit)) :=
  [.newRouter, .use 0 [.handler (cors cfg)], .handle 0 b!"PUT" b!"/cart" [.handler writeH]]

/-- a NoFound option -/
def shopOpts : List (Opt (Prog Unit)) := [.noFound [.handler (.notFound .ret)]]

/-- a page of a.example sends JSON with cookies -/
def putJson (origin : Str) (cred : Bool) : Fetch where
  origin
  method := b!"PUT"
  names := [b!"content-type"]
  cred

/-- its request -/
def cartReq (f : Fetch) : Req := { chainReq with method := f.method, path := b!"/cart", header := Header.put Map.empty b!"Origin" f.origin }

/-- the request by which the browser asks -/
def cartPre (f : Fetch) : Req :=
  { chainReq with
    method := b!"OPTIONS", path := b!"/cart",
    header := ((Header.put Map.empty b!"Origin" f.origin).put b!"Access-Control-Request-Method" f.method).put
      b!"Access-Control-Request-Headers" (join b!"," f.names) }

/-- what is sent -/
def cartLog (ops : List (Op (Prog Unit))) (opts : List (Opt (Prog Unit))) (req : Req) : Option (List WEvent) :=
  match app rx ops 0 opts with
  | .ok e => some (serve rx chainO e Ctx.new req Writer.new none ()).rw.log
  | .error _ => none

theorem cartLog_ok {ops : List (Op (Prog Unit))} {opts : List (Opt (Prog Unit))} {e : Engine (Prog Unit)} (he : app rx ops 0 opts = .ok e)
    {req : Req} : cartLog ops opts req = some (serve rx chainO e Ctx.new req Writer.new none ()).rw.log := by
  unfold cartLog
  rw [he]

theorem app_exists {ops : List (Op (Prog Unit))} {opts : List (Opt (Prog Unit))} {req : Req} {k : Nat}
    (h : (cartLog ops opts req).map List.length = some k) : ∃ e, app rx ops 0 opts = .ok e := by
  unfold cartLog at h
  cases he : app rx ops 0 opts with
  | ok e => exact ⟨e, rfl⟩
  | error p => rw [he] at h; cases h

theorem putJson_ok {cred : Bool} : (putJson b!"https://a.example" cred).Ok := by
  refine ⟨.inr ⟨b!"https", b!"a.example", rfl⟩, ⟨by simp [putJson], ?_⟩, ?_⟩
  · show ∀ c ∈ b!"PUT", TokenChar c
    unfold TokenChar
    decide
  · intro n hn
    simp only [putJson, List.mem_singleton] at hn
    subst hn
    refine ⟨by decide, ?_⟩
    unfold TokenChar
    decide

theorem shopCfg_clean : CleanConfig shopCfg := by
  refine ⟨?_, ?_⟩ <;> unfold FieldToken TokenChar <;> decide

theorem cartPre_ok {cred : Bool} : (putJson b!"https://a.example" cred).Preflight (cartPre (putJson b!"https://a.example" cred)) :=
  ⟨rfl, by cases cred <;> decide +kernel, by cases cred <;> decide +kernel, by cases cred <;> decide +kernel⟩

theorem cartPre_routed {f : Fetch} : Routed (cartPre f) :=
  ⟨.inr ⟨rfl, Int.le_refl 1⟩, by simp [cartPre, chainReq], by simp [cartPre]⟩
theorem cartReq_routed {origin : Str} {cred : Bool} : Routed (cartReq (putJson origin cred)) :=
  ⟨.inr ⟨rfl, Int.le_refl 1⟩, by simp [cartReq, chainReq], by simp [cartReq, putJson]⟩

theorem leaves_write : LeavesCors writeH := ⟨⟨trivial, fun _ => trivial⟩, ⟨trivial, fun _ => trivial⟩⟩
theorem leaves_notFound : LeavesCors (.notFound .ret : Prog Unit) := ⟨⟨trivial, fun _ => trivial⟩, ⟨trivial, fun _ => trivial⟩⟩

theorem shop_handlers {cfg : CORSConfig} {ops : List (Op (Prog Unit))} (h : ops = shopOps cfg ∨ ops = usedOps cfg) {i : Nat}
    {y : HVal (Prog Unit)} (hy : y ∈ handlersOf ops i) : y = .handler writeH := by
  rcases h with rfl | rfl <;>
  · match i with
    | 0 => cases hy
    | 1 => exact List.mem_singleton.1 hy
    | i + 2 => cases hy

theorem shop_leaves {cfg : CORSConfig} {y : HVal (Prog Unit)} {p : Prog Unit} (hy : payload y = some p)
    (h : y ∈ ([] : List (HVal (Prog Unit))) ∨ GivenTo (shopOps cfg) shopOpts y) : LeavesCors p := by
  rcases h with h | ⟨g, h⟩ | ⟨i, h⟩ | ⟨hs, h1, h⟩
  · cases h
  · simp [usesOf, usesBy, shopOps] at h
  · rw [shop_handlers (.inl rfl) h] at hy
    cases hy
    exact leaves_write
  · simp [noFoundGiven, shopOpts] at h1
    subst h1
    simp at h
    subst h
    cases hy
    exact leaves_notFound

/-- the header `k` of the one answer -/
def cartHeader (ops : List (Op (Prog Unit))) (opts : List (Opt (Prog Unit))) (req : Req) (k : Str) :
    Option (List Int × List (Option (List Str))) :=
  (cartLog ops opts req).map (fun l => (sentCodes l, sentHeader k l))

end Demo

/-- what is sent: the page of a.example is named, the one of c.example is not; the browser that asks is told the methods -/
example :
    cartHeader (shopOps shopCfg) shopOpts (cartReq (putJson b!"https://a.example" true)) b!"Access-Control-Allow-Origin" =
      some ([200], [some [b!"https://a.example"]]) ∧
    cartHeader (shopOps shopCfg) shopOpts (cartReq (putJson b!"https://c.example" true)) b!"Access-Control-Allow-Origin" =
      some ([200], [some [[]]]) ∧
    cartHeader (shopOps shopCfg) shopOpts (cartPre (putJson b!"https://a.example" true)) b!"Access-Control-Allow-Methods" =
      some ([204], [some [b!"PUT,POST"]]) ∧
    cartHeader (shopOps shopCfg) shopOpts (cartPre (putJson b!"https://a.example" true)) b!"Access-Control-Allow-Headers" =
      some ([204], [some [b!"Content-Type"]]) := by
  refine ⟨?_, ?_, ?_, ?_⟩ <;> decide +kernel

/-- without the NoFound option, or with `Use`, the browser that asks is told nothing: there is no route for OPTIONS -/
example :
    cartHeader (shopOps shopCfg) [] (cartPre (putJson b!"https://a.example" true)) b!"Access-Control-Allow-Origin" = some ([404], [none]) ∧
    cartHeader (usedOps shopCfg) [] (cartPre (putJson b!"https://a.example" true)) b!"Access-Control-Allow-Origin" = some ([404], [none]) ∧
    cartHeader (usedOps shopCfg) shopOpts (cartPre (putJson b!"https://a.example" true)) b!"Access-Control-Allow-Origin" =
      some ([404], [none]) := by
  refine ⟨?_, ?_, ?_⟩ <;> decide +kernel

/-- the hypotheses of `C122_fetch_partial`, and what it says: the page gets its response -/
example : ∃ e, app rx (shopOps shopCfg) 0 shopOpts = .ok e ∧
    ∀ b code h, .status b code h ∈ (serve rx chainO e Ctx.new (cartReq (putJson b!"https://a.example" true)) Writer.new none ()).rw.log →
      (putJson b!"https://a.example" true).Succeeds
        (serve rx chainO e Ctx.new (cartPre (putJson b!"https://a.example" true)) Writer.new none ()).rw.log h := by
  obtain ⟨e, he⟩ := app_exists (ops := shopOps shopCfg) (opts := shopOpts) (req := cartPre (putJson b!"https://a.example" true)) (k := 1)
    (by decide +kernel)
  refine ⟨e, he, fun b code h hm => ?_⟩
  refine (C122_fetch_partial (by decide) he shopCfg_clean (x := .handler (cors shopCfg)) (more := []) rfl rfl (given := [.handler (.notFound .ret)])
    rfl (fun y p hy h => shop_leaves hy h) putJson_ok cartPre_routed cartPre_ok cartReq_routed (by decide +kernel) _ _ _ _ _ _ b code h hm).2 ?_
  refine ⟨?_, fun _ => ⟨.inl ?_, .inr ?_⟩⟩
  · exact ⟨rfl, [], [b!"https://b.example"], rfl, by simp⟩
  · show b!"PUT" ∈ methodsOf shopCfg
    decide
  · intro n hn
    simp only [putJson, List.mem_singleton] at hn
    subst hn
    exact .inl ⟨b!"Content-Type", by simp [shopCfg], by unfold EqualFold; decide⟩

/-- the claim: wherever CORS is given to the root, a page gets the response of an endpoint exactly if the configuration says so -/
def C122_claim : Prop :=
  ∀ (rx : Regex) (o : Oracle) (ops : List (Op (Prog Unit))) (e : Engine (Prog Unit)) (cfg : CORSConfig) (x : HVal (Prog Unit))
    (more : List (HVal (Prog Unit))) (f : Fetch) (pre req : Req), o.bad 204 = false → app rx ops 0 [] = .ok e → CleanConfig cfg →
    beforesOf ops 0 ++ usesOf ops 0 = x :: more → payload x = some (cors cfg) →
    (∀ y p, payload y = some p → (y ∈ more ∨ (∃ g, g ≠ 0 ∧ y ∈ usesOf ops g) ∨ ∃ i, y ∈ handlersOf ops i) → LeavesCors p) →
    f.Ok → Routed pre → f.Preflight pre → Routed req → req.method = f.method → req.header.get b!"Origin" = f.origin → pre.path = req.path →
    routeOf rx e req.method req.path ≠ none →
    ∀ b code h, .status b code h ∈ (serve rx o e Ctx.new req Writer.new none ()).rw.log →
      (f.Succeeds (serve rx o e Ctx.new pre Writer.new none ()).rw.log h ↔ MayRead cfg f.origin f.cred ∧ (f.Asks → MaySend cfg f))

theorem used_leaves {cfg : CORSConfig} {ops : List (Op (Prog Unit))} (h : ops = shopOps cfg ∨ ops = usedOps cfg) {y : HVal (Prog Unit)}
    {p : Prog Unit} (hy : payload y = some p)
    (hm : y ∈ ([] : List (HVal (Prog Unit))) ∨ (∃ g, g ≠ 0 ∧ y ∈ usesOf ops g) ∨ ∃ i, y ∈ handlersOf ops i) : LeavesCors p := by
  rcases hm with hm | ⟨g, hg, hm⟩ | ⟨i, hm⟩
  · cases hm
  · have hg' : ¬ 0 = g := fun e => hg e.symm
    rcases h with rfl | rfl <;> simp [usesOf, usesBy, shopOps, usedOps, hg'] at hm
  · rw [shop_handlers h hm] at hy
    cases hy
    exact leaves_write

theorem sent_exists {l : List WEvent} {c : Int} (h : sentCodes l = [c]) : ∃ b h', .status b c h' ∈ l := by
  induction l with
  | nil => cases h
  | cons x l ih =>
    cases x with
    | body d =>
      obtain ⟨b, h', hm⟩ := ih h
      exact ⟨b, h', List.mem_cons_of_mem _ hm⟩
    | status b c' h' =>
      simp only [sentCodes, List.cons.injEq] at h
      rw [h.1]
      exact ⟨b, h', List.mem_cons_self⟩

/-- what is sent has this one status -/
theorem cart_sent {ops : List (Op (Prog Unit))} {opts : List (Opt (Prog Unit))} {e : Engine (Prog Unit)} (he : app rx ops 0 opts = .ok e)
    {req : Req} {c : Int} (h : (cartLog ops opts req).map sentCodes = some [c]) :
    sentCodes (serve rx chainO e Ctx.new req Writer.new none ()).rw.log = [c] := by
  rw [cartLog_ok he] at h
  exact Option.some.inj h

namespace Demo

/-- there is a route for the request -/
def cartRoute (ops : List (Op (Prog Unit))) (req : Req) : Bool :=
  match app rx ops 0 [] with
  | .ok e => (routeOf rx e req.method req.path).isSome
  | .error _ => false

/-- CORS with `*` in front of a name, given with `Before`, and a route for GET -/
def starOps : List (Op (Prog Unit)) :=
  [.newRouter, .before 0 [.handler (cors starCfg)], .handle 0 b!"GET" b!"/cart" [.handler writeH]]

/-- a page of a.example reads with cookies -/
def readCart : Fetch where
  origin := b!"https://a.example"
  method := b!"GET"
  names := []
  cred := true

end Demo

theorem cart_route {ops : List (Op (Prog Unit))} {e : Engine (Prog Unit)} (he : app rx ops 0 [] = .ok e) {req : Req}
    (h : cartRoute ops req = true) : routeOf rx e req.method req.path ≠ none := by
  unfold cartRoute at h
  rw [he] at h
  intro hn
  simp only [hn] at h
  cases h

/-- C122, as stated, is false: with `Use`, the request by which a browser asks finds no route, and a page that is configured for PUT cannot
send it. -/
theorem C122_refuted : ¬ C122_claim := by
  intro h
  obtain ⟨e, he⟩ := app_exists (ops := usedOps shopCfg) (opts := []) (req := cartPre (putJson b!"https://a.example" true)) (k := 1)
    (by decide +kernel)
  have hpre := cart_sent he (req := cartPre (putJson b!"https://a.example" true)) (c := 404) (by decide +kernel)
  obtain ⟨b, h', hm⟩ := sent_exists (cart_sent he (req := cartReq (putJson b!"https://a.example" true)) (c := 200) (by decide +kernel))
  have := (h rx chainO _ e shopCfg (.handler (cors shopCfg)) [] (putJson b!"https://a.example" true) _ _ (by decide) he shopCfg_clean rfl rfl
    (fun y p hy hm => used_leaves (.inr rfl) hy hm) putJson_ok cartPre_routed cartPre_ok cartReq_routed rfl (by decide +kernel) rfl
    (cart_route he (by decide +kernel)) b 200 h' hm).2 ?_
  · obtain ⟨code, h2, h3, h4⟩ := this.1 (.inl (by decide))
    rw [h3] at hpre
    simp only [sentCodes, List.cons.injEq, and_true] at hpre
    have := h4.code
    omega
  · refine ⟨?_, fun _ => ⟨.inl ?_, .inr ?_⟩⟩
    · exact ⟨rfl, by simp [originsOf, shopCfg, putJson]⟩
    · show b!"PUT" ∈ methodsOf shopCfg
      decide
    · intro n hn
      simp only [putJson, List.mem_singleton] at hn
      subst hn
      exact .inl ⟨b!"Content-Type", by simp [shopCfg], by unfold EqualFold; decide⟩

/-- Also with `Before`, and when the browser does not ask: a page whose origin is configured by name, but behind `*`, does not get what it
asks for with cookies. -/
theorem C122_refuted_star : ¬ C122_claim := by
  intro h
  obtain ⟨e, he⟩ := app_exists (ops := starOps) (opts := []) (req := cartPre readCart) (k := 1) (by decide +kernel)
  obtain ⟨b, h', hm⟩ := sent_exists (cart_sent he (req := cartReq readCart) (c := 200) (by decide +kernel))
  have hr : Routed (cartReq readCart) := ⟨.inr ⟨rfl, Int.le_refl 1⟩, by simp [cartReq, chainReq], by simp [cartReq, readCart]⟩
  have hor : IsOrigin readCart.origin := .inr ⟨b!"https", b!"a.example", rfl⟩
  have hcart := cart_route he (req := cartReq readCart) (by decide +kernel)
  have hleave : ∀ y p, payload y = some p → (y ∈ ([] : List (HVal (Prog Unit))) ∨ (∃ g, g ≠ 0 ∧ y ∈ usesOf starOps g) ∨
      ∃ i, y ∈ handlersOf starOps i) → LeavesCors p := by
    intro y p hy hm
    rcases hm with hm | ⟨g, hg, hm⟩ | ⟨i, hm⟩
    · cases hm
    · simp [usesOf, usesBy, starOps] at hm
    · have : y = .handler writeH := by
        match i with
        | 0 => cases hm
        | 1 => exact List.mem_singleton.1 hm
        | i + 2 => cases hm
      rw [this] at hy
      cases hy
      exact leaves_write
  have := (h rx chainO _ e starCfg (.handler (cors starCfg)) [] readCart (cartPre readCart) (cartReq readCart) (by decide) he shopCfg_clean
    rfl rfl hleave ⟨hor, ⟨by decide, ?_⟩, (fun n hn => (nomatch hn))⟩ cartPre_routed
    ⟨rfl, by decide +kernel, by decide +kernel, by decide +kernel⟩ hr rfl (by decide +kernel) rfl hcart b 200 h' hm).2 ?_
  · obtain ⟨heap, hrun, hhan⟩ := app_ok he
    cases hn : routeOf rx e (cartReq readCart).method (cartReq readCart).path with
    | none => exact hcart hn
    | some n =>
      obtain ⟨i, l, -, -, hh, -⟩ := C17_chain hrun hhan hn
      have hb : beforesOf starOps 0 = [.handler (cors starCfg)] := rfl
      rw [hb] at hh
      simp only [List.append_assoc, List.cons_append, List.nil_append] at hh
      obtain ⟨A, B, h1, h2, h3⟩ := payload_cut (pre := []) (x := .handler (cors starCfg)) (a := cors starCfg) hh rfl
      have hA : A = [] := by simpa using h2
      subst hA
      have hrest : ∀ p ∈ B, LeavesCors p := by
        intro p hp
        have : some p ∈ (l.flatMap (usesOf starOps) ++ handlersOf starOps i).map payload := by
          rw [← h3]
          exact List.mem_map_of_mem hp
        obtain ⟨y, hy, hyp⟩ := List.mem_map.1 this
        refine hleave y p hyp ?_
        rcases List.mem_append.1 hy with hy | hy
        · obtain ⟨g, -, hg⟩ := List.mem_flatMap.1 hy
          simp [usesOf, usesBy, starOps] at hg
        · exact .inr (.inr ⟨i, hy⟩)
      have hread := (C122_read hr (by simp only [answering, hn]; exact h1) hrest hor (by decide +kernel) true Ctx.new none () b 200 h' hm).1 this.2
      obtain ⟨-, p, q, e1, e2⟩ := hread
      cases p with
      | nil => simp [originsOf, starCfg, readCart] at e1
      | cons a p =>
        simp [originsOf, starCfg] at e1
        exact e2 (by rw [← e1.1]; simp)
  · show ∀ c ∈ b!"GET", TokenChar c
    unfold TokenChar
    decide
  · refine ⟨⟨rfl, by simp [originsOf, starCfg, readCart]⟩, fun ha => ?_⟩
    rcases ha with ha | ha
    · exact absurd (by decide) ha
    · exact absurd rfl ha

end Water
