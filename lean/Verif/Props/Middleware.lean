import Verif.Lemmas.Middleware
import Verif.Props.Response
/- C44-C47: the middlewares CORS and Logger. -/
namespace Water
open Spec Demo
variable {ω : Type}

/-! ### C44 -/

/-- C44. Whatever the configuration and the request, the CORS handler sets Access-Control-Allow-Origin to the first entry
of the list that lets the request's origin in (`*` or the origin itself), and to the empty string if there is none. It
does so before it goes on: the rest of the chain (or, for OPTIONS, the answer) sees this header map. -/
theorem C44_origin (o : Oracle) (req : Req) (nx : St ω → Out × St ω) (i : Nat) (cfg : CORSConfig) (s : St ω) :
    ∃ h v, h b!"Access-Control-Allow-Origin" = some [v] ∧ Allowed (originsOf cfg) (req.header.get b!"Origin") v ∧
      exec o req nx i (cors cfg) s =
        exec o req nx i (if req.method = b!"OPTIONS" then .do (.writeHeader 204) .ret else .next .ret) (withHeader s h) := by
  by_cases hm : req.method = b!"OPTIONS"
  · obtain ⟨v, h1, h2⟩ := (preflightH_spec cfg req s.rw.header).origin
    refine ⟨_, v, h1, h2, ?_⟩
    rw [if_pos hm]; exact cors_preflight o req nx i cfg s hm
  · obtain ⟨v, h1, h2⟩ := (simpleH_spec cfg req s.rw.header).origin
    refine ⟨_, v, h1, h2, ?_⟩
    rw [if_neg hm]; exact cors_simple o req nx i cfg s hm

/-- C44, the value. `*` is named only if it is configured; otherwise a value that is not empty is configured and is the
request's own origin. -/
theorem C44_value {origins : List Str} {origin v : Str} (h : Allowed origins origin v) :
    (v = b!"*" → b!"*" ∈ origins) ∧ (v ≠ b!"*" → v ≠ [] → v = origin ∧ v ∈ origins) ∧
    (b!"*" ∈ origins ∨ origin ∈ origins → v = b!"*" ∨ v = origin) := by
  rcases h with ⟨p, q, h1, h2, h3⟩ | ⟨h1, h2⟩
  · have hv : v ∈ origins := by rw [h1]; simp
    refine ⟨fun e => e ▸ hv, fun hn _ => ⟨h2.resolve_left hn, hv⟩, fun _ => h2⟩
  · refine ⟨?_, fun _ hn => absurd h1 hn, ?_⟩
    · rintro rfl; cases h1
    · rintro (hm | hm)
      · exact absurd (.inl rfl) (h2 _ hm)
      · exact absurd (.inr rfl) (h2 _ hm)

/-- the value is determined -/
theorem C44_unique {origins : List Str} {origin v w : Str} (h : Allowed origins origin v) (h' : Allowed origins origin w) : v = w := by
  induction origins with
  | nil =>
    rcases h with ⟨p, q, h1, _⟩ | ⟨h1, _⟩
    · simp at h1
    · rcases h' with ⟨p, q, h2, _⟩ | ⟨h2, _⟩
      · simp at h2
      · rw [h1, h2]
  | cons o os ih =>
    by_cases ho : LetsIn origin o
    · have key : ∀ x, Allowed (o :: os) origin x → x = o := by
        rintro x (⟨p, q, h1, _, h3⟩ | ⟨_, h2⟩)
        · cases p with
          | nil => simp at h1; exact h1.1.symm
          | cons a p => simp at h1; exact absurd (h1.1 ▸ ho) (h3 a (by simp))
        · exact absurd ho (h2 o (by simp))
      rw [key v h, key w h']
    · have key : ∀ x, Allowed (o :: os) origin x → Allowed os origin x := by
        rintro x (⟨p, q, h1, h2, h3⟩ | ⟨h1, h2⟩)
        · cases p with
          | nil => simp at h1; exact absurd (h1.1 ▸ h2) ho
          | cons a p =>
            simp at h1
            exact .inl ⟨p, q, h1.2, h2, fun y hy => h3 y (by simp [hy])⟩
        · exact .inr ⟨h1, fun y hy => h2 y (by simp [hy])⟩
      exact ih (key v h) (key w h')

/-- every status line handed to the writer, and the header map, name the origin -/
def OriginSent (origins : List Str) (origin : Str) (s : St ω) : Prop :=
  (∃ v, s.rw.header hAllowOrigin = some [v] ∧ Allowed origins origin v) ∧
  ∀ b code h, .status b code h ∈ s.rw.log → ∃ v, h hAllowOrigin = some [v] ∧ Allowed origins origin v

theorem originSent_header {origins : List Str} {origin : Str} {s : St ω} (h : OriginSent origins origin s) {h' : Header}
    (hk : h' hAllowOrigin = s.rw.header hAllowOrigin) : OriginSent origins origin (withHeader s h') := by
  refine ⟨?_, h.2⟩
  show ∃ v, h' hAllowOrigin = some [v] ∧ _
  rw [hk]; exact h.1

theorem originSent_writeHeader {origins : List Str} {origin : Str} {s : St ω} (o : Oracle) (code : Int)
    (h : OriginSent origins origin s) :
    (∃ v, (s.rw.writeHeader o.bad code).2.header hAllowOrigin = some [v] ∧ Allowed origins origin v) ∧
    ∀ b c h', .status b c h' ∈ (s.rw.writeHeader o.bad code).2.log → ∃ v, h' hAllowOrigin = some [v] ∧ Allowed origins origin v := by
  unfold Writer.writeHeader
  split
  · exact h
  · refine ⟨h.1, ?_⟩
    intro b c h' hm
    rcases List.mem_append.1 hm with hm | hm
    · exact h.2 b c h' hm
    · simp only [List.mem_singleton, WEvent.status.injEq] at hm
      rw [hm.2.2]; exact h.1

theorem originSent_rawWrite {origins : List Str} {origin : Str} {s : St ω} (d : Str)
    (h : OriginSent origins origin s) :
    (∃ v, (s.rw.write d).header hAllowOrigin = some [v] ∧ Allowed origins origin v) ∧
    ∀ b c h', .status b c h' ∈ (s.rw.write d).log → ∃ v, h' hAllowOrigin = some [v] ∧ Allowed origins origin v := by
  unfold Writer.write
  split
  · refine ⟨h.1, ?_⟩
    intro b c h' hm
    simp only [List.mem_cons, WEvent.status.injEq, List.not_mem_nil, or_false, reduceCtorEq] at hm
    rw [hm.2.2]; exact h.1
  · refine ⟨h.1, ?_⟩
    intro b c h' hm
    rcases List.mem_append.1 hm with hm | hm
    · exact h.2 b c h' hm
    · simp at hm

theorem originSent_ctxWriteHeader {origins : List Str} {origin : Str} {s : St ω} (o : Oracle) (code : Int)
    (h : OriginSent origins origin s) : OriginSent origins origin (s.writeHeader o code).2 := by
  unfold St.writeHeader
  split
  · exact h
  · exact originSent_writeHeader o code h

theorem originSent_write {origins : List Str} {origin : Str} {s : St ω} (o : Oracle) (d : Str)
    (h : OriginSent origins origin s) : OriginSent origins origin (s.write o d).2 := by
  unfold St.write
  split
  · exact originSent_rawWrite d h
  · have h1 : OriginSent origins origin (if d.length > 0 ∧ s.rw.header.get kContentType = [] then
        { s with rw := { s.rw with header := s.rw.header.put kContentType (o.detect d) } } else s) := by
      split
      · refine originSent_header h ?_
        rw [put_canon (by decide), set_ne _ _ (by decide)]
      · exact h
    have h2 := originSent_ctxWriteHeader o 200 h1
    simp only
    rcases hr : St.writeHeader o (if d.length > 0 ∧ s.rw.header.get kContentType = [] then
        { s with rw := { s.rw with header := s.rw.header.put kContentType (o.detect d) } } else s) 200 with ⟨p, s2⟩
    rw [hr] at h2
    cases p
    · exact originSent_rawWrite d h2
    · exact h2

theorem originSent_doCall {origins : List Str} {origin : Str} (o : Oracle) (req : Req) (s : St ω) (c : Call ω)
    (hc : Keeps hAllowOrigin c) (h : OriginSent origins origin s) : OriginSent origins origin (doCall o req s c).2 := by
  cases c with
  | writeHeader code =>
    have h1 := originSent_ctxWriteHeader o code h
    simp only [doCall]
    rcases hr : s.writeHeader o code with ⟨_ | _, s2⟩ <;> rw [hr] at h1 <;> exact h1
  | write d =>
    have h1 := originSent_write o d h
    simp only [doCall]
    rcases hr : s.write o d with ⟨_ | _, s2⟩ <;> rw [hr] at h1 <;> exact h1
  | setHeader k v =>
    refine originSent_header h ?_
    simp only [Header.put]
    exact set_ne _ _ (fun e => hc e.symm)
  | header f => exact originSent_header h (hc _)
  | rawWriteHeader code =>
    have h1 := originSent_writeHeader o code h
    simp only [doCall]
    rcases hr : s.rw.writeHeader o.bad code with ⟨_ | _, rw⟩ <;> rw [hr] at h1 <;> exact h1
  | rawWrite d => exact originSent_rawWrite d h
  | param k => simp only [doCall]; split <;> exact h
  | envSet k v => simp only [doCall]; split <;> exact h
  | envGet k => simp only [doCall]; split <;> exact h
  | readBody l => simp only [doCall]; split <;> exact h
  | parseForm =>
    simp only [doCall, St.parseForm]
    cases s.ctx.parsedParams
    · simp only [Bool.false_eq_true, if_false]
      cases (o.parse req (wantsMultipart req) s.body).fails <;> exact h
    · exact h
  | readForm f =>
    simp only [doCall, St.parseForm]
    cases s.ctx.parsedParams
    · simp only [Bool.false_eq_true, if_false]
      cases (o.parse req (wantsMultipart req) s.body).fails <;> exact h
    · exact h
  | _ => exact h

theorem originSent_runAll {origins : List Str} {origin : Str} (o : Oracle) (req : Req) (s : St ω) (j : Nat) (hj : j ≤ s.ctx.index)
    (hrest : ∀ i p, j ≤ i → s.ctx.handlers[i]? = some p → CallsIn (Keeps hAllowOrigin) p)
    (h : OriginSent origins origin s) : OriginSent origins origin (runAll o req s).2 := by
  refine (run_inv_at o req (fun s' => OriginSent origins origin s' ∧ s'.ctx.handlers = s.ctx.handlers ∧ j ≤ s'.ctx.index)
    (Keeps hAllowOrigin) ?_ ?_ ?_ ?_ _ s ⟨h, rfl, hj⟩).1
  · exact fun s' e h => h
  · exact fun s' h => ⟨h.1, h.2.1, by simp only [St.bump]; have := h.2.2; omega⟩
  · intro s' c hc h
    have f := doCall_frame o req s' c
    exact ⟨originSent_doCall o req s' c hc h.1, f.1.trans h.2.1, by rw [f.2.2.1]; exact h.2.2⟩
  · intro s' h p hp
    rw [h.2.1] at hp
    exact hrest _ p h.2.2 hp

/-- C44 for a whole chain. If the handlers after CORS leave that one header alone, every status line that is sent names
the allowed origin and nothing else. -/
theorem C44_sent (o : Oracle) (req : Req) (s : St ω) (cfg : CORSConfig)
    (hcors : s.ctx.handlers[s.ctx.index]? = some (cors cfg)) (hlog : s.rw.log = [])
    (hrest : ∀ (i : Nat) p, s.ctx.index < i → s.ctx.handlers[i]? = some p → CallsIn (Keeps b!"Access-Control-Allow-Origin") p) :
    ∀ b code h, .status b code h ∈ (runAll o req s).2.rw.log →
      ∃ v, h b!"Access-Control-Allow-Origin" = some [v] ∧ Allowed (originsOf cfg) (req.header.get b!"Origin") v := by
  suffices h : OriginSent (originsOf cfg) (req.header.get b!"Origin") (runAll o req s).2 from h.2
  rw [runAll_unfold, hcors]
  simp only
  obtain ⟨h, v, h1, h2, h3⟩ := C44_origin o req (runAll o req) s.ctx.index cfg (s.log (.start s.ctx.index))
  have hex : OriginSent (originsOf cfg) (req.header.get b!"Origin")
        (exec o req (runAll o req) s.ctx.index (cors cfg) (s.log (.start s.ctx.index))).2 ∧
      (exec o req (runAll o req) s.ctx.index (cors cfg) (s.log (.start s.ctx.index))).2.ctx.handlers = s.ctx.handlers ∧
      s.ctx.index ≤ (exec o req (runAll o req) s.ctx.index (cors cfg) (s.log (.start s.ctx.index))).2.ctx.index := by
    have h0 : OriginSent (originsOf cfg) (req.header.get b!"Origin") (withHeader (s.log (.start s.ctx.index)) h) := by
      refine ⟨⟨v, h1, h2⟩, ?_⟩
      intro b code h' hm
      have : (withHeader (s.log (.start s.ctx.index)) h).rw.log = [] := hlog
      rw [this] at hm; simp at hm
    rw [h3]
    by_cases hm : req.method = b!"OPTIONS"
    · rw [if_pos hm]
      simp only [Prog.do, exec, doCall]
      have f := St.writeHeader_frame o (withHeader (s.log (.start s.ctx.index)) h) 204
      have g := originSent_ctxWriteHeader o 204 h0
      rcases hr : St.writeHeader o (withHeader (s.log (.start s.ctx.index)) h) 204 with ⟨_ | _, s2⟩ <;> rw [hr] at f g <;>
        exact ⟨g, f.1, Nat.le_of_eq f.2.2.1.symm⟩
    · rw [if_neg hm]
      simp only [exec]
      have hd := runAll_drives o req _ ((withHeader (s.log (.start s.ctx.index)) h).log (.next s.ctx.index)).bump rfl (Nat.zero_le _)
      obtain ⟨-, hh, es, -, htr⟩ := hd
      have hle := htr.mono
      have g := originSent_runAll o req ((withHeader (s.log (.start s.ctx.index)) h).log (.next s.ctx.index)).bump (s.ctx.index + 1)
        (Nat.le_refl _) (fun i p hi hp => hrest i p hi hp) (show OriginSent _ _ _ from h0)
      rcases hr : runAll o req ((withHeader (s.log (.start s.ctx.index)) h).log (.next s.ctx.index)).bump with ⟨out, s2⟩
      rw [hr] at g hh hle
      have hle : s.ctx.index + 1 ≤ s2.ctx.index := hle
      cases out <;> exact ⟨g, hh, by simp only [St.log]; omega⟩
  rcases hr : exec o req (runAll o req) s.ctx.index (cors cfg) (s.log (.start s.ctx.index)) with ⟨out, s1⟩
  rw [hr] at hex
  obtain ⟨g1, g2, g3⟩ := hex
  simp only at g1 g2 g3
  cases out with
  | fuel => exact g1
  | panic v => exact g1
  | ret =>
    simp only
    split
    · exact g1
    · refine originSent_runAll o req _ (s.ctx.index + 1) (by simp only [St.bump, St.log]; omega) ?_ g1
      intro i p hi hp
      have : (s1.log (.stop s.ctx.index s1.ctx.written)).bump.ctx.handlers = s.ctx.handlers := g2
      rw [this] at hp
      exact hrest i p hi hp

namespace Demo

/-- two origins and credentials -/
def corsCfg : CORSConfig where
  allowOrigins := [b!"https://a.example", b!"https://b.example"]
  allowMethods := []
  allowHeaders := []
  allowCredentials := true
  exposeHeaders := [b!"X-A", b!"X-B"]
  maxAge := 60

/-- a request from an origin -/
def corsReq (method origin : Str) : Req :=
  { chainReq with method, header := (Header.put Map.empty b!"Origin" origin).put b!"Access-Control-Request-Headers" b!"x-q" }

/-- the header `k` of every status line sent -/
def sentHeader (k : Str) : List WEvent → List (Option (List Str))
  | [] => []
  | .status _ _ h :: es => h k :: sentHeader k es
  | .body _ :: es => sentHeader k es

/-- the codes of the status lines sent -/
def sentCodes : List WEvent → List Int
  | [] => []
  | .status _ c _ :: es => c :: sentCodes es
  | .body _ :: es => sentCodes es

/-- the body sent -/
def sentBody : List WEvent → Str
  | [] => []
  | .status _ _ _ :: es => sentBody es
  | .body d :: es => d ++ sentBody es

/-- what the chain of CORS and a handler sends -/
def corsLog (method origin : Str) : List WEvent :=
  (runAll chainO (corsReq method origin) (chainSt [cors corsCfg, writeH])).2.rw.log

end Demo

example : sentHeader b!"Access-Control-Allow-Origin" (corsLog b!"GET" b!"https://b.example") = [some [b!"https://b.example"]] ∧
    sentHeader b!"Access-Control-Allow-Origin" (corsLog b!"GET" b!"https://c.example") = [some [[]]] ∧
    sentCodes (corsLog b!"GET" b!"https://b.example") = [200] := by decide +kernel

example : ∀ (i : Nat) p, 0 < i → (chainSt [cors corsCfg, writeH]).ctx.handlers[i]? = some p →
    CallsIn (Keeps b!"Access-Control-Allow-Origin") p := by
  intro i p hi hp
  match i, hi with
  | 1, _ => cases hp; exact ⟨trivial, fun _ => trivial⟩
  | i + 2, _ => simp [chainSt] at hp

/-! ### C45 -/

/-- C45, preflight. Wherever CORS stands, an OPTIONS request that nobody has answered yet is answered 204 with exactly the
headers of `PreflightHeaders`, and the chain ends: no later handler starts. -/
theorem C45_preflight (o : Oracle) (req : Req) (s : St ω) (cfg : CORSConfig) (hm : req.method = b!"OPTIONS")
    (hcors : s.ctx.handlers[s.ctx.index]? = some (cors cfg)) (hw : s.ctx.written = false) (h204 : o.bad 204 = false) :
    ∃ h, PreflightHeaders cfg req s.rw.header h ∧ (runAll o req s).1 = .ret ∧
      (runAll o req s).2.rw.log = s.rw.log ++ [.status true 204 h] ∧
      (runAll o req s).2.ctx.status = 204 ∧ (runAll o req s).2.ctx.written = true ∧
      (runAll o req s).2.trace = s.trace ++ [.start s.ctx.index, .stop s.ctx.index true] ∧
      (runAll o req s).2.world = s.world ∧ (runAll o req s).2.body = s.body := by
  refine ⟨_, preflightH_spec cfg req s.rw.header, ?_⟩
  rw [runAll_unfold, hcors]
  simp only
  rw [cors_preflight o req _ _ cfg _ hm]
  have e : (withHeader (s.log (.start s.ctx.index)) (preflightH cfg req (s.log (.start s.ctx.index)).rw.header)).writeHeader o 204 =
      (false, { (withHeader (s.log (.start s.ctx.index)) (preflightH cfg req s.rw.header)) with
        ctx := { s.ctx with written := true, status := 204 },
        rw := { header := preflightH cfg req s.rw.header, log := s.rw.log ++ [.status true 204 (preflightH cfg req s.rw.header)] } }) := by
    simp [St.writeHeader, withHeader, St.log, hw, Writer.writeHeader, h204]
  simp only [Prog.do, exec, doCall, e]
  simp [St.bump, St.log, withHeader]

/-- C45, preflight in a chain that has already written: nothing is sent, and still no later handler starts. -/
theorem C45_preflight_late (o : Oracle) (req : Req) (s : St ω) (cfg : CORSConfig) (hm : req.method = b!"OPTIONS")
    (hcors : s.ctx.handlers[s.ctx.index]? = some (cors cfg)) (hw : s.ctx.written = true) :
    (runAll o req s).1 = .ret ∧ (runAll o req s).2.rw.log = s.rw.log ∧
      (runAll o req s).2.trace = s.trace ++ [.start s.ctx.index, .stop s.ctx.index true] := by
  rw [runAll_unfold, hcors]
  simp only
  rw [cors_preflight o req _ _ cfg _ hm]
  have e : (withHeader (s.log (.start s.ctx.index)) (preflightH cfg req (s.log (.start s.ctx.index)).rw.header)).writeHeader o 204 =
      (false, withHeader (s.log (.start s.ctx.index)) (preflightH cfg req s.rw.header)) := by
    simp [St.writeHeader, withHeader, St.log, hw]
  simp only [Prog.do, exec, doCall, e]
  simp [St.bump, St.log, withHeader, hw]

theorem Tr.nexts_low {n m j w es p j' w'} (h : Tr n m j w es p j' w') :
    match m with
    | .loop => ∀ k, k < j → nexts k es = 0
    | .body i => i ≤ j → ∀ k, k < i → nexts k es = 0 := by
  induction h with
  | done _ => exact fun _ _ => rfl
  | stop _ h ih =>
    intro k hk
    simp only [nexts, nexts_append, ih (Nat.le_refl _) k hk]
  | go _ h1 h2 ih1 ih2 =>
    intro k hk
    have := h1.mono
    simp only [nexts, nexts_append, ih1 (Nat.le_refl _) k hk, ih2 k (by omega)]
  | crash _ h ih =>
    intro k hk
    simp only [nexts, nexts_append, ih (Nat.le_refl _) k hk]
  | nil => exact fun _ _ _ => rfl
  | write _ ih => exact ih
  | next h1 h2 ih1 ih2 =>
    intro hi k hk
    have := h1.mono
    have hne : ¬ (_ : Nat) = k := fun e => absurd hk (by rw [← e]; exact Nat.lt_irrefl _)
    simp only [nexts, nexts_append, if_neg (show ¬ _ = k from hne), ih1 k (by omega), ih2 (by omega) k hk]
  | thrown h1 h2 ih1 ih2 =>
    intro hi k hk
    have := h1.mono
    have hne : ¬ (_ : Nat) = k := fun e => absurd hk (by rw [← e]; exact Nat.lt_irrefl _)
    simp only [nexts, nexts_append, if_neg (show ¬ _ = k from hne), ih1 k (by omega), ih2 (by omega) k hk]

/-- C45: the default configuration behaves like one in which nothing is given. -/
theorem C45_default : (cors defaultCORS : Prog ω) =
    cors { allowOrigins := [], allowMethods := [], allowHeaders := [], allowCredentials := false, exposeHeaders := [], maxAge := 0 } :=
  rfl

/-- C45, any other method. CORS completes the headers first (`SimpleHeaders`), then the rest of the chain runs once, from
the next handler on, in a state that differs in nothing but these headers, and nothing happens afterwards: the
response, the world and the outcome are those of the rest of the chain. -/
theorem C45_passes (o : Oracle) (req : Req) (s : St ω) (cfg : CORSConfig) (hm : req.method ≠ b!"OPTIONS")
    (hcors : s.ctx.handlers[s.ctx.index]? = some (cors cfg)) :
    ∃ h, SimpleHeaders cfg req s.rw.header h ∧
      let s1 := (((withHeader s h).log (.start s.ctx.index)).log (.next s.ctx.index)).bump
      (runAll o req s).1 = (runAll o req s1).1 ∧ (runAll o req s).2.rw = (runAll o req s1).2.rw ∧
      (runAll o req s).2.world = (runAll o req s1).2.world ∧ (runAll o req s).2.body = (runAll o req s1).2.body ∧
      ∃ es, (runAll o req s1).2.trace = s.trace ++ [.start s.ctx.index, .next s.ctx.index] ++ es ∧
        (runAll o req s).2.trace = (runAll o req s1).2.trace ++
          (if (runAll o req s1).1 = .ret then [.back s.ctx.index, .stop s.ctx.index (runAll o req s1).2.ctx.written]
            else [.thrown s.ctx.index, .crash s.ctx.index]) ∧
        nexts s.ctx.index es = 0 ∧ ∀ k ∈ starts es, s.ctx.index < k := by
  refine ⟨_, simpleH_spec cfg req s.rw.header, ?_⟩
  intro s1
  have hd := runAll_drives o req _ s1 rfl (Nat.zero_le _)
  obtain ⟨hf, hh, es, htr, hTr⟩ := hd
  have hlow := hTr.nexts_low
  have hinc := hTr.increasing
  have e1 : exec o req (runAll o req) s.ctx.index (cors cfg) (s.log (.start s.ctx.index)) =
      exec o req (runAll o req) s.ctx.index (.next .ret) ((withHeader s (simpleH cfg req s.rw.header)).log (.start s.ctx.index)) :=
    cors_simple o req _ _ cfg _ hm
  have hfin : (runAll o req s1).1 = .ret → (runAll o req s1).2.ctx.written = false →
      (runAll o req s1).2.ctx.handlers.length ≤ (runAll o req s1).2.ctx.index := run_finished o req _ s1
  have hstarts : ∀ k ∈ starts es, s.ctx.index < k := fun k hk => by
    have h1 := hinc.2 k hk
    exact h1.1
  have hnx : nexts s.ctx.index es = 0 := hlow _ (Nat.lt_succ_self _)
  have htr' : (runAll o req s1).2.trace = s.trace ++ [.start s.ctx.index, .next s.ctx.index] ++ es := by
    rw [htr]
    show s.trace ++ _ ++ _ ++ es = _
    simp
  rw [runAll_unfold o req s, hcors]
  simp only
  rw [e1]
  simp only [exec]
  show _ ∧ _
  have hs1 : (((withHeader s (simpleH cfg req s.rw.header)).log (.start s.ctx.index)).log (.next s.ctx.index)).bump = s1 := rfl
  rw [hs1]
  rcases hr : runAll o req s1 with ⟨out, s2⟩
  rw [hr] at hf htr' hfin hh
  cases out with
  | fuel => exact absurd rfl hf
  | panic v => exact ⟨rfl, rfl, rfl, rfl, es, htr', by simp [St.log], hnx, hstarts⟩
  | ret =>
    simp only
    split
    · exact ⟨rfl, rfl, rfl, rfl, es, htr', by simp [St.log, St.bump], hnx, hstarts⟩
    · rename_i hw
      have hw : s2.ctx.written = false := by
        simp only [St.bump, St.log] at hw; simpa using hw
      have h1 := hfin rfl hw
      have n2 : ((s2.log (.back s.ctx.index)).log (.stop s.ctx.index (s2.log (.back s.ctx.index)).ctx.written)).bump.ctx.handlers[
        ((s2.log (.back s.ctx.index)).log (.stop s.ctx.index (s2.log (.back s.ctx.index)).ctx.written)).bump.ctx.index]? = none := by
        apply List.getElem?_eq_none; simp only [St.bump, St.log]; simp only at h1; omega
      rw [runAll_unfold, n2]
      exact ⟨rfl, rfl, rfl, rfl, es, htr', by simp [St.log, St.bump], hnx, hstarts⟩

/-- a preflight request and a GET request through the same chain -/
example : sentCodes (corsLog b!"OPTIONS" b!"https://b.example") = [204] ∧ sentBody (corsLog b!"OPTIONS" b!"https://b.example") = [] ∧
    sentHeader b!"Access-Control-Allow-Methods" (corsLog b!"OPTIONS" b!"x") = [some [b!"GET,POST,PUT,PATCH,DELETE,HEAD"]] ∧
    sentHeader b!"Access-Control-Allow-Headers" (corsLog b!"OPTIONS" b!"x") = [some [b!"x-q"]] ∧
    sentHeader b!"Access-Control-Max-Age" (corsLog b!"OPTIONS" b!"x") = [some [b!"60"]] ∧
    sentHeader b!"Access-Control-Expose-Headers" (corsLog b!"GET" b!"x") = [some [b!"X-A,X-B"]] ∧
    sentBody (corsLog b!"GET" b!"x") = b!"x" := by decide +kernel

/-! ### C46 -/

/-- C46, what Logger passes on. With logging closed Logger does nothing at all. Otherwise the rest of the chain runs from the
next handler on in a state that differs at most in the request body, which is `LoggedBody`; the response, the outcome
and the body left over are those of the rest of the chain. -/
theorem C46_passes (o : Oracle) (req : Req) (s : St ω) (withBody : Bool) (emit : List Str → Int → Str → ω → ω)
    (hlog : s.ctx.handlers[s.ctx.index]? = some (logger false withBody emit)) :
    let s1 := { ((s.log (.start s.ctx.index)).log (.next s.ctx.index)).bump with body := loggedBody withBody req s.body }
    (runAll o req s).1 = (runAll o req s1).1 ∧ (runAll o req s).2.rw = (runAll o req s1).2.rw ∧
      (runAll o req s).2.body = (runAll o req s1).2.body := by
  intro s1
  obtain ⟨b, hb⟩ := logger_tail o req (emit := emit) (runAll o req) s.ctx.index (s.log (.start s.ctx.index)) withBody
  have hf := (runAll_drives o req _ s1 rfl (Nat.zero_le _)).1
  have hfin : (runAll o req s1).1 = .ret → (runAll o req s1).2.ctx.written = false →
      (runAll o req s1).2.ctx.handlers.length ≤ (runAll o req s1).2.ctx.index := run_finished o req _ s1
  rw [runAll_unfold o req s, hlog]
  simp only
  rw [hb]
  simp only [loggerTail, exec]
  have hs1 : (({ (s.log (.start s.ctx.index)) with body := loggedBody withBody req (s.log (.start s.ctx.index)).body } : St ω).log
    (.next s.ctx.index)).bump = s1 := rfl
  rw [hs1]
  rcases hr : runAll o req s1 with ⟨out, s2⟩
  rw [hr] at hf hfin
  cases out with
  | fuel => exact absurd rfl hf
  | panic v => exact ⟨rfl, rfl, rfl⟩
  | ret =>
    simp only [doCall, Prog.do, exec]
    have fin : ∀ t : St ω, t.rw = s2.rw → t.body = s2.body → t.ctx.handlers = s2.ctx.handlers → t.ctx.written = s2.ctx.written →
        t.ctx.index = s2.ctx.index + 1 →
        (if t.ctx.written = true then (Out.ret, t) else runAll o req t).1 = .ret ∧
        (if t.ctx.written = true then (Out.ret, t) else runAll o req t).2.rw = s2.rw ∧
        (if t.ctx.written = true then (Out.ret, t) else runAll o req t).2.body = s2.body := by
      intro t h1 h2 h3 h4 h5
      by_cases hw : t.ctx.written = true
      · rw [if_pos hw]; exact ⟨rfl, h1, h2⟩
      · rw [if_neg hw]
        have hl := hfin rfl (by rw [← h4]; simpa using hw)
        have n2 : t.ctx.handlers[t.ctx.index]? = none := by
          rw [h3, h5]; apply List.getElem?_eq_none; simp only at hl; omega
        rw [runAll_unfold, n2]
        exact ⟨rfl, h1, h2⟩
    exact fin _ rfl rfl rfl rfl rfl

/-- C46, in full for what is true of it. The body handed on is the body received, unless the body is logged, is declared JSON and is longer
than 1 MiB; then it is cut off after the first 1 MiB. -/
theorem C46_body_partial (withBody : Bool) (req : Req) (body : Option Str) :
    (loggedBody withBody req body = body ↔ BodyKept false withBody req body) ∧
    (loggedBody withBody req body = body ∨ ∃ d, body = some d ∧ d.length > 2 ^ 20 ∧ loggedBody withBody req body = some (d.take (2 ^ 20))) := by
  unfold loggedBody
  cases withBody with
  | false => exact ⟨⟨fun _ => .inr (.inl rfl), fun _ => rfl⟩, .inl rfl⟩
  | true =>
    by_cases hj : ∃ a b, req.header.get b!"Content-Type" = a ++ b!"application/json" ++ b
    · have hc : containsStr (req.header.get kContentType) b!"application/json" = true := (containsStr_iff (by decide)).2 hj
      simp only [hc, Bool.and_self, if_true]
      cases body with
      | none => exact ⟨⟨fun _ => .inr (.inr (.inl rfl)), fun _ => rfl⟩, .inl rfl⟩
      | some d =>
        simp only [Option.map_some, Option.some.injEq]
        have e : logLimit = 2 ^ 20 := by decide
        by_cases hd : d.length ≤ logLimit
        · rw [List.take_of_length_le hd]
          exact ⟨⟨fun _ => .inr (.inr (.inr (.inr ⟨d, rfl, e ▸ hd⟩))), fun _ => rfl⟩, .inl rfl⟩
        · have hne : d.take logLimit ≠ d := fun h => hd (by
            have := congrArg List.length h
            rw [List.length_take] at this; omega)
          refine ⟨⟨fun h => absurd h hne, ?_⟩, .inr ⟨d, rfl, by rw [← e]; omega, by rw [e]⟩⟩
          rintro (h | h | h | h | ⟨d', h, hl⟩)
          · cases h
          · cases h
          · cases h
          · exact absurd hj h
          · cases h; rw [← e] at hl; exact absurd hl hd
    · have hc : containsStr (req.header.get kContentType) b!"application/json" = false := by
        rw [Bool.eq_false_iff]; exact fun h => hj ((containsStr_iff (by decide)).1 h)
      simp only [hc, Bool.and_false, Bool.false_eq_true, if_false]
      exact ⟨⟨fun _ => .inr (.inr (.inr (.inl hj))), fun _ => trivial⟩, .inl trivial⟩

namespace Demo

/-- a JSON request -/
def jsonReq : Req := { chainReq with header := Header.put Map.empty b!"Content-Type" b!"application/json; charset=utf-8" }

/-- a handler that reads the body and answers with it -/
def echoH : Prog (List (Int × Str)) := .call (.readBody none) (fun r =>
  match r with
  | .str d => .do (.write d) .ret
  | _ => .ret)

/-- a Logger that keeps its lines in the world -/
def logH (closed : Bool) : Prog (List (Int × Str)) := logger closed true (fun _ st b w => w ++ [(st, b)])

def logSt (hs : List (Prog (List (Int × Str)))) (body : Option Str) : St (List (Int × Str)) where
  ctx := { (Ctx.new : Ctx (List (Int × Str))) with handlers := hs }
  rw := Writer.new
  body := body
  forms := []
  world := []
  trace := []

end Demo

example : sentBody (runAll chainO jsonReq (logSt [logH false, echoH] (some b!"{1}"))).2.rw.log = b!"{1}" ∧
    (runAll chainO jsonReq (logSt [logH false, echoH] (some b!"{1}"))).2.world = [(200, 10 :: b!"{1}")] := by decide +kernel

/-- C46 as stated is false: a JSON body of more than 1 MiB reaches the handlers behind Logger cut off. -/
theorem C46_refuted : ¬ ∀ (req : Req) (body : Option Str), loggedBody true req body = body := by
  intro h
  have h1 := h jsonReq (some (List.replicate (2 ^ 20 + 1) 0))
  rcases (C46_body_partial true jsonReq (some (List.replicate (2 ^ 20 + 1) 0))).1.1 h1 with h | h | h | h | ⟨d, h, hl⟩
  · cases h
  · cases h
  · cases h
  · exact h ⟨[], b!"; charset=utf-8", by decide +kernel⟩
  · cases h; rw [List.length_replicate] at hl; omega

/-! ### C47 -/

/-- handler `k` left out of a list of handlers -/
def without (k i : Nat) : Option Nat := if i = k then none else some (if k < i then i - 1 else i)

theorem starts_dropEv (k : Nat) (es : List Event) : starts (es.filterMap (dropEv k)) = (starts es).filterMap (without k) := by
  induction es with
  | nil => rfl
  | cons e es ih =>
    cases e with
    | start i =>
      by_cases h : i = k
      · simp [dropEv, starts, without, h, ih]
      · simp [dropEv, starts, without, h, ih]
    | _ i =>
      by_cases h : i = k
      · simp [dropEv, starts, h, ih]
      · simp [dropEv, starts, h, ih]

/-- C47. Take any chain `pre ++ rest` and the same chain with Logger, open or closed, between `pre` and `rest`. If the handlers of
`pre` call `Next` at most once each (and, for a closed Logger, write nothing before), do not replace the body, and do not
look at the log, and the body is short enough for Logger to keep it, then both chains end the same way, send the same
response, leave the same context, and start the same handlers in the same order; in fact the whole records of events
agree apart from Logger's own. `rest` is arbitrary. -/
theorem C47_inserted_partial (o : Oracle) (req : Req) (closed withBody : Bool) (emit : List Str → Int → Str → ω → ω) (R : ω → ω → Prop)
    (hR : ∀ w, R w w) (hem : ∀ a st b w, R w (emit a st b w)) (pre rest : List (Prog ω))
    (hpre : ∀ p ∈ pre, Once (fun c => closed = true → Unwriting c) p ∧ CallsIn (Unaware R) p)
    (s : St ω) (hs : AtStart s) (hh : s.ctx.handlers = pre ++ rest) (hb : BodyKept closed withBody req s.body) :
    let t := { s with ctx := { s.ctx with handlers := pre ++ logger closed withBody emit :: rest } }
    (runAll o req t).1 = (runAll o req s).1 ∧ (runAll o req t).2.rw = (runAll o req s).2.rw ∧
    (runAll o req t).2.body = (runAll o req s).2.body ∧
    (runAll o req t).2.ctx.written = (runAll o req s).2.ctx.written ∧
    (runAll o req t).2.ctx.status = (runAll o req s).2.ctx.status ∧
    (runAll o req t).2.ctx.environ = (runAll o req s).2.ctx.environ ∧
    R (runAll o req s).2.world (runAll o req t).2.world ∧
    starts (runAll o req s).2.trace = (starts (runAll o req t).2.trace).filterMap (without pre.length) ∧
    (runAll o req s).2.trace = (runAll o req t).2.trace.filterMap (dropEv pre.length) := by
  intro t
  have hen : Entry pre rest closed withBody emit req s t := by
    refine ⟨⟨hh, rfl, rfl, ?_⟩, rfl, by rw [hs.1]; exact Nat.zero_le _, hb, fun _ => hs.2.1⟩
    show s.trace = s.trace.filterMap _
    rw [hs.2.2]; rfl
  obtain ⟨h1, h2⟩ := insert_runAll o hpre hR hem _ s t rfl hen
  have hrel : Rel pre rest (logger closed withBody emit) R (runAll o req s).2 (runAll o req t).2 := by
    have hRE : ∀ w w' : ω, w = w' → R w w' := by rintro w _ rfl; exact hR w
    rcases h2 with g | g | g
    · exact g.1.1.mono hRE
    · exact g.1.mono hRE
    · exact g.1
  refine ⟨h1, ?_, hrel.body, hrel.written, ?_, ?_, hrel.world, ?_, hrel.trace⟩
  · rw [hrel.same]; rfl
  · rw [hrel.same]; rfl
  · rw [hrel.same]; rfl
  · rw [hrel.trace, starts_dropEv]

/-- C47 for Logger in front, as in `water.NewRouter().Before(Logger())`: nothing is asked of the other handlers. -/
theorem C47_first (o : Oracle) (req : Req) (closed withBody : Bool) (emit : List Str → Int → Str → ω → ω)
    (s : St ω) (hs : AtStart s) (hb : BodyKept closed withBody req s.body) :
    let t := { s with ctx := { s.ctx with handlers := logger closed withBody emit :: s.ctx.handlers } }
    (runAll o req t).1 = (runAll o req s).1 ∧ (runAll o req t).2.rw = (runAll o req s).2.rw ∧
    (runAll o req t).2.ctx.written = (runAll o req s).2.ctx.written ∧
    starts (runAll o req s).2.trace = (starts (runAll o req t).2.trace).filterMap (without 0) := by
  have h := C47_inserted_partial o req closed withBody emit (fun _ _ => True) (fun _ => trivial) (fun _ _ _ _ => trivial) []
    s.ctx.handlers (by simp) s hs rfl hb
  exact ⟨h.1, h.2.1, h.2.2.2.1, h.2.2.2.2.2.2.2.1⟩

namespace Demo

/-- reads a header after the rest of the chain -/
def lateH : Prog (List (Int × Str)) := .next (.do (.setHeader b!"X-T" b!"1") .ret)
/-- writes and goes on -/
def writeNextH : Prog (List (Int × Str)) := .do (.write b!"w") (.next .ret)
def sayLogH (d : Str) : Prog (List (Int × Str)) := .do (.write d) .ret
def twiceLogH : Prog (List (Int × Str)) := .next (.next .ret)

/-- the body sent and the handlers started -/
def logRun (hs : List (Prog (List (Int × Str)))) : Str × List Nat :=
  let r := (runAll chainO jsonReq (logSt hs (some b!"{1}"))).2
  (sentBody r.rw.log, starts r.trace)

end Demo

/-- the hypotheses are met by a handler that calls `Next` and then sets a header -/
example : (∀ p ∈ [lateH], Once (fun c => true = true → Unwriting c) p ∧ CallsIn (Unaware (fun _ _ => True)) p) ∧
    logRun [lateH, echoH] = (b!"{1}", [0, 1]) ∧ logRun [lateH, logH false, echoH] = (b!"{1}", [0, 1, 2]) ∧
    logRun [lateH, logH true, echoH] = (b!"{1}", [0, 1, 2]) := by
  refine ⟨?_, by decide +kernel, by decide +kernel, by decide +kernel⟩
  intro p hp
  simp only [List.mem_singleton] at hp
  subst hp
  exact ⟨fun _ => trivial, trivial, fun _ => trivial⟩

/-- C47 as stated is false behind a handler that calls `Next` twice: Logger changes which handler the second call starts. -/
theorem C47_refuted : ¬ ∀ (pre rest : List (Prog (List (Int × Str)))) (closed : Bool),
    (logRun (pre ++ rest)).1 = (logRun (pre ++ logH closed :: rest)).1 ∧
    (logRun (pre ++ rest)).2 = (logRun (pre ++ logH closed :: rest)).2.filterMap (without pre.length) := by
  intro h
  have := (h [twiceLogH] [sayLogH b!"a", sayLogH b!"b", sayLogH b!"c"] false).1
  revert this
  decide +kernel

/-- And a closed Logger behind a handler that writes before it calls `Next` ends the chain, so a handler that would have run
does not. -/
theorem C47_refuted_closed : ¬ ∀ (pre rest : List (Prog (List (Int × Str)))), (∀ p ∈ pre, Once (fun _ => True) p) →
    (logRun (pre ++ rest)).1 = (logRun (pre ++ logH true :: rest)).1 := by
  intro h
  have := h [writeNextH] [sayLogH b!"a"] (by
    intro p hp
    simp only [List.mem_singleton] at hp
    subst hp
    exact ⟨trivial, fun _ => trivial⟩)
  revert this
  decide +kernel

end Water
