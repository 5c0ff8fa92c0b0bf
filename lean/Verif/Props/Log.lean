import Verif.Model.Log
import Verif.Spec.Log
import Verif.Props.Classic
import Verif.Props.Values
/- C95: access log lines can be read back. -/
namespace Water
open Spec
variable {ω : Type}

theorem cutAt_spec {c : UInt8} {a : Str} (b : Str) (h : c ∉ a) : cutAt c (a ++ c :: b) = (a, b) := by
  unfold cutAt
  have hp : ∀ x ∈ a, (x != c) = true := fun x hx => by
    simp only [bne_iff_ne, ne_eq]
    rintro rfl
    exact h hx
  rw [List.takeWhile_append_of_pos hp, List.dropWhile_append_of_pos hp]
  simp

theorem noLead_blanks (n : Nat) {s : Str} (h : s.head? ≠ some 32) : noLead (List.replicate n 32 ++ s) = s := by
  unfold noLead
  rw [List.dropWhile_append_of_pos (fun x hx => by rw [(List.mem_replicate.1 hx).2]; rfl)]
  cases s with
  | nil => rfl
  | cons x xs =>
    rw [List.dropWhile_cons_of_neg]
    simp only [List.head?_cons, ne_eq, Option.some.injEq] at h
    simpa using h

theorem noTrail_blank (s : Str) : noTrail (s ++ [32]) = s := by
  simp [noTrail]

/-- a padded field -/
theorem field_read {n : Nat} {s : Str} (h : s.head? ≠ some 32) :
    noTrail (noLead ([32] ++ (List.replicate n 32 ++ s) ++ [32])) = s := by
  have : [32] ++ (List.replicate n 32 ++ s) ++ [32] = List.replicate (n + 1) 32 ++ (s ++ [32]) := by
    rw [List.replicate_succ]
    simp
  rw [this]
  cases s with
  | nil =>
    have h2 : List.replicate (n + 1) (32 : UInt8) ++ ([] ++ [32]) = List.replicate (n + 2) 32 ++ [] := by
      simp [← List.replicate_succ']
    rw [h2, noLead_blanks _ (by simp)]
    rfl
  | cons x xs =>
    rw [noLead_blanks _ (by simpa using h)]
    exact noTrail_blank _

theorem itoa_not {c : UInt8} (h1 : c ≠ 45) (h2 : ¬ IsDigit c) (i : Int) : c ∉ itoa i := by
  unfold itoa
  split
  · intro hm
    rcases List.mem_cons.1 hm with hm | hm
    · exact h1 hm
    · exact h2 ((itoaNat_spec _).1.2 _ hm)
  · intro hm
    exact h2 ((itoaNat_spec _).1.2 _ hm)

theorem colour_not {c : UInt8} (h : c = 32 ∨ c = 124) (st : Int) : c ∉ colorForStatus st := by
  unfold colorForStatus
  rcases h with rfl | rfl <;> repeat' split
  all_goals decide

theorem head_of_not {c : UInt8} {s : Str} (h : c ∉ s) : s.head? ≠ some c := by
  intro he
  exact h (List.mem_of_head? he)

theorem status_not (color : Bool) (st : Int) : 124 ∉ logStatus color st := by
  have h1 : 124 ∉ itoa st := itoa_not (by decide) (by decide) st
  have h2 := colour_not (c := 124) (.inr rfl) st
  unfold logStatus padLeft
  split
  · simp only [List.mem_append, not_or]
    exact ⟨⟨⟨⟨h2, by decide⟩, fun hm => absurd (List.mem_replicate.1 hm).2 (by decide), h1⟩, by decide⟩, by decide⟩
  · simp only [List.mem_append, not_or]
    exact ⟨⟨by decide, fun hm => absurd (List.mem_replicate.1 hm).2 (by decide), h1⟩, by decide⟩

theorem status_read (color : Bool) (st : Int) : (cutAt 32 (noLead (cutAt 32 (logStatus color st)).2)).1 = itoa st := by
  have h1 : 32 ∉ itoa st := itoa_not (by decide) (by decide) st
  have h2 := colour_not (c := 32) (.inl rfl) st
  have key : ∀ (a rest : Str), 32 ∉ a →
      (cutAt 32 (noLead (cutAt 32 (a ++ b!" " ++ padLeft 3 (itoa st) ++ b!" " ++ rest)).2)).1 = itoa st := by
    intro a rest ha
    have e : a ++ b!" " ++ padLeft 3 (itoa st) ++ b!" " ++ rest =
        a ++ 32 :: (List.replicate (3 - (itoa st).length) 32 ++ (itoa st ++ 32 :: rest)) := by
      simp [padLeft]
    rw [e, cutAt_spec _ ha]
    simp only []
    rw [noLead_blanks _ ?_, cutAt_spec _ h1]
    cases hi : itoa st with
    | nil =>
      have := itoa_signed st
      rw [hi] at this
      cases this with
      | plain h => exact absurd rfl h.1
    | cons x xs =>
      rw [hi] at h1
      simp only [List.cons_append, List.head?_cons, ne_eq, Option.some.injEq]
      rintro rfl
      exact h1 List.mem_cons_self
  unfold logStatus
  split
  · exact key _ _ h2
  · have := key [] [] (by simp)
    simpa using this

/-! ### reading a line back -/

/-- the fields a line can carry: nothing in them looks like the layout -/
structure Plain (trace ip method : Str) (t : LogTimes) : Prop where
  trace : 93 ∉ trace
  start : 124 ∉ t.start
  used : 124 ∉ t.used ∧ t.used.head? ≠ some 32
  ip : 124 ∉ ip ∧ ip.head? ≠ some 32
  method : method ≠ [] ∧ 32 ∉ method

/-- C95, partial: a line is read back to exactly what was logged, whatever the URL, the body and the status are, coloured or
not. Missing: fields that contain the brackets and bars of the layout (`C95_refuted`) and the end of the URL
(`C95_refuted_body`). -/
theorem C95_read_partial (color : Bool) {trace ip method : Str} {t : LogTimes} (h : Plain trace ip method t) (url body : Str) (st : Int) :
    ∃ status, Signed status st ∧ readEntry (accessText color trace ip method url t st body) =
      { trace, start := t.start, status, used := t.used, ip, method, url := url ++ body } := by
  refine ⟨itoa st, itoa_signed st, ?_⟩
  have hpad : ∀ {w : Nat} {s : Str}, 124 ∉ s → 124 ∉ b!" " ++ padRunes w s ++ b!" " := by
    intro w s hs
    simp only [padRunes, List.mem_append, not_or]
    exact ⟨⟨by decide, fun hm => absurd (List.mem_replicate.1 hm).2 (by decide), hs⟩, by decide⟩
  have e : accessText color trace ip method url t st body =
      b!"[ water " ++ 58 :: ((b!" " ++ trace ++ b!" ") ++ 93 :: ((b!" " ++ t.start ++ b!" ") ++ 124 :: (logStatus color st ++ 124 ::
        ((b!" " ++ padRunes 13 t.used ++ b!" ") ++ 124 :: ((b!" " ++ padRunes 16 ip ++ b!" ") ++ 124 ::
          (List.replicate (7 - runeCount method + 1) 32 ++ (method ++ 32 :: (url ++ body)))))))) := by
    simp [accessText, logPrefix, padRunes, List.replicate_succ]
  have m1 : (method ++ 32 :: (url ++ body)).head? ≠ some 32 := by
    cases hm : method with
    | nil => exact absurd hm h.method.1
    | cons x xs =>
      simp only [List.cons_append, List.head?_cons, ne_eq, Option.some.injEq]
      rintro rfl
      exact h.method.2 (by rw [hm]; exact List.mem_cons_self)
  have t1 : 93 ∉ b!" " ++ trace ++ b!" " := by
    simp only [List.mem_append, not_or]
    exact ⟨⟨by decide, h.trace⟩, by decide⟩
  have t2 : 124 ∉ b!" " ++ t.start ++ b!" " := by
    simp only [List.mem_append, not_or]
    exact ⟨⟨by decide, h.start⟩, by decide⟩
  rw [e]
  unfold readEntry
  rw [cutAt_spec _ (by decide)]
  simp only []
  rw [cutAt_spec _ t1]
  simp only []
  rw [cutAt_spec _ t2]
  simp only []
  rw [cutAt_spec _ (status_not color st)]
  simp only []
  rw [cutAt_spec _ (hpad h.used.1)]
  simp only []
  rw [cutAt_spec _ (hpad h.ip.1)]
  simp only []
  rw [noLead_blanks _ m1, cutAt_spec _ h.method.2]
  simp only [status_read]
  have u1 : noTrail (noLead (b!" " ++ padRunes 13 t.used ++ b!" ")) = t.used := field_read h.used.2
  have u2 : noTrail (noLead (b!" " ++ padRunes 16 ip ++ b!" ")) = ip := field_read h.ip.2
  have d : ∀ s : Str, noTrail ((b!" " ++ s ++ b!" ").drop 1) = s := fun s => noTrail_blank s
  rw [u1, u2, d, d]

/-- C95: a status is coloured by its class, and what is coloured is the status alone. -/
theorem C95_colour (st : Int) : ∃ status n, Signed status st ∧
    logStatus true st = classColour (st / 100) ++ b!" " ++ List.replicate n 32 ++ status ++ b!" " ++ [27] ++ b!"[0m" := by
  refine ⟨itoa st, 3 - (itoa st).length, itoa_signed st, ?_⟩
  have h : colorForStatus st = classColour (st / 100) := by
    unfold colorForStatus classColour
    by_cases h2 : 200 ≤ st ∧ st < 300
    · rw [if_pos h2, if_pos (show st / 100 = 2 by omega)]; rfl
    · rw [if_neg h2, if_neg (show ¬ st / 100 = 2 by omega)]
      by_cases h3 : 300 ≤ st ∧ st < 400
      · rw [if_pos h3, if_pos (show st / 100 = 3 by omega)]; rfl
      · rw [if_neg h3, if_neg (show ¬ st / 100 = 3 by omega)]
        by_cases h4 : 400 ≤ st ∧ st < 500
        · rw [if_pos h4, if_pos (show st / 100 = 4 by omega)]; rfl
        · rw [if_neg h4, if_neg (show ¬ st / 100 = 4 by omega)]; rfl
  simp [logStatus, h, padLeft, cReset]

theorem breaks_append (a b : Str) : breaks (a ++ b) = breaks a + breaks b := by simp [breaks]

theorem breaks_of_not {s : Str} (h : 10 ∉ s) : breaks s = 0 := by
  unfold breaks
  rw [List.countP_eq_zero]
  intro c hc
  simp only [beq_iff_eq]
  rintro rfl
  exact h hc

/-- C95: a line is broken only where a field is broken; the layout adds no line breaks. -/
theorem C95_lines (color : Bool) (trace ip method url : Str) (t : LogTimes) (st : Int) (body : Str) :
    breaks (accessText color trace ip method url t st body) =
      breaks trace + breaks t.start + breaks t.used + breaks ip + breaks method + breaks url + breaks body := by
  have hp : ∀ w s, breaks (padRunes w s) = breaks s := by
    intro w s
    rw [padRunes, breaks_append, breaks_of_not (fun hm => absurd (List.mem_replicate.1 hm).2 (by decide)), Nat.zero_add]
  have hs : breaks (logStatus color st) = 0 := by
    have h1 : 10 ∉ itoa st := itoa_not (by decide) (by decide) st
    apply breaks_of_not
    have h2 : 10 ∉ colorForStatus st := by
      unfold colorForStatus
      repeat' split
      all_goals decide
    unfold logStatus padLeft
    split
    · simp only [List.mem_append, not_or]
      exact ⟨⟨⟨⟨h2, by decide⟩, fun hm => absurd (List.mem_replicate.1 hm).2 (by decide), h1⟩, by decide⟩, by decide⟩
    · simp only [List.mem_append, not_or]
      exact ⟨⟨by decide, fun hm => absurd (List.mem_replicate.1 hm).2 (by decide), h1⟩, by decide⟩
  have c1 : breaks b!"[ water : " = 0 := by decide
  have c2 : breaks b!" ]" = 0 := by decide
  have c3 : breaks b!" " = 0 := by decide
  have c4 : breaks b!" |" = 0 := by decide
  have c5 : breaks b!"| " = 0 := by decide
  have c6 : breaks b!" | " = 0 := by decide
  simp only [accessText, logPrefix, breaks_append, hp, hs, c1, c2, c3, c4, c5, c6]
  omega

/-! ### the line of a request -/

/-- the headers of a request cannot be taken for the layout -/
structure PlainReq (req : Req) : Prop where
  trace : 93 ∉ req.header.get b!"Trace-ID"
  ip : 124 ∉ requestRealIp req.header req.remoteAddr ∧ (requestRealIp req.header req.remoteAddr).head? ≠ some 32

/-- C95, partial: on `Default()`, a request to a route leaves one log line, and reading that line gives the method, the URL and
the address of the request and the status the client received. Missing: see `C83_status_partial` and `C95_read_partial`. -/
theorem C95_served_partial {o : Oracle} (h200 : o.bad 200 = false) (h500 : o.bad 500 = false) {withBody color : Bool}
    {times : ω → LogTimes} (ht : ∀ w, 124 ∉ (times w).start ∧ 124 ∉ (times w).used ∧ (times w).used.head? ≠ some 32)
    {put : Str → ω → ω} {rx : Regex} {ops : List (Op (Prog ω))} {r : Nat} {opts : List (Opt (Prog ω))}
    {e : Engine (Prog ω)} (h : OnDefault o false withBody (accessEmit color times put) rx ops r opts e) {req : Req}
    (hb : beforesOf ops r = []) (hr : Routed req) (hp : PlainReq req) {n : EndNode (Prog ω)}
    (hn : routeOf rx e req.method req.path = some n)
    (hv : ∀ p ∈ n.handlers, CallsIn (fun c => ¬ Bypass c ∧ ValidCode o.bad c) p) (c : Ctx ω) (rw : Writer) (hrw : rw.log = [])
    (body : Option Str) (w : ω) :
    ∃ line w' st status, (serve rx o e c req rw body w).world = put line w' ∧
      received (serve rx o e c req rw body w).rw.log = some st ∧ Signed status st ∧
      readEntry line =
        { trace := req.header.get b!"Trace-ID", start := (times w').start, status, used := (times w').used,
          ip := requestRealIp req.header req.remoteAddr, method := req.method,
          url := req.urlText ++ loggedText withBody req body } := by
  obtain ⟨st, w', h1, h2, -⟩ := C83_status_partial h200 h500 h hb hr hn hv c rw hrw body w
  have hm : req.method ≠ [] ∧ 32 ∉ req.method := by
    have := hr.method
    simp only [List.mem_cons, List.not_mem_nil, or_false] at this
    rcases this with h | h | h | h | h | h | h <;> rw [h] <;> decide
  obtain ⟨status, k1, k2⟩ := C95_read_partial color (trace := req.header.get b!"Trace-ID")
    (ip := requestRealIp req.header req.remoteAddr) (method := req.method) (t := times w')
    ⟨hp.trace, (ht w').1, (ht w').2, hp.ip, hm⟩ req.urlText (loggedText withBody req body) st
  exact ⟨_, w', st, status, h1, h2, k1, k2⟩

namespace Demo

/-- times -/
def someTimes : LogTimes := ⟨b!"2024-01-02 03:04:05", b!"1.5ms"⟩

/-- a log of lines -/
def lines : List Str → Int → Str → List Str → List Str := accessEmit true (fun _ => someTimes) (fun l w => w ++ [l])

/-- `Default()` with that log, and a handler that answers 404 -/
def logApp : List (Op (Prog (List Str))) :=
  [.newRouter] ++ classicOps (logger false true lines) (recovery chainO) 0 ++
    [.handle 0 mGET b!"/a" [.ctxFunc (.do (.writeHeader 404) .ret)]]

/-- a request through a proxy, with a trace id -/
def logReq : Req :=
  { chainReq with
    path := b!"/a", requestURI := b!"/a?x=1", urlText := b!"/a?x=1", remoteAddr := b!"10.0.0.9:1234",
    header := (Header.put (Header.put (fun _ => none) b!"Trace-ID" b!"7f3a") b!"X-Forwarded-For" b!"1.2.3.4, 10.0.0.9") }

/-- build, serve, compare -/
def logged (p : List Str → Bool) : Bool :=
  match runOps [] logApp with
  | .error _ => false
  | .ok heap =>
    match handler rx heap 0 [] with
    | .error _ => false
    | .ok e => p (serve rx chainO e .new logReq Writer.new none []).world

/-- the line of that request, byte for byte, and what is read in it -/
example : logged (fun ls => ls == [b!"[ water : 7f3a ] 2024-01-02 03:04:05 |" ++ [27] ++ b!"[97;43m 404 " ++ [27] ++
    b!"[0m|         1.5ms |          1.2.3.4 |     GET /a?x=1"] &&
    ls.map readEntry == [⟨b!"7f3a", b!"2024-01-02 03:04:05", b!"404", b!"1.5ms", b!"1.2.3.4", b!"GET", b!"/a?x=1"⟩]) = true := by
  decide +kernel

/-- that request meets the hypotheses of `C95_served_partial` -/
example : PlainReq logReq := ⟨by decide +kernel, by decide +kernel, by decide +kernel⟩

/-- the whole claim of C95: from a line its status can be told -/
def C95_claim : Prop :=
  ∀ (req req' : Req) (t : LogTimes) (st st' : Int) (line : Str),
    accessEmit false (fun _ => t) (fun l _ => l) (asked req) st [] [] = line →
    accessEmit false (fun _ => t) (fun l _ => l) (asked req') st' [] [] = line → st = st'

/-- a request with an address that looks like the end of a line -/
def forgeIp : Req :=
  { chainReq with header := (Header.put (Header.put (fun _ => none) b!"Trace-ID" b!"t") b!"X-Real-IP"
      b!"0000:1111:2222:3 ] 2024-01-02 03:04:05 | 404 |         1.5ms | 0000:1111:2222:4") }
/-- a request with a trace id that looks like the start of a line -/
def forgeTrace : Req :=
  { chainReq with header := (Header.put (Header.put (fun _ => none) b!"Trace-ID"
      b!"t ] 2024-01-02 03:04:05 | 200 |         1.5ms | 0000:1111:2222:3") b!"X-Real-IP" b!"0000:1111:2222:4") }

end Demo

open Demo in
/-- C95, as stated, is false: the headers Trace-ID and X-Real-IP are written unquoted, so two requests that were answered with
200 and with 404 leave the same line. -/
theorem C95_refuted : ¬ C95_claim := by
  intro h
  exact absurd (h forgeIp forgeTrace someTimes 200 404 _ rfl (by decide +kernel)) (by decide)

/-- C95 is also false of the end of a line: with the body logged, a body sent as JSON (which it need not be) can hold
the complete line of any other request; the log then shows that line on a line of its own. -/
theorem C95_refuted_body (color : Bool) (trace ip method url trace' ip' method' url' : Str) (t t' : LogTimes) (st st' : Int)
    (req : Req) (hj : containsStr (req.header.get b!"Content-Type") b!"application/json" = true)
    (hl : (accessText color trace' ip' method' url' t' st' []).length ≤ 2 ^ 20) :
    ∃ body, accessText color trace ip method url t st (loggedText true req (some body)) =
      accessText color trace ip method url t st [] ++ 10 :: accessText color trace' ip' method' url' t' st' [] := by
  refine ⟨accessText color trace' ip' method' url' t' st' [], ?_⟩
  have : loggedText true req (some (accessText color trace' ip' method' url' t' st' [])) =
      10 :: accessText color trace' ip' method' url' t' st' [] := by
    simp only [loggedText, hj, Bool.and_self, if_true]
    rw [List.take_of_length_le hl]
    rfl
  rw [this]
  simp [accessText]

end Water
