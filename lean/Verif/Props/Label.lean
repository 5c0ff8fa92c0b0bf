import Verif.Spec.Label
import Verif.Props.Response
/-
C115: what the client takes the body of a response for.
-/
namespace Water
open Spec Demo
variable {ω : Type}

theorem receivedBody_bodies (c : Int) (h : Header) (ds : List Str) :
    receivedBody (.status true c h :: ds.map .body) = ds.flatten := by
  simp only [receivedBody]
  induction ds with
  | nil => rfl
  | cons d ds ih => simp [receivedBody, ih]

/-- C115, partial: the response of every helper, on a context that has not written and with a code that allows a body, is shown as what
the header said before the call; if it said nothing, as what its first 512 bytes look like. What the helper is for has no part in it. -/
theorem C115_label_partial (o : Oracle) (req : Req) (nx : St ω → Out × St ω) (i : Nat) (s : St ω) {code : Int} {p : Prog ω}
    {ctype : Str} {pieces : List Str} (hp : Helper code p ctype pieces) (hc : o.bad code = false) (hw : s.ctx.written = false)
    (hl : s.rw.log = []) (hb : ¬ Bodiless code) :
    (∀ t ts, s.rw.header b!"Content-Type" = some (t :: ts) → label o.detect (exec o req nx i p s).2.rw.log = some t) ∧
    (s.rw.header b!"Content-Type" = none → s.rw.header.get b!"Content-Encoding" = [] → s.rw.header.get b!"Transfer-Encoding" = [] →
      label o.detect (exec o req nx i p s).2.rw.log =
        if pieces.flatten = [] then none else some (o.detect (pieces.flatten.take 512))) := by
  obtain ⟨s', h1, h2, -⟩ := C31_helpers_partial o req nx i s hp hc hw hl
  rw [h1]
  simp only [label, h2, receivedBody_bodies]
  refine ⟨?_, ?_⟩
  · intro t ts h; simp [received, receivedHeader, h]
  · intro h h3 h4
    simp [received, receivedHeader, h, h3, h4, hb]

/-- C115, partial: so two helpers that send the same bytes are shown as the same. -/
theorem C115_alike (o : Oracle) (req : Req) (nx : St ω → Out × St ω) (i : Nat) (s : St ω) {code : Int} {p p' : Prog ω}
    {ctype ctype' : Str} {pieces pieces' : List Str} (hp : Helper code p ctype pieces) (hp' : Helper code p' ctype' pieces')
    (hsame : pieces.flatten = pieces'.flatten) (hc : o.bad code = false) (hw : s.ctx.written = false) (hl : s.rw.log = []) :
    label o.detect (exec o req nx i p s).2.rw.log = label o.detect (exec o req nx i p' s).2.rw.log := by
  obtain ⟨s1, h1, h2, -⟩ := C31_helpers_partial o req nx i s hp hc hw hl
  obtain ⟨s2, h3, h4, -⟩ := C31_helpers_partial o req nx i s hp' hc hw hl
  rw [h1, h3]
  simp only [label, h2, h4, receivedBody_bodies, received, receivedHeader, hsame]

theorem label_sent {detect : Str → Str} {t : Str} {ts : List Str} {h : Header} : ∀ {log : List WEvent}, receivedHeader log = some h →
    h b!"Content-Type" = some (t :: ts) → label detect log = some t := by
  have key : ∀ {log : List WEvent}, receivedHeader log = some h → ∃ c, received log = some c := by
    intro log
    induction log with
    | nil => intro h; cases h
    | cons e es ih =>
      cases e with
      | status x c h => intro _; exact ⟨c, rfl⟩
      | body b => exact ih
  intro log hh hv
  obtain ⟨c, hc⟩ := key hh
  simp [label, hc, hh, hv]

/-- C115 holds of `Stream` with a media type, which sets the header before it sends anything. -/
theorem C115_stream (o : Oracle) (h200 : o.bad 200 = false) (req : Req) (nx : St ω → Out × St ω) (i : Nat) (s : St ω)
    (ctype d : Str) (ds : List Str) (hct : ctype ≠ []) (hw : s.ctx.written = false) (hl : s.rw.log = []) :
    label o.detect (exec o req nx i (.stream ctype (d :: ds) .ret) s).2.rw.log = some ctype := by
  obtain ⟨-, h2, -⟩ := C31_stream_ok o h200 req nx i s ctype d ds hct hw hl
  cases hr : receivedHeader (exec o req nx i (.stream ctype (d :: ds) .ret) s).2.rw.log with
  | none => rw [hr] at h2; cases h2
  | some h =>
    rw [hr] at h2
    have hck : canonKey kContentType = b!"Content-Type" := by decide
    simp only [Option.map_some, Option.some.injEq, Header.get, hck] at h2
    split at h2
    · rename_i he
      rw [h2] at he
      exact label_sent hr he
    · exact absurd h2.symm hct


/-- a `DetectContentType` that knows one of the beginnings of a page (net/http sniff.go) -/
def sniffO : Oracle := { chainO with
  detect := fun d => if b!"<script>".isPrefixOf d then b!"text/html; charset=utf-8" else b!"text/plain; charset=utf-8" }

/-- the claim of C115: text sent with `String` is shown as text -/
def C115_claim (o : Oracle) : Prop :=
  ∀ (s : St Unit) (text : Str), s.ctx.written = false → s.rw.log = [] → s.rw.header = Map.empty → text ≠ [] →
    label o.detect (exec o chainReq (runAll o chainReq) 0 (.string 200 text .ret) s).2.rw.log = some b!"text/plain; charset=utf-8"

/-- C115 is false of the code: a text that looks like a page, such as the echo of a parameter, is shown as a page. -/
theorem C115_refuted : ¬ C115_claim sniffO := by
  intro h
  have := h (chainSt []) b!"<script>alert(1)</script>" rfl rfl rfl (by decide)
  revert this
  decide +kernel

/-- The claim depends on the guess alone: it holds exactly if no text is taken for something else. -/
theorem C115_iff (o : Oracle) (h200 : o.bad 200 = false) :
    C115_claim o ↔ ∀ text : Str, text ≠ [] → o.detect (text.take 512) = b!"text/plain; charset=utf-8" := by
  have key : ∀ (s : St Unit) (text : Str), s.ctx.written = false → s.rw.log = [] → s.rw.header = Map.empty → text ≠ [] →
      label o.detect (exec o chainReq (runAll o chainReq) 0 (.string 200 text .ret) s).2.rw.log = some (o.detect (text.take 512)) := by
    intro s text hw hl hh hne
    have := (C115_label_partial o chainReq (runAll o chainReq) 0 s (.string (code := 200) text) h200 hw hl (by decide)).2
      (by rw [hh]; rfl) (by rw [hh]; rfl) (by rw [hh]; rfl)
    rw [this]; simp [hne]
  constructor
  · intro h text hne
    have h1 := h (chainSt []) text rfl rfl rfl hne
    rw [key _ _ rfl rfl rfl hne] at h1
    exact Option.some.inj h1
  · intro h s text hw hl hh hne
    rw [key s text hw hl hh hne, h text hne]

/-- a value of JSON is shown as plain text, and a text with the type set first is shown as text -/
example : label sniffO.detect (exec sniffO chainReq (runAll sniffO chainReq) 0 (.json 200 [b!"{}", b!"\n"] .ret) (chainSt [])).2.rw.log
      = some b!"text/plain; charset=utf-8" ∧
    label sniffO.detect (exec sniffO chainReq (runAll sniffO chainReq) 0
      (.do (.setHeader b!"content-type" b!"text/plain; charset=utf-8") (.string 200 b!"<script>" .ret)) (chainSt [])).2.rw.log
      = some b!"text/plain; charset=utf-8" ∧
    label sniffO.detect (exec sniffO chainReq (runAll sniffO chainReq) 0 (.string 204 b!"<script>" .ret) (chainSt [])).2.rw.log = none := by
  decide +kernel

end Water
