import Verif.Spec.Stream
import Verif.Props.Extended
/- C157: what `Stream` sends. -/
namespace Water
open Spec
variable {ω : Type}

/-- the answer has begun with 200, these fields, and this text -/
def Begun (hd : Header) (text : Str) (s : St ω) : Prop :=
  received s.rw.log = some 200 ∧ receivedHeader s.rw.log = some hd ∧ receivedBody s.rw.log = text ∧ s.ctx.written = true

/-- the answer has begun if there is a text, and else nothing has been sent -/
def Midway (hd : Header) (text : Str) (s : St ω) : Prop :=
  (text ≠ [] → Begun hd text s) ∧ (text = [] → s.rw.log = [] ∧ s.ctx.written = false ∧ s.rw.header = hd)

theorem begun_write {o : Oracle} (h200 : o.bad 200 = false) {hd : Header} (hct : hd.get kContentType ≠ []) {text : Str} {s : St ω}
    (hs : Midway hd text s) (d : Str) : (s.write o d).1 = false ∧ Begun hd (text ++ d) (s.write o d).2 := by
  by_cases ht : text = []
  · obtain ⟨h1, h2, h3⟩ := hs.2 ht
    have hsn : sniffed o s.rw.header d = s.rw.header := by
      unfold sniffed
      rw [h3, if_neg (fun h => hct h.2)]
    rw [St.write_fresh h2 h200, hsn, h1, h3, ht]
    exact ⟨rfl, rfl, rfl, List.append_nil d, rfl⟩
  · obtain ⟨h1, h2, h3, h4⟩ := hs.1 ht
    have hne : s.rw.log ≠ [] := by
      intro h
      rw [h] at h1
      cases h1
    rw [St.write_written h4, Writer.write_late hne]
    refine ⟨rfl, received_append h1, receivedHeader_append h2, ?_, h4⟩
    show receivedBody (s.rw.log ++ [.body d]) = _
    have happ : ∀ a : List WEvent, receivedBody (a ++ [.body d]) = receivedBody a ++ d := by
      intro a
      induction a with
      | nil => simp [receivedBody]
      | cons e es ih => cases e <;> simp [receivedBody, ih]
    rw [happ, h3]

theorem gives_cons {t : CopyTurn} {ts : List CopyTurn} {text : Str} (h : GivesAll (t :: ts) text) :
    (t.data = [] ∨ t.writeErr = none) ∧
      ((t.readErr = none ∧ ∃ text', text = t.data ++ text' ∧ GivesAll ts text') ∨ (t.readErr = some .eof ∧ text = t.data)) := by
  rcases h with ⟨hs, rfl⟩ | ⟨before, last, after, he, hs, hw, hr, rfl⟩
  · have h0 := hs t List.mem_cons_self
    exact ⟨h0.2, .inl ⟨h0.1, bytesOf ts, rfl, .inl ⟨fun x hx => hs x (List.mem_cons_of_mem _ hx), rfl⟩⟩⟩
  · cases before with
    | nil =>
      obtain ⟨rfl, rfl⟩ := List.cons.inj he
      exact ⟨hw, .inr ⟨hr, rfl⟩⟩
    | cons b before =>
      obtain ⟨rfl, rfl⟩ := List.cons.inj he
      have h0 := hs t List.mem_cons_self
      refine ⟨h0.2, .inl ⟨h0.1, bytesOf before ++ last.data, ?_, .inr ⟨before, last, after, rfl,
        fun x hx => hs x (List.mem_cons_of_mem _ hx), hw, hr, rfl⟩⟩⟩
      simp [bytesOf]

theorem breaks_cons {t : CopyTurn} {ts : List CopyTurn} {text : Str} {e : RdErr} (h : BreaksAfter (t :: ts) text e) :
    ((t.data = [] ∨ t.writeErr = none) ∧
      ((t.readErr = none ∧ ∃ text', text = t.data ++ text' ∧ BreaksAfter ts text' e) ∨ (t.readErr = some e ∧ e ≠ .eof ∧ text = t.data))) ∨
    ∃ n m, t.data ≠ [] ∧ t.writeErr = some (n, m) ∧ e = .failed m ∧ text = t.data.take n := by
  obtain ⟨before, last, after, he, hs, hc⟩ := h
  cases before with
  | nil =>
    obtain ⟨rfl, rfl⟩ := List.cons.inj he
    rcases hc with ⟨h1, h2, h3, rfl⟩ | ⟨n, m, h1, h2, h3, rfl⟩
    · exact .inl ⟨h1, .inr ⟨h2, h3, rfl⟩⟩
    · exact .inr ⟨n, m, h1, h2, h3, rfl⟩
  | cons b before =>
    obtain ⟨rfl, rfl⟩ := List.cons.inj he
    have h0 := hs t List.mem_cons_self
    have hs' : Flawless before := fun x hx => hs x (List.mem_cons_of_mem _ hx)
    refine .inl ⟨h0.2, .inl ⟨h0.1, ?_⟩⟩
    rcases hc with ⟨h1, h2, h3, rfl⟩ | ⟨n, m, h1, h2, h3, rfl⟩
    · exact ⟨bytesOf before ++ last.data, by simp [bytesOf], before, last, after, rfl, hs', .inl ⟨h1, h2, h3, rfl⟩⟩
    · exact ⟨bytesOf before ++ last.data.take n, by simp [bytesOf], before, last, after, rfl, hs', .inr ⟨n, m, h1, h2, h3, rfl⟩⟩

/-- a turn whose write does not fail -/
theorem turn_ok {o : Oracle} (h200 : o.bad 200 = false) (req : Req) (nx : St ω → Out × St ω) (i : Nat) {hd : Header}
    (hct : hd.get kContentType ≠ []) {t : CopyTurn} (ht : t.data = [] ∨ t.writeErr = none) (ts : List CopyTurn) (k : Option RdErr → Prog ω)
    {done : Str} {s : St ω} (hs : Midway hd done s) :
    ∃ s', Midway hd (done ++ t.data) s' ∧ exec o req nx i (.copy (t :: ts) k) s =
      exec o req nx i (match t.readErr with | none => Prog.copy ts k | some .eof => k none | some e => k (some e)) s' := by
  by_cases hd0 : t.data = []
  · refine ⟨s, by rw [hd0, List.append_nil]; exact hs, ?_⟩
    rw [Prog.copy]
    rw [if_neg (by rw [hd0]; decide)]
    rfl
  · have hw : t.writeErr = none := ht.resolve_left hd0
    have hb := begun_write h200 hct hs t.data
    refine ⟨(s.write o t.data).2, ⟨fun _ => hb.2, fun h => absurd (List.append_eq_nil_iff.1 h).2 hd0⟩, ?_⟩
    rw [Prog.copy]
    rw [if_pos (List.length_pos_iff.2 hd0), hw]
    simp only [Prog.do, exec, doCall]
    rcases hx : s.write o t.data with ⟨b, s1⟩
    rw [hx] at hb
    obtain rfl : b = false := hb.1
    rfl

theorem copy_all {o : Oracle} (h200 : o.bad 200 = false) (req : Req) (nx : St ω → Out × St ω) (i : Nat) {hd : Header}
    (hct : hd.get kContentType ≠ []) (k : Option RdErr → Prog ω) (ts : List CopyTurn) :
    ∀ {done text : Str} {s : St ω}, Midway hd done s → GivesAll ts text →
      ∃ s', Midway hd (done ++ text) s' ∧ exec o req nx i (.copy ts k) s = exec o req nx i (k none) s' := by
  induction ts with
  | nil =>
    intro done text s hs hg
    rcases hg with ⟨-, rfl⟩ | ⟨before, last, after, he, -⟩
    · exact ⟨s, by simpa [bytesOf] using hs, rfl⟩
    · simp at he
  | cons t ts ih =>
    intro done text s hs hg
    obtain ⟨ht, hc⟩ := gives_cons hg
    obtain ⟨s1, h1, e1⟩ := turn_ok h200 req nx i hct ht ts k hs
    rcases hc with ⟨hr, text', rfl, hg'⟩ | ⟨hr, rfl⟩
    · rw [hr] at e1
      obtain ⟨s2, h2, e2⟩ := ih h1 hg'
      exact ⟨s2, by rw [← List.append_assoc]; exact h2, e1.trans e2⟩
    · rw [hr] at e1
      exact ⟨s1, h1, e1⟩

theorem copy_breaks {o : Oracle} (h200 : o.bad 200 = false) (req : Req) (nx : St ω → Out × St ω) (i : Nat) {hd : Header}
    (hct : hd.get kContentType ≠ []) (k : Option RdErr → Prog ω) {e : RdErr} (ts : List CopyTurn) :
    ∀ {done text : Str} {s : St ω}, Midway hd done s → BreaksAfter ts text e →
      ∃ s', (Midway hd (done ++ text) s' ∨ Begun hd (done ++ text) s') ∧ exec o req nx i (.copy ts k) s = exec o req nx i (k (some e)) s' := by
  induction ts with
  | nil =>
    intro done text s hs hg
    obtain ⟨before, last, after, he, -⟩ := hg
    simp at he
  | cons t ts ih =>
    intro done text s hs hg
    rcases breaks_cons hg with ⟨ht, hc⟩ | ⟨n, m, hd0, hw, rfl, rfl⟩
    · obtain ⟨s1, h1, e1⟩ := turn_ok h200 req nx i hct ht ts k hs
      rcases hc with ⟨hr, text', rfl, hg'⟩ | ⟨hr, hne, rfl⟩
      · rw [hr] at e1
        obtain ⟨s2, h2, e2⟩ := ih h1 hg'
        exact ⟨s2, by rw [← List.append_assoc]; exact h2, e1.trans e2⟩
      · rw [hr] at e1
        refine ⟨s1, .inl h1, e1.trans ?_⟩
        cases e with
        | eof => exact absurd rfl hne
        | failed m => rfl
        | closed => rfl
    · have hb := begun_write h200 hct hs (t.data.take n)
      refine ⟨(s.write o (t.data.take n)).2, .inr hb.2, ?_⟩
      rw [Prog.copy]
      rw [if_pos (List.length_pos_iff.2 hd0), hw]
      simp only [Prog.do, exec, doCall]
      rcases hx : s.write o (t.data.take n) with ⟨b, s1⟩
      rw [hx] at hb
      obtain rfl : b = false := hb.1
      rfl

theorem midway_start {ctype : Str} {s : St ω} (hw : s.ctx.written = false) (hl : s.rw.log = []) (o : Oracle) (req : Req) :
    Midway (s.rw.header.put kContentType ctype) [] (doCall o req s (.setHeader kContentType ctype)).2 :=
  ⟨fun h => absurd rfl h, fun _ => ⟨hl, hw, rfl⟩⟩

theorem put_ctype {ctype : Str} (hct : ctype ≠ []) (h : Header) : (h.put kContentType ctype).get kContentType ≠ [] := by
  simpa [Header.put, Header.get, Map.set] using hct

/-- no reader both gives all it has and breaks -/
theorem gives_breaks (ts : List CopyTurn) : ∀ text text' e, GivesAll ts text → ¬ BreaksAfter ts text' e := by
  induction ts with
  | nil =>
    rintro text text' e - ⟨before, last, after, he, -⟩
    simp at he
  | cons t ts ih =>
    intro text text' e hg hb
    obtain ⟨h0, hg⟩ := gives_cons hg
    rcases breaks_cons hb with ⟨-, hb⟩ | ⟨n, m, h1, h2, -⟩
    · rcases hg with ⟨hr, _, -, hg⟩ | ⟨hr, -⟩ <;> rcases hb with ⟨hr', _, -, hb⟩ | ⟨hr', hne, -⟩
      · exact ih _ _ _ hg hb
      · rw [hr] at hr'; cases hr'
      · rw [hr] at hr'; cases hr'
      · rw [hr] at hr'; cases hr'; exact hne rfl
    · rcases h0 with h0 | h0
      · exact h1 h0
      · rw [h0] at h2; cases h2

/-- Every reader gives all it has, or breaks; and not both. -/
theorem C157_cases (ts : List CopyTurn) : ((∃ text, GivesAll ts text) ∨ ∃ text e, BreaksAfter ts text e) ∧
    ¬ ((∃ text, GivesAll ts text) ∧ ∃ text e, BreaksAfter ts text e) := by
  refine ⟨?_, fun ⟨⟨_, h1⟩, _, _, h2⟩ => gives_breaks ts _ _ _ h1 h2⟩
  induction ts with
  | nil => exact .inl ⟨[], .inl ⟨fun _ h => (nomatch h), rfl⟩⟩
  | cons t ts ih =>
    by_cases ht : t.data = [] ∨ t.writeErr = none
    · cases hr : t.readErr with
      | some e =>
        by_cases he : e = .eof
        · subst he
          exact .inl ⟨t.data, .inr ⟨[], t, ts, rfl, fun _ h => (nomatch h), ht, hr, rfl⟩⟩
        · exact .inr ⟨t.data, e, [], t, ts, rfl, fun _ h => (nomatch h), .inl ⟨ht, hr, he, rfl⟩⟩
      | none =>
        have hsm : ∀ b, Flawless b → Flawless (t :: b) := by
          intro b hb x hx
          rcases List.mem_cons.1 hx with rfl | hx
          · exact ⟨hr, ht⟩
          · exact hb x hx
        rcases ih with ⟨text, hg⟩ | ⟨text, e, before, last, after, he, hs, hc⟩
        · refine .inl ⟨t.data ++ text, ?_⟩
          rcases hg with ⟨hs, rfl⟩ | ⟨before, last, after, he, hs, h1, h2, rfl⟩
          · exact .inl ⟨hsm _ hs, rfl⟩
          · exact .inr ⟨t :: before, last, after, by rw [he]; rfl, hsm _ hs, h1, h2, by simp [bytesOf]⟩
        · refine .inr ⟨t.data ++ text, e, t :: before, last, after, by rw [he]; rfl, hsm _ hs, ?_⟩
          rcases hc with ⟨h1, h2, h3, rfl⟩ | ⟨n, m, h1, h2, h3, rfl⟩
          · exact .inl ⟨h1, h2, h3, by simp [bytesOf]⟩
          · exact .inr ⟨n, m, h1, h2, h3, by simp [bytesOf]⟩
    · have h1 : t.data ≠ [] := fun h => ht (.inl h)
      cases hw : t.writeErr with
      | none => exact absurd (.inr hw) ht
      | some x => exact .inr ⟨t.data.take x.1, .failed x.2, [], t, ts, rfl, fun _ h => (nomatch h), .inr ⟨x.1, x.2, h1, hw, rfl, rfl⟩⟩

/-- C157 (partial: the property is false, see `C157_broken`, `C157_nothing` and `C157_refuted`). In a handler that has not answered yet: if the
reader gives a text that is not empty, in whatever pieces, and nothing fails, then `Stream` returns nil, and by then the client has
been sent 200, the fields of the header with this media type, and exactly the text. -/
theorem C157_partial {o : Oracle} (h200 : o.bad 200 = false) (req : Req) (nx : St ω → Out × St ω) (i : Nat) {s : St ω}
    (hw : s.ctx.written = false) (hl : s.rw.log = []) {ctype : Str} (hct : ctype ≠ []) {ts : List CopyTurn} {text : Str}
    (hg : GivesAll ts text) (hne : text ≠ []) (k : Option RdErr → Prog ω) :
    ∃ s', exec o req nx i (.streamFrom ctype ts k) s = exec o req nx i (k none) s' ∧
      received s'.rw.log = some 200 ∧ receivedHeader s'.rw.log = some (s.rw.header.put b!"Content-Type" ctype) ∧
      receivedBody s'.rw.log = text ∧ s'.ctx.written = true := by
  obtain ⟨s', h1, e1⟩ := copy_all h200 req nx i (put_ctype hct s.rw.header) k ts (midway_start hw hl o req) hg
  exact ⟨s', e1, h1.1 hne⟩

/-- If the reader gives nothing, nothing is sent: the answer is left to the handlers that follow, with the media type already set. -/
theorem C157_nothing {o : Oracle} (h200 : o.bad 200 = false) (req : Req) (nx : St ω → Out × St ω) (i : Nat) {s : St ω}
    (hw : s.ctx.written = false) (hl : s.rw.log = []) {ctype : Str} (hct : ctype ≠ []) {ts : List CopyTurn} (hg : GivesAll ts [])
    (k : Option RdErr → Prog ω) :
    ∃ s', exec o req nx i (.streamFrom ctype ts k) s = exec o req nx i (k none) s' ∧
      s'.rw.log = [] ∧ s'.ctx.written = false ∧ s'.rw.header = s.rw.header.put b!"Content-Type" ctype := by
  obtain ⟨s', h1, e1⟩ := copy_all h200 req nx i (put_ctype hct s.rw.header) k ts (midway_start hw hl o req) hg
  exact ⟨s', e1, h1.2 rfl⟩

/-- If it breaks, `Stream` returns the error, and what came before it has been sent. Then either nothing at all has been sent; or the
client receives 200 in the end, whatever this handler and all that follow do about the error. -/
theorem C157_broken {o : Oracle} (h200 : o.bad 200 = false) (req : Req) (fuel i : Nat) {s : St ω}
    (hw : s.ctx.written = false) (hl : s.rw.log = []) {ctype : Str} (hct : ctype ≠ []) {ts : List CopyTurn} {text : Str} {e : RdErr}
    (hb : BreaksAfter ts text e) (k : Option RdErr → Prog ω) :
    ∃ s', exec o req (run o req fuel) i (.streamFrom ctype ts k) s = exec o req (run o req fuel) i (k (some e)) s' ∧
      receivedBody s'.rw.log = text ∧
      ((s'.rw.log = [] ∧ s'.ctx.written = false) ∨
        received (exec o req (run o req fuel) i (.streamFrom ctype ts k) s).2.rw.log = some 200) ∧
      (text ≠ [] → received (exec o req (run o req fuel) i (.streamFrom ctype ts k) s).2.rw.log = some 200) := by
  obtain ⟨s', h1, e1⟩ := copy_breaks h200 req (run o req fuel) i (put_ctype hct s.rw.header) k ts (midway_start hw hl o req) hb
  have e1 : exec o req (run o req fuel) i (.streamFrom ctype ts k) s = exec o req (run o req fuel) i (k (some e)) s' := e1
  have hstay : Begun (s.rw.header.put kContentType ctype) text s' →
      received (exec o req (run o req fuel) i (.streamFrom ctype ts k) s).2.rw.log = some 200 := by
    intro h
    rw [e1]
    exact (settled_exec o req fuel i (k (some e)) s' ⟨h.1, h.2.1⟩).1
  refine ⟨s', e1, ?_⟩
  rw [List.nil_append] at h1
  rcases h1 with h1 | h1
  · by_cases ht : text = []
    · obtain ⟨a, b, -⟩ := h1.2 ht
      exact ⟨by rw [a, ht]; rfl, .inl ⟨a, b⟩, fun h => absurd ht h⟩
    · have := hstay (h1.1 ht)
      exact ⟨(h1.1 ht).2.2.1, .inr this, fun _ => this⟩
  · exact ⟨h1.2.2.1, .inr (hstay h1), fun _ => hstay h1⟩

/-- With readers that do not fail this is `ctx.Stream` as C31 has it. -/
theorem C157_simple (ctype : Str) (chunks : List Str) (hc : ∀ d ∈ chunks, d ≠ []) (k : Prog ω) :
    Prog.streamFrom ctype (chunks.map (fun d => ⟨d, none, none⟩)) (fun _ => k) = .stream ctype chunks k := by
  unfold Prog.streamFrom Prog.stream
  congr 1
  induction chunks with
  | nil => rfl
  | cons d ds ih =>
    rw [List.map_cons, Prog.copy, List.foldr_cons, ih (fun x hx => hc x (List.mem_cons_of_mem _ hx))]
    rw [if_pos (List.length_pos_iff.2 (hc d List.mem_cons_self))]

/-! ### witnesses -/
namespace Demo

/-- three pieces, the last together with the end -/
def goodTurns : List CopyTurn := [⟨b!"one ", none, none⟩, ⟨[], none, none⟩, ⟨b!"two", some .eof, none⟩]
/-- the reader fails behind the first piece -/
def badTurns : List CopyTurn := [⟨b!"one ", none, none⟩, ⟨[], some (.failed b!"disk"), none⟩]

/-- reports an error as an application does -/
def reportH (ts : List CopyTurn) : Prog Unit := .streamFrom b!"text/csv" ts (fun e => match e with
  | none => .ret
  | some _ => .string 500 b!"failed" .ret)

/-- what a chain sends -/
def answerTo (hs : List (Prog Unit)) : List WEvent := (runAll chainO chainReq (chainSt hs)).2.rw.log

/-- the hypotheses of `C157_partial` and `C157_broken` are met -/
theorem C157_demo : GivesAll goodTurns b!"one two" ∧ BreaksAfter badTurns b!"one " (.failed b!"disk") ∧
    receivedBody (answerTo [reportH goodTurns, missH]) = b!"one two" := by
  refine ⟨.inr ⟨[⟨b!"one ", none, none⟩, ⟨[], none, none⟩], ⟨b!"two", some .eof, none⟩, [], rfl, ?_, .inr rfl, rfl, rfl⟩,
    ⟨[⟨b!"one ", none, none⟩], ⟨[], some (.failed b!"disk"), none⟩, [], rfl, ?_, .inl ⟨.inl rfl, rfl, by decide, rfl⟩⟩, by decide +kernel⟩
  · intro t ht
    simp only [List.mem_cons, List.not_mem_nil, or_false] at ht
    rcases ht with rfl | rfl <;> exact ⟨rfl, .inr rfl⟩
  · intro t ht
    simp only [List.mem_cons, List.not_mem_nil, or_false] at ht
    subst ht
    exact ⟨rfl, .inr rfl⟩

end Demo
open Demo

/-- C157 is false. A reader fails behind its first piece, and the handler answers the error with 500: the client is told 200 and takes
the piece and the report for the text. And a reader without content: the next handler answers, so the client is told that there is no such page. -/
theorem C157_refuted :
    (received (answerTo [reportH badTurns]) = some 200 ∧ receivedBody (answerTo [reportH badTurns]) = b!"one failed") ∧
    (received (answerTo [reportH [], missH]) = some 404 ∧ receivedBody (answerTo [reportH [], missH]) = b!"no such page" ∧
      (receivedHeader (answerTo [reportH [], missH])).map (·.get b!"Content-Type") = some b!"text/csv") := by
  decide +kernel

end Water
