import Verif.Model.Crash
import Verif.Props.Sniff
/-
C142: what a client learns of a panic, and what it is shown as.
-/
namespace Water
open Spec Demo
variable {ω : Type}

/-! ### what the report is taken for -/

theorem report_kinds {s : Str} (hs : s.take 8 = b!"HandlerF") :
    ¬ Page (s.take 512) ∧ ¬ XmlBegin (s.take 512) ∧ ¬ Fits [some 0xEF, some 0xBB, some 0xBF, none] (s.take 512) ∧
    ∀ sig ∈ sigEarly ++ sigLate, ∀ ct, sig.match (s.take 512) = some ct → ct = b!"application/vnd.ms-fontobject" ∧ Fits fontMark (s.take 512) := by
  have hd : ∃ r, s.take 512 = b!"HandlerF" ++ r := by
    refine ⟨(s.take 512).drop 8, ?_⟩
    rw [← hs, show (s.take 512).drop 8 = (s.take 512).drop 8 from rfl]
    have := List.take_append_drop 8 (s.take 512)
    rw [List.take_take] at this
    exact this.symm
  obtain ⟨r, hd⟩ := hd
  rw [hd]
  have hdrop : (b!"HandlerF" ++ r).dropWhile sniffSpace = b!"HandlerF" ++ r := by
    show (72 :: _ : Str).dropWhile sniffSpace = _
    rw [List.dropWhile_cons_of_neg (by decide)]; rfl
  have hx : ¬ XmlBegin (b!"HandlerF" ++ r) := by
    intro hx
    generalize e : b!"HandlerF" ++ r = t at hx
    cases hx with
    | @mk ws rest h =>
      cases ws with
      | nil => simp only [List.nil_append, List.cons_append, List.cons.injEq] at e; exact absurd e.1 (by decide)
      | cons w ws =>
        simp only [List.cons_append, List.cons.injEq] at e
        have := h w List.mem_cons_self
        rw [← e.1] at this
        exact absurd this (by unfold TagSpace; decide)
  refine ⟨?_, hx, ?_, ?_⟩
  · intro hp
    obtain ⟨tag, h1, h2⟩ := (page_iff _).1 hp
    obtain ⟨f1, f2, -⟩ := pageTags_facts tag h1
    rw [hdrop, htmlMatch_iff f1] at h2
    obtain ⟨t, e, rest, h3, h4, -⟩ := h2
    cases h4 with
    | nil => cases f2
    | cons ha hs =>
      simp only [List.head?_cons, Option.some.injEq] at f2
      subst f2
      simp only [List.cons_append, List.cons.injEq] at h3
      have := h3.1.trans (same_sharp ha)
      exact absurd this (by decide)
  · intro h
    cases h
  · intro sig hsig ct h
    have hne : sig.match (b!"HandlerF" ++ r) ≠ none := by rw [h]; simp
    cases hpat : sig.pat with
    | none =>
      rcases no_pat sig hsig hpat with rfl | rfl
      · have := match_ct h
        subst this
        exact absurd ((xmlMatch_iff _).1 h) hx
      · exfalso
        apply hne
        have : mp4Match (b!"HandlerF" ++ r) = false := by
          unfold mp4Match
          simp only [List.cons_append, List.nil_append]
          split
          · rfl
          · split
            · rfl
            · rw [if_pos (by simp)]
        exact if_neg (by rw [this]; simp)
    | some p =>
      have hft := (pat_match hpat).1 hne
      have key : ∀ p ∈ (sigEarly ++ sigLate).filterMap Sig.pat, p = fontMark ∨ (p.head? ≠ some (some 72) ∧ p.head? ≠ some none ∧ p ≠ []) := by
        decide +kernel
      rcases key p (List.mem_filterMap.2 ⟨sig, hsig, hpat⟩) with rfl | ⟨h1, h2, h3⟩
      · exact ⟨by rw [match_ct h]; exact font_ct sig hsig hpat, hft⟩
      · exfalso
        cases hft with
        | nil => exact h3 rfl
        | this h => exact h1 rfl
        | any h => exact h2 rfl

/-- exactly what a text that begins like a report is taken for -/
theorem detect_report {s : Str} (hs : s.take 8 = b!"HandlerF") :
    (s[34]? = some 76 ∧ s[35]? = some 80 → detectStd s = b!"application/vnd.ms-fontobject") ∧
    (¬ (s[34]? = some 76 ∧ s[35]? = some 80) → (∃ c ∈ s.take 512, Control c) → detectStd s = b!"application/octet-stream") ∧
    (¬ (s[34]? = some 76 ∧ s[35]? = some 80) → (∀ c ∈ s.take 512, ¬ Control c) → detectStd s = b!"text/plain; charset=utf-8") := by
  obtain ⟨hp, hx, hm, hall⟩ := report_kinds hs
  have hmark : Fits fontMark (s.take 512) ↔ s[34]? = some 76 ∧ s[35]? = some 80 := by
    rw [fontMark_iff, List.getElem?_take_of_lt (by omega), List.getElem?_take_of_lt (by omega)]
  rw [← hmark]
  unfold detectStd
  rw [sigs_split, List.findSome?_append, List.findSome?_append, List.findSome?_cons, List.findSome?_append]
  generalize s.take 512 = d at *
  have hmn : sigMark.match d = none := Classical.byContradiction fun h => hm ((pat_match mark_pat).1 h)
  rw [pages_none hp, Option.none_or, hmn]
  dsimp only
  cases he : sigEarly.findSome? (fun sig => sig.match d) with
  | some ct =>
    obtain ⟨sig, h5, h6⟩ := List.exists_of_findSome?_eq_some he
    obtain ⟨h7, h8⟩ := hall sig (List.mem_append_left _ h5) ct h6
    exact ⟨fun _ => by rw [h7]; rfl, fun h => absurd h8 h, fun h => absurd h8 h⟩
  | none =>
    cases hl : sigLate.findSome? (fun sig => sig.match d) with
    | some ct =>
      obtain ⟨sig, h5, h6⟩ := List.exists_of_findSome?_eq_some hl
      obtain ⟨h7, h8⟩ := hall sig (List.mem_append_right _ h5) ct h6
      exact ⟨fun _ => by rw [h7]; rfl, fun h => absurd h8 h, fun h => absurd h8 h⟩
    | none =>
      have hnf : ¬ Fits fontMark d := by
        intro hf
        obtain ⟨sig, h3, h4⟩ := List.mem_filterMap.1 (kinds_known fontMark (by decide +kernel))
        rw [List.findSome?_eq_none_iff] at he hl
        apply (pat_match h4).2 hf
        rcases List.mem_append.1 h3 with h3 | h3
        · exact he sig h3
        · exact hl sig h3
      rw [Option.none_or, Option.none_or, List.findSome?_cons]
      have ht := text_match d
      refine ⟨fun h => absurd h hnf, fun _ hc => ?_, fun _ hc => ?_⟩
      · have : Sig.text.match d = none := Classical.byContradiction fun h => by
          obtain ⟨c, h1, h2⟩ := hc
          exact ht.1 h c h1 h2
        rw [this]; rfl
      · have : Sig.text.match d ≠ none := ht.2 hc
        cases hh : Sig.text.match d with
        | none => exact absurd hh this
        | some ct => rw [match_ct hh]; rfl

/-! ### the response to a crash -/

/-- what has gone to the writer when `Recovery` is done with a crash that left `d` -/
theorem crash_log (o : Oracle) (h200 : o.bad 200 = false) (h500 : o.bad 500 = false) (req : Req) (s : St ω)
    (hs : AtStart s) (rest : List (Prog ω)) (hh : s.ctx.handlers = recovery o :: rest) {msg : Str}
    (hd : (downstream o req s).1 = .panic (.val msg)) :
    (runAll o req s).2.rw.log =
      (let L := if (downstream o req s).2.ctx.written then (downstream o req s).2.rw.log
        else (downstream o req s).2.rw.log ++ [.status true 500 (downstream o req s).2.rw.header]
      if o.stable then L
      else if L = [] then [.status false 200 ((downstream o req s).2.rw.header.put kContentType mimeText), .body (o.crashText (.val msg))]
      else L ++ [.body (o.crashText (.val msg))]) := by
  have hfd : runAll o req s = runAll o req s := rfl
  conv at hfd => rhs; rw [runAll_unfold, hs.1, hh]
  simp only [List.getElem?_cons_zero] at hfd
  rcases hds : downstream o req s with ⟨out, s1⟩
  rw [hds] at hd
  simp only at hd
  subst hd
  have hd' : runAll o req ((s.log (.start 0)).log (.next 0)).bump = (.panic (.val msg), s1) := hds
  rw [recovery_exec h200 h500 hd'] at hfd
  have hw : ((recovered o (some (.val msg)) (s1.log (.thrown 0))).log (.stop 0 (recovered o (some (.val msg)) (s1.log (.thrown 0))).ctx.written)).bump.ctx.written = true :=
    recovered_written o _ _
  simp only [hw, if_true] at hfd
  have e : (runAll o req s).2.rw = (recovered o (some (.val msg)) (s1.log (.thrown 0))).rw := by rw [hfd]; rfl
  rw [e]
  have hc : (s1.log (.thrown 0)).ctx = s1.ctx := rfl
  have hr : (s1.log (.thrown 0)).rw = s1.rw := rfl
  unfold recovered sendStatus
  rw [hc, hr]
  dsimp only
  cases hst : o.stable <;> cases hwr : s1.ctx.written
  · simp only [Bool.false_eq_true, if_false]
    rw [Writer.write_late (by simp), if_neg (by simp)]
  · simp only [Bool.false_eq_true, if_false, if_true, hr]
    by_cases hl : s1.rw.log = []
    · rw [Writer.write_first (by exact hl), if_pos hl]
    · rw [Writer.write_late (by exact hl), if_neg hl]
  · simp
  · simp [hr]

/-- the setting: `Recovery` is the first handler, and the handlers after it end in a panic with this value -/
structure Crashes (o : Oracle) (req : Req) (s : St ω) (msg : Str) : Prop where
  ok : o.bad 200 = false
  five : o.bad 500 = false
  start : AtStart s
  first : ∃ rest, s.ctx.handlers = recovery o :: rest
  panic : (downstream o req s).1 = .panic (.val msg)

/-- C142: if `Status` is `Stable`, nothing of the panic goes to the client: to what was sent before, only the status 500 is added, if none
was sent. -/
theorem C142_silent {o : Oracle} {req : Req} {s : St ω} {msg : Str} (h : Crashes o req s msg) (hst : o.stable = true) :
    (runAll o req s).2.rw.log = (downstream o req s).2.rw.log ++
      (if (downstream o req s).2.ctx.written then [] else [.status true 500 (downstream o req s).2.rw.header]) := by
  obtain ⟨rest, hf⟩ := h.first
  rw [crash_log o h.ok h.five req s h.start rest hf h.panic, hst]
  cases (downstream o req s).2.ctx.written <;> simp

/-- C142: so two requests that differ only in the value that the handlers panic with get the same answer. -/
theorem C142_same {o : Oracle} {req req' : Req} {s s' : St ω} {msg msg' : Str} (h : Crashes o req s msg) (h' : Crashes o req' s' msg')
    (hst : o.stable = true) (hr : (downstream o req s).2.rw = (downstream o req' s').2.rw)
    (hw : (downstream o req s).2.ctx.written = (downstream o req' s').2.ctx.written) :
    (runAll o req s).2.rw.log = (runAll o req' s').2.rw.log := by
  rw [C142_silent h hst, C142_silent h' hst, hr, hw]

theorem receivedBody_append (a b : List WEvent) : receivedBody (a ++ b) = receivedBody a ++ receivedBody b := by
  induction a with
  | nil => rfl
  | cons e a ih => cases e <;> simp [receivedBody, ih]

/-- C142: otherwise the client gets, after what was sent before, the whole report. -/
theorem C142_body {o : Oracle} {req : Req} {s : St ω} {msg : Str} (h : Crashes o req s msg) (hst : o.stable = false) :
    receivedBody (runAll o req s).2.rw.log = receivedBody (downstream o req s).2.rw.log ++ o.crashText (.val msg) := by
  obtain ⟨rest, hf⟩ := h.first
  rw [crash_log o h.ok h.five req s h.start rest hf h.panic, hst]
  cases (downstream o req s).2.ctx.written
  · simp [receivedBody_append, receivedBody]
  · by_cases hl : (downstream o req s).2.rw.log = []
    · simp [hl, receivedBody]
    · simp [hl, receivedBody_append, receivedBody]

/-- a crash before anything was sent: the report is the response -/
theorem crash_first {o : Oracle} {req : Req} {s : St ω} {msg : Str} (h : Crashes o req s msg) (hst : o.stable = false)
    (hl : (downstream o req s).2.rw.log = []) (hw : (downstream o req s).2.ctx.written = false) :
    (runAll o req s).2.rw.log = [.status true 500 (downstream o req s).2.rw.header, .body (o.crashText (.val msg))] := by
  obtain ⟨rest, hf⟩ := h.first
  rw [crash_log o h.ok h.five req s h.start rest hf h.panic, hst, hl, hw]
  simp

/-- C142 (partial): if nothing was sent before, and the handlers had set no header that says what follows, the report is shown as text,
unless there is a control character in the first 512 bytes, when it is shown as data, or the bytes 34 and 35 (the third and the fourth of
the panic value) are `LP`, when it is shown as a font. Missing: the other crashes, see `C142_declared` and `C142_refuted`. -/
theorem C142_label_partial {o : Oracle} {req : Req} {s : St ω} {msg : Str} (h : Crashes o req s msg) (hst : o.stable = false)
    (ho : o.detect = detectStd) {frames : List (Str × Nat)} (hc : o.crashText (.val msg) = crashReport frames msg)
    (hl : (downstream o req s).2.rw.log = []) (hw : (downstream o req s).2.ctx.written = false)
    (ht : (downstream o req s).2.rw.header b!"Content-Type" = none) (hce : (downstream o req s).2.rw.header.get b!"Content-Encoding" = [])
    (hte : (downstream o req s).2.rw.header.get b!"Transfer-Encoding" = []) :
    let t := crashReport frames msg
    let l := label o.detect (runAll o req s).2.rw.log
    (t[34]? = some 76 ∧ t[35]? = some 80 → l = some b!"application/vnd.ms-fontobject") ∧
    (¬ (t[34]? = some 76 ∧ t[35]? = some 80) → (∃ c ∈ t.take 512, Control c) → l = some b!"application/octet-stream") ∧
    (¬ (t[34]? = some 76 ∧ t[35]? = some 80) → (∀ c ∈ t.take 512, ¬ Control c) → l = some b!"text/plain; charset=utf-8") := by
  intro t l
  have hne : t ≠ [] := by show crashReport frames msg ≠ []; unfold crashReport; simp
  have hlab : l = some (detectStd t) := by
    show label o.detect (runAll o req s).2.rw.log = _
    rw [crash_first h hst hl hw, hc, ho]
    unfold label
    simp only [received, receivedHeader, receivedBody, ht, hce, hte, List.append_nil]
    rw [if_neg (by
      rintro (hb | hb | hb | hb)
      · exact absurd hb (by unfold Bodiless; decide)
      · exact hb rfl
      · exact hb rfl
      · exact hne hb), detect_take]
  rw [hlab]
  obtain ⟨h1, h2, h3⟩ := detect_report (s := t) rfl
  exact ⟨fun h => by rw [h1 h], fun h h' => by rw [h2 h h'], fun h h' => by rw [h3 h h']⟩

/-- C142 (partial): so it is not shown as a page, whatever the panic value is. -/
theorem C142_no_page_partial {o : Oracle} {req : Req} {s : St ω} {msg : Str} (h : Crashes o req s msg) (hst : o.stable = false)
    (ho : o.detect = detectStd) {frames : List (Str × Nat)} (hc : o.crashText (.val msg) = crashReport frames msg)
    (hl : (downstream o req s).2.rw.log = []) (hw : (downstream o req s).2.ctx.written = false)
    (ht : (downstream o req s).2.rw.header b!"Content-Type" = none) (hce : (downstream o req s).2.rw.header.get b!"Content-Encoding" = [])
    (hte : (downstream o req s).2.rw.header.get b!"Transfer-Encoding" = []) :
    label o.detect (runAll o req s).2.rw.log ∉ [some b!"text/html; charset=utf-8", some b!"text/xml; charset=utf-8"] := by
  obtain ⟨h1, h2, h3⟩ := C142_label_partial h hst ho hc hl hw ht hce hte

  by_cases a : (crashReport frames msg)[34]? = some 76 ∧ (crashReport frames msg)[35]? = some 80
  · rw [h1 a]; decide
  · by_cases b : ∃ c ∈ (crashReport frames msg).take 512, Control c
    · rw [h2 a b]; decide
    · rw [h3 a (fun c hc hx => b ⟨c, hc, hx⟩)]; decide

/-- C142, the other case: if nothing was sent before, but the handlers had said what follows, the report is shown as that. -/
theorem C142_declared {o : Oracle} {req : Req} {s : St ω} {msg : Str} (h : Crashes o req s msg) (hst : o.stable = false)
    (hl : (downstream o req s).2.rw.log = []) (hw : (downstream o req s).2.ctx.written = false) {t : Str} {ts : List Str}
    (ht : (downstream o req s).2.rw.header b!"Content-Type" = some (t :: ts)) :
    label o.detect (runAll o req s).2.rw.log = some t := by
  refine label_sent (h := (downstream o req s).2.rw.header) ?_ ht
  rw [crash_first h hst hl hw]
  rfl

/-- C142 as stated: whatever handlers crash with, it is not shown as a page. -/
def C142_claim (o : Oracle) : Prop :=
  ∀ (s : St Unit) (msg : Str), Crashes o chainReq s msg → s.rw.log = [] → s.rw.header = Map.empty →
    label o.detect (runAll o chainReq s).2.rw.log ≠ some b!"text/html; charset=utf-8"

namespace Demo

/-- an application in development, with a stack of two frames -/
def devO : Oracle := { chainO with detect := detectStd, crashText := fun v => match v with
  | .nil => []
  | .val m => crashReport [(b!"/src/app/main.go", 12), (b!"/src/water/context.go", 70)] m }

/-- a handler that says that a page follows, and crashes with what a visitor sent -/
def pageCrash : Prog Unit := .do (.setHeader b!"Content-Type" b!"text/html; charset=utf-8") (.panic (.val b!"no such user: <script>alert(1)</script>"))

/-- the same after the page has begun -/
def lateCrash : Prog Unit := .htmlRaw 200 b!"<html><body>" (.panic (.val b!"no such user: <script>alert(1)</script>"))

theorem dev_crash (p : Prog Unit) {msg : Str} (h : (downstream devO chainReq (chainSt [recovery devO, p])).1 = .panic (.val msg)) :
    Crashes devO chainReq (chainSt [recovery devO, p]) msg := ⟨by decide, by decide, chainSt_fresh _, ⟨_, rfl⟩, h⟩

/-- Beside `C142_label_partial`: a crash with a script in its value, which is shown as text. -/
theorem C142_demo : label detectStd (runAll devO chainReq (chainSt [recovery devO, .panic (.val b!"<script>alert(1)</script>")])).2.rw.log =
    some b!"text/plain; charset=utf-8" := by
  refine (C142_label_partial (dev_crash _ rfl) rfl rfl (frames := [(b!"/src/app/main.go", 12), (b!"/src/water/context.go", 70)])
    rfl rfl rfl rfl rfl rfl).2.2 (by decide +kernel) ?_
  unfold Control
  decide +kernel

/-- and one that is shown as a font -/
example : label detectStd (runAll devO chainReq (chainSt [recovery devO, .panic (.val b!"HELP!")])).2.rw.log =
    some b!"application/vnd.ms-fontobject" :=
  (C142_label_partial (dev_crash _ rfl) rfl rfl (frames := [(b!"/src/app/main.go", 12), (b!"/src/water/context.go", 70)])
    rfl rfl rfl rfl rfl rfl).1 (by decide +kernel)

/-- the whole report -/
example : crashReport [(b!"/src/app/main.go", 12), (b!"/src/water/context.go", 70)] b!"boom" =
    b!"HandlerFunc crashed with error: boom\n/src/app/main.go 12\n/src/water/context.go 70" := by decide +kernel

end Demo

/-- C142, as stated, is false: a handler that has said that a page follows, and then crashes with a text of the visitor, sends a script. -/
theorem C142_refuted : ¬ C142_claim devO := by
  intro h
  refine h (chainSt [recovery devO, pageCrash]) _ (dev_crash _ rfl) rfl rfl ?_
  exact C142_declared (dev_crash pageCrash rfl) rfl rfl rfl (ts := []) (by decide +kernel)

/-- It also fails if the page has begun: the report becomes a part of it. -/
theorem C142_page_refuted : ¬ C142_claim devO ∧
    receivedBody (runAll devO chainReq (chainSt [recovery devO, lateCrash])).2.rw.log =
      b!"<html><body>" ++ crashReport [(b!"/src/app/main.go", 12), (b!"/src/water/context.go", 70)] b!"no such user: <script>alert(1)</script>" := by
  refine ⟨fun h => h (chainSt [recovery devO, lateCrash]) _ (dev_crash _ rfl) rfl rfl (by decide +kernel), ?_⟩
  rw [C142_body (dev_crash lateCrash rfl) rfl]
  decide +kernel

end Water
