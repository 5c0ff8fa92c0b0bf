import Verif.Spec.Compose
import Verif.Lemmas.Chain
/- The chain driver computes the composition of the handlers. -/
namespace Water
open Spec
variable {ω : Type}

@[simp] theorem unchained_log (s : St ω) (e : Event) : unchained (s.log e) = unchained s := rfl
@[simp] theorem unchained_bump (s : St ω) : unchained s.bump = unchained s := rfl
@[simp] theorem unchained_written (s : St ω) : (unchained s).ctx.written = s.ctx.written := rfl
@[simp] theorem log_ctx (s : St ω) (e : Event) : (s.log e).ctx = s.ctx := rfl
@[simp] theorem bump_index (s : St ω) : s.bump.ctx.index = s.ctx.index + 1 := rfl
@[simp] theorem bump_handlers (s : St ω) : s.bump.ctx.handlers = s.ctx.handlers := rfl
@[simp] theorem bump_written (s : St ω) : s.bump.ctx.written = s.ctx.written := rfl

theorem unchained_doCall (o : Oracle) (req : Req) (s : St ω) (c : Call ω) :
    doCall o req (unchained s) c = ((doCall o req s c).1, unchained (doCall o req s c).2) := by
  cases c with
  | writeHeader code =>
    simp only [doCall, St.writeHeader, unchained]
    by_cases hw : s.ctx.written = true
    · simp [hw]
    · simp only [hw, if_false, Bool.false_eq_true]
      rcases hr : s.rw.writeHeader o.bad code with ⟨p, rw'⟩
      cases p <;> rfl
  | write data =>
    simp only [doCall, St.write, St.writeHeader, unchained]
    by_cases hw : s.ctx.written = true
    · simp [hw]
    · simp only [hw, if_false, Bool.false_eq_true]
      by_cases hd : data.length > 0 ∧ s.rw.header.get kContentType = []
      · simp only [hd, and_self, if_true, hw, if_false, Bool.false_eq_true]
        rcases hr : Writer.writeHeader o.bad _ 200 with ⟨p, rw'⟩
        cases p <;> rfl
      · simp only [hd, if_false, hw, Bool.false_eq_true]
        rcases hr : s.rw.writeHeader o.bad 200 with ⟨p, rw'⟩
        cases p <;> rfl
  | setHeader k v => rfl
  | header f => rfl
  | rawWriteHeader code =>
    simp only [doCall, unchained]
    rcases hr : s.rw.writeHeader o.bad code with ⟨p, rw'⟩
    cases p <;> rfl
  | rawWrite data => rfl
  | written => rfl
  | status => rfl
  | fullPath => rfl
  | param k =>
    simp only [doCall, unchained]
    cases s.ctx.params k <;> rfl
  | envSet k v =>
    simp only [doCall, unchained]
    by_cases h : (s.ctx.environ k).isSome = true <;> simp [h]
  | envGet k =>
    simp only [doCall, unchained]
    cases s.ctx.environ k <;> rfl
  | envMaybe k => rfl
  | reqMethod => rfl
  | reqTexts _ => rfl
  | reqPath => rfl
  | reqHeader k => rfl
  | readBody limit =>
    simp only [doCall, unchained]
    cases hb : s.body <;> simp [hb]
  | hasBody => rfl
  | setBody data => rfl
  | parseForm =>
    simp only [doCall, St.parseForm, unchained]
    by_cases hp : s.ctx.parsedParams = true
    · simp [hp]
    · cases hf : (o.parse req (wantsMultipart req) s.body).fails <;> simp [hp]
  | readForm f =>
    simp only [doCall, St.parseForm, unchained]
    by_cases hp : s.ctx.parsedParams = true
    · simp [hp]
    · cases hf : (o.parse req (wantsMultipart req) s.body).fails <;> simp [hp]
  | world f => rfl

theorem written_mono_doCall (o : Oracle) (req : Req) (s : St ω) (c : Call ω) (h : s.ctx.written = true) :
    (doCall o req s c).2.ctx.written = true := by
  rcases (doCall_frame o req s c).2.2.2 with e | e
  · rw [e]; exact h
  · exact e

/-- code that does not call `Next`: the driver and the function agree, the position stays, a response stays -/
theorem quiet_asFunction (o : Oracle) (req : Req) (nx : St ω → Out × St ω) (next : St ω → Out × St ω) (i : Nat) (p : Prog ω) (hp : NoNext p)
    (b : Bool) (s : St ω) :
    asFunction o req next p b (unchained s) = ((exec o req nx i p s).1, b, unchained (exec o req nx i p s).2) ∧
    (exec o req nx i p s).2.ctx.index = s.ctx.index ∧ (exec o req nx i p s).2.ctx.handlers = s.ctx.handlers ∧
    (s.ctx.written = true → (exec o req nx i p s).2.ctx.written = true) := by
  induction p generalizing b s with
  | ret => simp [asFunction, exec]
  | panic v => simp [asFunction, exec]
  | next k _ => exact absurd hp (by simp [NoNext])
  | call c k ih =>
    simp only [asFunction, exec, unchained_doCall]
    have hf := doCall_frame o req s c
    have hm := written_mono_doCall o req s c
    rcases hd : doCall o req s c with ⟨r, s1⟩
    rw [hd] at hf hm
    cases r with
    | ok r =>
      obtain ⟨h1, h2, h3, h4⟩ := ih r (hp r) b s1
      refine ⟨h1, h2.trans hf.2.2.1, h3.trans hf.1, fun h => h4 (hm h)⟩
    | error v => exact ⟨rfl, hf.2.2.1, hf.1, hm⟩
  | scope body fin ihb ihf =>
    simp only [asFunction, exec]
    obtain ⟨h1, h2, h3, h4⟩ := ihb hp.1 b s
    rcases he : exec o req nx i body s with ⟨out, s1⟩
    rw [he] at h1 h2 h3 h4
    rw [h1]
    cases out with
    | ret =>
      obtain ⟨g1, g2, g3, g4⟩ := ihf none (hp.2 none) b s1
      exact ⟨g1, g2.trans h2, g3.trans h3, fun h => g4 (h4 h)⟩
    | panic v =>
      obtain ⟨g1, g2, g3, g4⟩ := ihf (some v) (hp.2 _) b s1
      exact ⟨g1, g2.trans h2, g3.trans h3, fun h => g4 (h4 h)⟩
    | fuel => exact ⟨rfl, h2, h3, h4⟩

/-- what the driver does from a position, against the composition of what is left -/
def Composes (o : Oracle) (req : Req) (t : List (Prog ω)) (nx : St ω → Out × St ω) : Prop :=
  ∀ s : St ω, s.ctx.handlers.drop s.ctx.index = t →
    compose o req t (unchained s) = ((nx s).1, unchained (nx s).2) ∧ (nx s).2.ctx.handlers = s.ctx.handlers ∧
    (s.ctx.written = true → (nx s).2.ctx.written = true) ∧
    ((nx s).1 = .ret → (nx s).2.ctx.written = true ∨ s.ctx.handlers.length ≤ (nx s).2.ctx.index)

/-- the code of a handler that calls `Next` at most once -/
theorem single_asFunction (o : Oracle) (req : Req) {t : List (Prog ω)} {nx : St ω → Out × St ω} (hnx : Composes o req t nx) (i : Nat)
    (p : Prog ω) (hp : Single p) (s : St ω) (hi : s.ctx.index = i) (ht : s.ctx.handlers.drop (i + 1) = t) :
    ∃ b, asFunction o req (compose o req t) p false (unchained s) = ((exec o req nx i p s).1, b, unchained (exec o req nx i p s).2) ∧
      (exec o req nx i p s).2.ctx.handlers = s.ctx.handlers ∧
      (s.ctx.written = true → (exec o req nx i p s).2.ctx.written = true) ∧
      (b = false → (exec o req nx i p s).2.ctx.index = i) ∧
      (b = true → (exec o req nx i p s).1 = .ret →
        (exec o req nx i p s).2.ctx.written = true ∨ s.ctx.handlers.length ≤ (exec o req nx i p s).2.ctx.index) := by
  induction p generalizing s with
  | ret => exact ⟨false, rfl, rfl, id, fun _ => hi, by simp⟩
  | panic v => exact ⟨false, rfl, rfl, id, fun _ => hi, by simp⟩
  | next k _ =>
    simp only [asFunction, exec]
    obtain ⟨h1, h2, h3, h4⟩ := hnx (s.log (.next i)).bump (by simp [hi, ht])
    simp only [unchained_bump, unchained_log, bump_handlers, log_ctx, bump_written] at h1 h2 h3 h4
    rcases hn : nx (s.log (.next i)).bump with ⟨out, s1⟩
    rw [hn] at h1 h2 h3 h4
    rw [h1]
    cases out with
    | ret =>
      obtain ⟨g1, g2, g3, g4⟩ := quiet_asFunction o req nx (compose o req t) i k hp true (s1.log (.back i))
      simp only [unchained_log, log_ctx] at g1 g2 g3 g4
      refine ⟨true, g1, g3.trans h2, fun h => g4 (h3 h), by simp, ?_⟩
      intro _ _
      rcases h4 rfl with h | h
      · exact .inl (g4 h)
      · exact .inr (by rw [g2]; exact h)
    | panic v => exact ⟨true, by simp, h2, h3, by simp, by simp⟩
    | fuel => exact ⟨true, rfl, h2, h3, by simp, by simp⟩
  | call c k ih =>
    simp only [asFunction, exec, unchained_doCall]
    have hf := doCall_frame o req s c
    have hm := written_mono_doCall o req s c
    rcases hd : doCall o req s c with ⟨r, s1⟩
    rw [hd] at hf hm
    cases r with
    | ok r =>
      obtain ⟨b, h1, h2, h3, h4, h5⟩ := ih r (hp r) s1 (hf.2.2.1.trans hi) (by rw [hf.1]; exact ht)
      refine ⟨b, h1, h2.trans hf.1, fun h => h3 (hm h), h4, ?_⟩
      rw [hf.1] at h5
      exact h5
    | error v => exact ⟨false, rfl, hf.1, hm, fun _ => hf.2.2.1.trans hi, by simp⟩
  | scope body fin ihb ihf =>
    simp only [asFunction, exec]
    rcases hp with ⟨hb, hf⟩ | ⟨hb, hf, hr⟩
    · obtain ⟨h1, h2, h3, h4⟩ := quiet_asFunction o req nx (compose o req t) i body hb false s
      rcases he : exec o req nx i body s with ⟨out, s1⟩
      rw [he] at h1 h2 h3 h4
      rw [h1]
      cases out with
      | ret =>
        obtain ⟨b, g1, g2, g3, g4, g5⟩ := ihf none (hf _) s1 (h2.trans hi) (by rw [h3]; exact ht)
        refine ⟨b, g1, g2.trans h3, fun h => g3 (h4 h), g4, ?_⟩
        simp only at h3
        rw [h3] at g5
        exact g5
      | panic v =>
        obtain ⟨b, g1, g2, g3, g4, g5⟩ := ihf (some v) (hf _) s1 (h2.trans hi) (by rw [h3]; exact ht)
        refine ⟨b, g1, g2.trans h3, fun h => g3 (h4 h), g4, ?_⟩
        simp only at h3
        rw [h3] at g5
        exact g5
      | fuel => exact ⟨false, rfl, h3, h4, fun _ => h2.trans hi, by simp⟩
    · obtain ⟨b, h1, h2, h3, h4, h5⟩ := ihb hb s hi ht
      rcases he : exec o req nx i body s with ⟨out, s1⟩
      rw [he] at h1 h2 h3 h4 h5
      rw [h1]
      cases out with
      | ret =>
        obtain ⟨g1, g2, g3, g4⟩ := quiet_asFunction o req nx (compose o req t) i (fin none) (hf _) b s1
        refine ⟨b, g1, g3.trans h2, fun h => g4 (h3 h), fun h => g2.trans (h4 h), ?_⟩
        intro hbt _
        rcases h5 hbt rfl with h | h
        · exact .inl (g4 h)
        · exact .inr (by rw [g2]; exact h)
      | panic v =>
        obtain ⟨g1, g2, g3, g4⟩ := quiet_asFunction o req nx (compose o req t) i (fin (some v)) (hf _) b s1
        refine ⟨b, g1, g3.trans h2, fun h => g4 (h3 h), fun h => g2.trans (h4 h), ?_⟩
        intro _ hret
        left
        apply hr v o req nx i s1
        have hret' : (exec o req nx i (fin (some v)) s1).1 = .ret := hret
        exact Prod.ext hret' rfl
      | fuel => exact ⟨b, rfl, h2, h3, h4, by simp⟩

theorem run_composes (o : Oracle) (req : Req) (t : List (Prog ω)) (ht : ∀ h ∈ t, Single h) (fuel : Nat) (hf : t.length < fuel) :
    Composes o req t (run o req fuel) := by
  induction t generalizing fuel with
  | nil =>
    intro s hd
    have hl : s.ctx.handlers.length ≤ s.ctx.index := List.drop_eq_nil_iff.1 hd
    cases fuel with
    | zero => simp at hf
    | succ fuel =>
      have hg : s.ctx.handlers[s.ctx.index]? = none := List.getElem?_eq_none hl
      simp only [compose, run, hg]
      exact ⟨trivial, trivial, id, fun _ => .inr hl⟩
  | cons h t ih =>
    intro s hd
    cases fuel with
    | zero => simp at hf
    | succ fuel =>
      have hft : t.length < fuel := by simp at hf; exact hf
      have hnx := ih (fun x hx => ht x (by simp [hx])) fuel hft
      have hg : s.ctx.handlers[s.ctx.index]? = some h := by
        have := congrArg (fun l => l[0]?) hd
        simpa using this
      have hd' : s.ctx.handlers.drop (s.ctx.index + 1) = t := by
        rw [← List.drop_drop, hd]; rfl
      obtain ⟨b, h1, h2, h3, h4, h5⟩ := single_asFunction o req hnx s.ctx.index h (ht h (by simp)) (s.log (.start s.ctx.index)) rfl hd'
      simp only [unchained_log, log_ctx] at h1 h2 h3 h4 h5
      simp only [compose, run, hg, h1]
      rcases he : exec o req (run o req fuel) s.ctx.index h (s.log (.start s.ctx.index)) with ⟨out, s1⟩
      rw [he] at h2 h3 h4 h5
      cases out with
      | ret =>
        simp only [unchained_written, bump_written, log_ctx]
        simp only [] at h2 h3 h4 h5
        by_cases hw : s1.ctx.written = true
        · simp only [hw, Bool.or_true, if_true]
          exact ⟨by simp, h2, fun _ => hw, fun _ => .inl hw⟩
        · simp only [hw, Bool.or_false, Bool.false_eq_true, if_false]
          cases hb : b with
          | true =>
            simp only [if_true]
            rcases h5 hb trivial with h | h
            · exact absurd h hw
            · have hlen : s1.ctx.handlers.length ≤ s1.ctx.index + 1 := by rw [h2]; omega
              have hrun : run o req fuel ((s1.log (.stop s.ctx.index false)).bump) = (.ret, (s1.log (.stop s.ctx.index false)).bump) := by
                cases fuel with
                | zero => omega
                | succ f => simp only [run]; rw [List.getElem?_eq_none (by simpa using hlen)]
              rw [hrun]
              refine ⟨rfl, h2, fun hs => absurd (h3 hs) hw, fun _ => .inr ?_⟩
              simp only [bump_index, log_ctx]
              rw [h2] at hlen; exact hlen
          | false =>
            simp only [Bool.false_eq_true, if_false]
            have hi := h4 hb
            obtain ⟨g1, g2, g3, g4⟩ := hnx ((s1.log (.stop s.ctx.index false)).bump) (by simp [hi, h2, hd'])
            simp only [unchained_bump, unchained_log, bump_handlers, log_ctx, bump_written] at g1 g2 g3 g4
            rw [h2] at g2 g4
            exact ⟨g1, g2, fun hs => g3 (h3 hs), g4⟩
      | panic v => exact ⟨by simp, h2, h3, by simp⟩
      | fuel => exact ⟨rfl, h2, h3, by simp⟩

end Water
