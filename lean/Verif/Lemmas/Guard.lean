import Verif.Spec.Guard
import Verif.Lemmas.Compose
import Verif.Lemmas.Response
/- A chain behind a handler that refuses. -/
namespace Water
open Spec
variable {ω : Type}

/-- the state with another chain -/
def St.chained (s : St ω) (L : List (Prog ω)) : St ω := { s with ctx := { s.ctx with handlers := L } }

@[simp] theorem chained_log (s : St ω) (L : List (Prog ω)) (e : Event) : (s.chained L).log e = (s.log e).chained L := rfl
@[simp] theorem chained_bump (s : St ω) (L : List (Prog ω)) : (s.chained L).bump = s.bump.chained L := rfl
@[simp] theorem chained_index (s : St ω) (L : List (Prog ω)) : (s.chained L).ctx.index = s.ctx.index := rfl
@[simp] theorem chained_written (s : St ω) (L : List (Prog ω)) : (s.chained L).ctx.written = s.ctx.written := rfl
@[simp] theorem chained_handlers (s : St ω) (L : List (Prog ω)) : (s.chained L).ctx.handlers = L := rfl
@[simp] theorem unchained_chained (s : St ω) (L : List (Prog ω)) : unchained (s.chained L) = unchained s := rfl

theorem chained_doCall (o : Oracle) (req : Req) (s : St ω) (L : List (Prog ω)) (c : Call ω) :
    doCall o req (s.chained L) c = ((doCall o req s c).1, (doCall o req s c).2.chained L) := by
  cases c with
  | writeHeader code =>
    simp only [doCall, St.writeHeader, St.chained]
    by_cases hw : s.ctx.written = true
    · simp [hw]
    · simp only [hw, if_false, Bool.false_eq_true]
      rcases hr : s.rw.writeHeader o.bad code with ⟨p, rw'⟩
      cases p <;> rfl
  | write data =>
    simp only [doCall, St.write, St.writeHeader, St.chained]
    by_cases hw : s.ctx.written = true
    · simp [hw]
    · simp only [hw, if_false, Bool.false_eq_true]
      by_cases hd : data.length > 0 ∧ s.rw.header.get kContentType = []
      · simp only [hd, and_self, if_true, hw, if_false, Bool.false_eq_true]
        rcases hr : Writer.writeHeader o.bad _ 200 with ⟨p, rw'⟩
        cases p <;> rfl
      · simp only [hd, if_false, hw, Bool.false_eq_true]
        rcases hr : s.rw.writeHeader o.bad 200 with ⟨p, rw'⟩
        cases p <;> rfl
  | setHeader k v => rfl
  | header f => rfl
  | rawWriteHeader code =>
    simp only [doCall, St.chained]
    rcases hr : s.rw.writeHeader o.bad code with ⟨p, rw'⟩
    cases p <;> rfl
  | rawWrite data => rfl
  | written => rfl
  | status => rfl
  | fullPath => rfl
  | param k =>
    simp only [doCall, St.chained]
    cases s.ctx.params k <;> rfl
  | envSet k v =>
    simp only [doCall, St.chained]
    by_cases h : (s.ctx.environ k).isSome = true <;> simp [h]
  | envGet k =>
    simp only [doCall, St.chained]
    cases s.ctx.environ k <;> rfl
  | envMaybe k => rfl
  | reqMethod => rfl
  | reqTexts _ => rfl
  | reqPath => rfl
  | reqHeader k => rfl
  | readBody limit =>
    simp only [doCall, St.chained]
    cases hb : s.body <;> simp [hb]
  | hasBody => rfl
  | setBody data => rfl
  | parseForm =>
    simp only [doCall, St.parseForm, St.chained]
    by_cases hp : s.ctx.parsedParams = true
    · simp [hp]
    · cases hf : (o.parse req (wantsMultipart req) s.body).fails <;> simp [hp]
  | readForm f =>
    simp only [doCall, St.parseForm, St.chained]
    by_cases hp : s.ctx.parsedParams = true
    · simp [hp]
    · cases hf : (o.parse req (wantsMultipart req) s.body).fails <;> simp [hp]
  | world f => rfl

/-- the flag stays set -/
theorem asFunction_called (o : Oracle) (req : Req) (next : St ω → Out × St ω) (p : Prog ω) (s : St ω) :
    (asFunction o req next p true s).2.1 = true := by
  induction p generalizing s with
  | ret => rfl
  | panic v => rfl
  | next k ih =>
    simp only [asFunction]
    rcases hn : next s with ⟨out, s1⟩
    cases out
    · exact ih s1
    · rfl
    · rfl
  | call c k ih =>
    simp only [asFunction]
    rcases hd : doCall o req s c with ⟨r, s1⟩
    cases r
    · rfl
    · exact ih _ s1
  | scope body fin ihb ihf =>
    simp only [asFunction]
    have hb := ihb s
    rcases hr : asFunction o req next body true s with ⟨out, b, s1⟩
    rw [hr] at hb
    cases hb
    cases out
    · exact ihf none s1
    · exact ihf _ s1
    · rfl

/-- Code that does not call `Next` here: it is the same with any chain, and agrees with the function. -/
theorem unasked (o : Oracle) (req : Req) (next nx nx' : St ω → Out × St ω) (L : List (Prog ω)) (i : Nat) (p : Prog ω) (s : St ω)
    (h : (asFunction o req next p false (unchained s)).2.1 = false) :
    asFunction o req next p false (unchained s) = ((exec o req nx i p s).1, false, unchained (exec o req nx i p s).2) ∧
    exec o req nx' i p (s.chained L) = ((exec o req nx i p s).1, (exec o req nx i p s).2.chained L) ∧
    (exec o req nx i p s).2.ctx.index = s.ctx.index ∧ (exec o req nx i p s).2.ctx.handlers = s.ctx.handlers ∧
    (s.ctx.written = true → (exec o req nx i p s).2.ctx.written = true) := by
  induction p generalizing s with
  | ret => exact ⟨rfl, rfl, rfl, rfl, id⟩
  | panic v => exact ⟨rfl, rfl, rfl, rfl, id⟩
  | next k _ =>
    exfalso
    simp only [asFunction] at h
    rcases hn : next (unchained s) with ⟨out, s1⟩
    rw [hn] at h
    cases out
    · simp only [] at h
      rw [asFunction_called] at h
      cases h
    · cases h
    · cases h
  | call c k ih =>
    simp only [asFunction, exec, unchained_doCall, chained_doCall] at h ⊢
    have hf := doCall_frame o req s c
    have hm := written_mono_doCall o req s c
    rcases hd : doCall o req s c with ⟨r, s1⟩
    rw [hd] at hf hm h
    cases r with
    | ok r =>
      obtain ⟨h1, h2, h3, h4, h5⟩ := ih r s1 h
      exact ⟨h1, h2, h3.trans hf.2.2.1, h4.trans hf.1, fun x => h5 (hm x)⟩
    | error v => exact ⟨rfl, rfl, hf.2.2.1, hf.1, hm⟩
  | scope body fin ihb ihf =>
    simp only [asFunction, exec] at h ⊢
    have hb : (asFunction o req next body false (unchained s)).2.1 = false := by
      rcases hr : asFunction o req next body false (unchained s) with ⟨out, b, s1⟩
      rw [hr] at h
      cases b with
      | false => rfl
      | true => cases out <;> simp [asFunction_called] at h
    obtain ⟨h1, h2, h3, h4, h5⟩ := ihb s hb
    rw [h1] at h ⊢
    rw [h2]
    rcases he : exec o req nx i body s with ⟨out, s1⟩
    rw [he] at h h3 h4 h5
    simp only [] at h h3 h4 h5
    cases out with
    | ret =>
      obtain ⟨g1, g2, g3, g4, g5⟩ := ihf none s1 h
      exact ⟨g1, g2, g3.trans h3, g4.trans h4, fun x => g5 (h5 x)⟩
    | panic v =>
      obtain ⟨g1, g2, g3, g4, g5⟩ := ihf (some v) s1 h
      exact ⟨g1, g2, g3.trans h3, g4.trans h4, fun x => g5 (h5 x)⟩
    | fuel => exact ⟨rfl, rfl, h3, h4, h5⟩

theorem quiet_chained (o : Oracle) (req : Req) (nx nx' : St ω → Out × St ω) (L : List (Prog ω)) (i : Nat) (p : Prog ω) (hp : NoNext p) (s : St ω) :
    exec o req nx' i p (s.chained L) = ((exec o req nx i p s).1, (exec o req nx i p s).2.chained L) ∧
    (exec o req nx i p s).2.ctx.index = s.ctx.index ∧ (exec o req nx i p s).2.ctx.handlers = s.ctx.handlers ∧
    (s.ctx.written = true → (exec o req nx i p s).2.ctx.written = true) := by
  have h := (quiet_asFunction o req nx (fun s => (.fuel, s)) i p hp false s).1
  exact (unasked o req (fun s => (.fuel, s)) nx nx' L i p s (by rw [h])).2

theorem exec_lasting (o : Oracle) (req : Req) {P : St ω → Prop} (hP : Lasting o req P) (nx : St ω → Out × St ω) (hnx : ∀ s, P s → P (nx s).2)
    (i : Nat) (p : Prog ω) (s : St ω) (hs : P s) : P (exec o req nx i p s).2 :=
  exec_inv o req P (fun _ => True) nx (fun s e _ h => hP.1 s _ rfl h) (fun s h => hP.1 s _ rfl h) (fun s c _ h => hP.2 s c h) hnx i p
    (callsIn_true p) s hs

/-- What the driver does from a position in two chains that agree from there up to a handler that refuses. -/
def Ends (P : St ω → Prop) (L L' : List (Prog ω)) (j : Nat) (nx nx' : St ω → Out × St ω) : Prop :=
  ∀ s : St ω, P s → s.ctx.handlers = L → s.ctx.index = j →
    nx' (s.chained L') = ((nx s).1, (nx s).2.chained L') ∧ (nx s).2.ctx.handlers = L ∧ ((nx s).1 = .ret → (nx s).2.ctx.written = true)

theorem single_ends (o : Oracle) (req : Req) {P : St ω → Prop} (hP : Lasting o req P) {L L' : List (Prog ω)} {j : Nat}
    {nx nx' : St ω → Out × St ω} (hnx : Ends P L L' (j + 1) nx nx') (hk : ∀ s, P s → P (nx s).2) (p : Prog ω) (hp : Single p) (s : St ω)
    (hs : P s) (hL : s.ctx.handlers = L) (hj : s.ctx.index = j) :
    exec o req nx' j p (s.chained L') = ((exec o req nx j p s).1, (exec o req nx j p s).2.chained L') ∧
    (exec o req nx j p s).2.ctx.handlers = L ∧
    ((exec o req nx j p s).1 = .ret → (exec o req nx j p s).2.ctx.written = true ∨ (exec o req nx j p s).2.ctx.index = j) := by
  induction p generalizing s with
  | ret => exact ⟨rfl, hL, fun _ => .inr hj⟩
  | panic v => exact ⟨rfl, hL, fun _ => .inr hj⟩
  | next k _ =>
    simp only [exec, chained_log, chained_bump]
    obtain ⟨h1, h2, h3⟩ := hnx (s.log (.next j)).bump (hP.1 s _ rfl hs) hL (by simp [hj])
    rw [h1]
    rcases hn : nx (s.log (.next j)).bump with ⟨out, s1⟩
    rw [hn] at h2 h3
    cases out with
    | ret =>
      obtain ⟨g1, g2, g3, g4⟩ := quiet_chained o req nx nx' L' j k hp (s1.log (.back j))
      exact ⟨g1, g3.trans h2, fun _ => .inl (g4 (h3 rfl))⟩
    | panic v => exact ⟨rfl, h2, fun h => (by cases h)⟩
    | fuel => exact ⟨rfl, h2, fun h => (by cases h)⟩
  | call c k ih =>
    simp only [exec, chained_doCall]
    have hf := doCall_frame o req s c
    have hp' := hP.2 s c hs
    rcases hd : doCall o req s c with ⟨r, s1⟩
    rw [hd] at hf hp'
    cases r with
    | ok r => exact ih r (hp r) s1 hp' (hf.1.trans hL) (hf.2.2.1.trans hj)
    | error v => exact ⟨rfl, hf.1.trans hL, fun h => (by cases h)⟩
  | scope body fin ihb ihf =>
    simp only [exec]
    have hPb := exec_lasting o req hP nx hk j body s hs
    rcases hp with ⟨hb, hf⟩ | ⟨hb, hf, hr⟩
    · obtain ⟨h1, h2, h3, h4⟩ := quiet_chained o req nx nx' L' j body hb s
      rw [h1]
      rcases he : exec o req nx j body s with ⟨out, s1⟩
      rw [he] at h2 h3 h4 hPb
      cases out with
      | ret => exact ihf none (hf _) s1 hPb (h3.trans hL) (h2.trans hj)
      | panic v => exact ihf (some v) (hf _) s1 hPb (h3.trans hL) (h2.trans hj)
      | fuel => exact ⟨rfl, h3.trans hL, fun h => (by cases h)⟩
    · obtain ⟨h1, h2, h3⟩ := ihb hb s hs hL hj
      rw [h1]
      rcases he : exec o req nx j body s with ⟨out, s1⟩
      rw [he] at h2 h3
      cases out with
      | ret =>
        obtain ⟨g1, g2, g3, g4⟩ := quiet_chained o req nx nx' L' j (fin none) (hf _) s1
        refine ⟨g1, g3.trans h2, fun _ => ?_⟩
        rcases h3 rfl with h | h
        · exact .inl (g4 h)
        · exact .inr (g2.trans h)
      | panic v =>
        obtain ⟨g1, g2, g3, g4⟩ := quiet_chained o req nx nx' L' j (fin (some v)) (hf _) s1
        refine ⟨g1, g3.trans h2, fun h => .inl ?_⟩
        exact hr v o req nx j s1 _ (Prod.ext h rfl)
      | fuel => exact ⟨rfl, h2, fun h => (by cases h)⟩

theorem run_lasting (o : Oracle) (req : Req) {P : St ω → Prop} (hP : Lasting o req P) (fuel : Nat) (s : St ω) (hs : P s) :
    P (run o req fuel s).2 :=
  run_inv o req P (fun _ => True) (fun s _ h => hP.1 s _ rfl h) (fun s h => hP.1 s _ rfl h) (fun s c _ h => hP.2 s c h)
    (fun _ _ h _ => callsIn_true h) fuel s hs

/-- The driver from position `j`, in two chains that agree up to the handler that refuses, at `pre.length`. -/
theorem run_ends (o : Oracle) (req : Req) {P : St ω → Prop} (hP : Lasting o req P) {pre post post' : List (Prog ω)} {g : Prog ω}
    (hpre : ∀ h ∈ pre, Single h) (hg : Refuses o req P g) (k : Nat) (hk : k ≤ pre.length) (fuel fuel' : Nat) (hf : k < fuel) (hf' : k < fuel') :
    Ends P (pre ++ g :: post) (pre ++ g :: post') (pre.length - k) (run o req fuel) (run o req fuel') := by
  induction k generalizing fuel fuel' with
  | zero =>
    intro s hs hL hj
    cases fuel with
    | zero => cases hf
    | succ fuel =>
    cases fuel' with
    | zero => cases hf'
    | succ fuel' =>
    have hi : ∀ t : List (Prog ω), (pre ++ g :: t)[s.ctx.index]? = some g := by
      intro t; rw [hj]; simp
    simp only [run, chained_handlers, chained_index, hL, hi]
    obtain ⟨h0, h0'⟩ := hg (fun s => (.fuel, s)) (unchained (s.log (.start s.ctx.index))) (hP.1 s _ rfl hs)
    obtain ⟨h1, h2, h3, h4, -⟩ := unasked o req (fun s => (.fuel, s)) (run o req fuel) (run o req fuel') (pre ++ g :: post') s.ctx.index g
      (s.log (.start s.ctx.index)) h0
    rw [h1] at h0'
    rw [chained_log, h2]
    rcases he : exec o req (run o req fuel) s.ctx.index g (s.log (.start s.ctx.index)) with ⟨out, s1⟩
    rw [he] at h0' h4
    cases out with
    | ret =>
      have hw : s1.ctx.written = true := h0' rfl
      simp [hw, St.log, St.bump, St.chained]
      exact h4.trans hL
    | panic v => exact ⟨rfl, h4.trans hL, fun h => (by cases h)⟩
    | fuel => exact ⟨rfl, h4.trans hL, fun h => (by cases h)⟩
  | succ k ih =>
    intro s hs hL hj
    cases fuel with
    | zero => cases hf
    | succ fuel =>
    cases fuel' with
    | zero => cases hf'
    | succ fuel' =>
    have hlt : s.ctx.index < pre.length := by omega
    have hi : ∀ t : List (Prog ω), (pre ++ g :: t)[s.ctx.index]? = some pre[s.ctx.index] := by
      intro t; rw [List.getElem?_append_left hlt, List.getElem?_eq_getElem hlt]
    have hn := ih (by omega) fuel fuel' (by omega) (by omega)
    have hjk : pre.length - k = s.ctx.index + 1 := by omega
    rw [hjk] at hn
    simp only [run, chained_handlers, chained_index, hL, hi]
    have hs0 : P (s.log (.start s.ctx.index)) := hP.1 s _ rfl hs
    obtain ⟨h1, h2, h3⟩ := single_ends o req hP hn (fun s => run_lasting o req hP fuel s) pre[s.ctx.index] (hpre _ (List.getElem_mem hlt))
      (s.log (.start s.ctx.index)) hs0 hL rfl
    have h4 := exec_lasting o req hP (run o req fuel) (fun s => run_lasting o req hP fuel s) s.ctx.index pre[s.ctx.index] _ hs0
    rw [chained_log, h1]
    rcases he : exec o req (run o req fuel) s.ctx.index pre[s.ctx.index] (s.log (.start s.ctx.index)) with ⟨out, s1⟩
    rw [he] at h2 h3 h4
    simp only [] at h2 h3 h4
    cases out with
    | ret =>
      by_cases hw : s1.ctx.written = true
      · simp [hw, St.log, St.bump, St.chained]
        exact h2
      · have hidx : s1.ctx.index = s.ctx.index := (h3 rfl).resolve_left hw
        simp only [chained_log, chained_bump, chained_written, bump_written, log_ctx, hw, if_false, Bool.false_eq_true]
        exact hn ((s1.log (.stop s.ctx.index false)).bump) (hP.1 s1 _ rfl h4) h2 (by simp [hidx])
    | panic v => exact ⟨rfl, h2, fun h => (by cases h)⟩
    | fuel => exact ⟨rfl, h2, fun h => (by cases h)⟩

end Water
