import Verif.Lemmas.Url
import Verif.Props.Values
/-
C79, C80, C81: from the query string and the body of a request to the values its handlers read.
-/
namespace Water
open Spec
variable {ω : Type}

/-! ### parsing a plain form -/

/-- the body is read as a form of pairs -/
def Urlencoded (m : Mime) (req : Req) : Prop :=
  (m.mediaType (if req.header.get b!"Content-Type" = [] then b!"application/octet-stream" else req.header.get b!"Content-Type")).1 =
    b!"application/x-www-form-urlencoded"

/-- `mime.ParseMediaType` complains -/
def TypeFails (m : Mime) (req : Req) : Prop :=
  (m.mediaType (if req.header.get b!"Content-Type" = [] then b!"application/octet-stream" else req.header.get b!"Content-Type")).2 = true

/-- The text the pairs of the body are read from, if it has a form. -/
def FormText (m : Mime) (req : Req) (body : Option Str) (d : Str) : Prop := FormMethod req ∧ body = some d ∧ Urlencoded m req

theorem formMethod_iff (req : Req) : FormMethod req ↔ (req.method = mPOST ∨ req.method = mPUT ∨ req.method = mPATCH) := by
  unfold FormMethod
  simp [mPOST, mPUT, mPATCH]

theorem parsePlain_text {m : Mime} {req : Req} {body : Option Str} {d : Str} (h : FormText m req body d)
    (hl : d.length ≤ 10 * 2 ^ 20) :
    (parsePlain m req body).form = copyValues (parseQuery d).1 (parseQuery req.rawQuery).1 ∧
    ((parsePlain m req body).fails = true ↔ TypeFails m req ∨ (parseQuery d).2 = true ∨ (parseQuery req.rawQuery).2 = true) ∧
    (parsePlain m req body).read = d.length := by
  obtain ⟨h1, rfl, h2⟩ := h
  unfold parsePlain
  rw [if_pos ((formMethod_iff req).1 h1)]
  unfold parsePostForm
  have h2' : (m.mediaType (if req.header.get kContentType = [] then b!"application/octet-stream" else req.header.get kContentType)).1 =
      b!"application/x-www-form-urlencoded" := h2
  dsimp only
  rw [if_pos h2', if_neg (by show ¬ d.length > 10 * 2 ^ 20; omega)]
  refine ⟨rfl, ?_, rfl⟩
  simp only [Bool.or_eq_true, or_assoc]
  exact Iff.rfl

theorem parsePlain_long {m : Mime} {req : Req} {body : Option Str} {d : Str} (h : FormText m req body d)
    (hl : 10 * 2 ^ 20 < d.length) :
    (parsePlain m req body).form = copyValues [] (parseQuery req.rawQuery).1 ∧ (parsePlain m req body).fails = true ∧
    (parsePlain m req body).read = 10 * 2 ^ 20 + 1 := by
  obtain ⟨h1, rfl, h2⟩ := h
  unfold parsePlain
  rw [if_pos ((formMethod_iff req).1 h1)]
  unfold parsePostForm
  have h2' : (m.mediaType (if req.header.get kContentType = [] then b!"application/octet-stream" else req.header.get kContentType)).1 =
      b!"application/x-www-form-urlencoded" := h2
  dsimp only
  rw [if_pos h2', if_pos (by show d.length > 10 * 2 ^ 20; omega)]
  exact ⟨rfl, by simp, rfl⟩

theorem parsePlain_none {m : Mime} {req : Req} {body : Option Str} (h : ∀ d, ¬ FormText m req body d) :
    (parsePlain m req body).form = copyValues [] (parseQuery req.rawQuery).1 ∧
    ((parsePlain m req body).fails = true ↔
      (FormMethod req ∧ body ≠ none ∧ TypeFails m req) ∨ (parseQuery req.rawQuery).2 = true) ∧
    (parsePlain m req body).read = 0 := by
  unfold parsePlain
  by_cases hm : FormMethod req
  · rw [if_pos ((formMethod_iff req).1 hm)]
    unfold parsePostForm
    cases body with
    | none => exact ⟨rfl, by simp, rfl⟩
    | some d =>
      have h2 : ¬ Urlencoded m req := fun hu => h d ⟨hm, rfl, hu⟩
      have h2' : ¬ (m.mediaType (if req.header.get kContentType = [] then b!"application/octet-stream" else req.header.get kContentType)).1 =
          b!"application/x-www-form-urlencoded" := h2
      dsimp only
      rw [if_neg h2']
      refine ⟨rfl, ?_, rfl⟩
      simp only [Bool.or_eq_true, ne_eq, reduceCtorEq, not_false_eq_true, hm, true_and]
      exact Iff.rfl
  · rw [if_neg (fun hh => hm ((formMethod_iff req).2 hh))]
    exact ⟨rfl, by simp [hm], rfl⟩

theorem parsePlain_nodup (m : Mime) (req : Req) (body : Option Str) : ((parsePlain m req body).form.map Prod.fst).Nodup := by
  by_cases h : ∃ d, FormText m req body d
  · obtain ⟨d, hd⟩ := h
    by_cases hl : d.length ≤ 10 * 2 ^ 20
    · rw [(parsePlain_text hd hl).1]; exact copyValues_nodup (parseQuery_nodup d) _
    · rw [(parsePlain_long hd (by omega)).1]; exact copyValues_nodup (by simp) _
  · rw [(parsePlain_none (fun d hd => h ⟨d, hd⟩)).1]; exact copyValues_nodup (by simp) _

theorem parseRequest_nodup (m : Mime) (req : Req) (mp : Bool) (body : Option Str) :
    ((parseRequest m req mp body).form.map Prod.fst).Nodup := by
  unfold parseRequest
  cases mp with
  | false => exact parsePlain_nodup m req body
  | true =>
    simp only [if_true]
    unfold parseMulti
    dsimp only
    split
    · exact parsePlain_nodup m req body
    · split
      · exact parsePlain_nodup m req body
      · split
        · exact parsePlain_nodup m req body
        · exact copyValues_nodup (parsePlain_nodup m req body) _

/-- What the first call of an accessor does. -/
theorem first_read (o : Oracle) (req : Req) (s : St ω) (f : Form → Res) (h : s.ctx.parsedParams = false) :
    let p := o.parse req (wantsMultipart req) s.body
    (doCall o req s (.readForm f)).1 = (if p.fails then .error callPanic else .ok (f p.form)) ∧
    (doCall o req s (.readForm f)).2.form = p.form ∧ (doCall o req s (.readForm f)).2.ctx.parsedParams = true ∧
    (doCall o req s (.readForm f)).2.body = s.body.map (·.drop p.read) ∧ (doCall o req s (.readForm f)).2.rw = s.rw := by
  simp only [doCall, St.parseForm, h, Bool.false_eq_true, if_false]
  cases (o.parse req (wantsMultipart req) s.body).fails <;> simp

/-- What a later call does. -/
theorem later_read (o : Oracle) (req : Req) (s : St ω) (f : Form → Res) (h : s.ctx.parsedParams = true) :
    doCall o req s (.readForm f) = (.ok (f s.form), s) := by
  simp [doCall, St.parseForm, h]

theorem plain_of_method {req : Req} (h : ¬ FormMethod req) : wantsMultipart req = false := by
  by_cases hw : wantsMultipart req = true
  · exact absurd ((wantsMultipart_iff req).1 hw).1 h
  · simpa using hw

/-! ### C79 -/

/-- C79. A query string stands for at most one list of pairs. -/
theorem C79_unambiguous {q : Str} {ps qs : List (Str × Str)} (h : Query q ps) (h' : Query q qs) : ps = qs := by
  have cut : ∀ {a b a' b' : Str} {c c' : UInt8}, a ++ c :: b = a' ++ c' :: b' → c ∉ a' → c' ∉ a → a = a' ∧ c = c' ∧ b = b' := by
    intro a
    induction a with
    | nil =>
      intro b a' b' c c' he h1 h2
      cases a' with
      | nil => simpa using he
      | cons x a' => simp at he; exact absurd (by simp [he.1]) h1
    | cons x a ih =>
      intro b a' b' c c' he h1 h2
      cases a' with
      | nil => simp at he; exact absurd (by simp [he.1]) h2
      | cons y a' =>
        simp only [List.cons_append, List.cons.injEq] at he
        simp only [List.mem_cons, not_or] at h1 h2
        obtain ⟨e1, e2, e3⟩ := ih he.2 h1.2 h2.2
        exact ⟨by rw [he.1, e1], e2, e3⟩
  have piece : ∀ {s s' : Str} {ps qs : List (Str × Str)}, Piece s ps → Piece s' qs → s = s' → ps = qs := by
    intro s s' ps qs h h' he
    cases h with
    | empty =>
      cases h' with
      | empty => rfl
      | name _ _ _ hne => exact absurd he.symm hne
      | pair _ _ _ _ _ => simp at he
    | name hk _ h61 hne =>
      cases h' with
      | empty => exact absurd he hne
      | name hk' _ _ _ => subst he; rw [encodes_unique hk hk']
      | pair _ _ _ _ _ => subst he; simp at h61
    | pair hk hv hs ht h61 =>
      cases h' with
      | empty => simp at he
      | name _ _ h61' _ => subst he; simp at h61'
      | pair hk' hv' _ _ h61' =>
        obtain ⟨rfl, _, rfl⟩ := cut he h61' h61
        rw [encodes_unique hk hk', encodes_unique hv hv']
  have noc : ∀ {s : Str} {c : UInt8}, NoSep s → c = 38 ∨ c = 59 → c ∉ s := by
    rintro s c hn (rfl | rfl)
    · exact hn.1
    · exact hn.2
  induction h generalizing qs with
  | one hp =>
    cases h' with
    | one hp' => exact piece hp hp' rfl
    | more hp' hc _ => exact absurd (by simp) (noc (noSep_of_piece hp) hc)
  | @more s q c ps qs' hp hc _ ih =>
    generalize hq : s ++ c :: q = q' at h'
    cases h' with
    | one hp' =>
      subst hq
      exact absurd (by simp) (noc (noSep_of_piece hp') hc)
    | more hp' hc' hq' =>
      obtain ⟨h1, _, rfl⟩ := cut hq (noc (noSep_of_piece hp') hc) (noc (noSep_of_piece hp) hc')
      rw [piece hp hp' h1, ih hq']

/-- C79. A request without a form in its body (any method but POST, PUT and PATCH), whose query string stands for a list of
pairs: the first accessor called does not panic, reads nothing of the body, and the form has for every name exactly the
values the list has, in order. -/
theorem C79_first {m : Mime} {o : Oracle} (ho : o.parse = parseRequest m) {req : Req} (hm : ¬ FormMethod req)
    {ps : List (Str × Str)} (hq : Query req.rawQuery ps) (s : St ω) (hs : s.ctx.parsedParams = false) (f : Form → Res) :
    ∃ F s', doCall o req s (.readForm f) = (.ok (f F), s') ∧ s'.form = F ∧ s'.ctx.parsedParams = true ∧ s'.body = s.body ∧
      s'.rw = s.rw ∧ (F.map Prod.fst).Nodup ∧ ∀ k, values F k = valuesIn ps k := by
  obtain ⟨h1, h2, h3, h4, h5⟩ := first_read o req s f hs
  have hn : ∀ d, ¬ FormText m req s.body d := fun d hd => hm hd.1
  obtain ⟨p1, p2, p3⟩ := parsePlain_none hn
  rw [plain_of_method hm, ho] at h1 h2 h4
  simp only [parseRequest, Bool.false_eq_true, if_false] at h1 h2 h4
  have hf : (parsePlain m req s.body).fails = false := by
    rw [Bool.eq_false_iff, Ne, p2, parseQuery_ok hq]
    simp [hm]
  rw [hf] at h1
  refine ⟨(parsePlain m req s.body).form, (doCall o req s (.readForm f)).2, ?_, h2, h3, ?_, h5, parsePlain_nodup m req s.body, ?_⟩
  · exact Prod.ext h1 rfl
  · rw [h4, p3]; cases s.body <;> simp
  · intro k
    rw [p1, values_copyValues (by simp), parseQuery_values (query_lenient hq)]
    rfl

/-- C79. The same whatever the handlers of the request have done before: in any chain, at any time, an accessor reads these
values. `Holds` is kept by every call, by every handler and by the chain. -/
theorem C79_anytime {m : Mime} {o : Oracle} (ho : o.parse = parseRequest m) {req : Req} (hm : ¬ FormMethod req)
    {ps : List (Str × Str)} (hq : Query req.rawQuery ps) :
    ∃ F : Form, (F.map Prod.fst).Nodup ∧ (∀ k, values F k = valuesIn ps k) ∧
      ∃ Holds : St ω → Prop, (∀ s, s.ctx.parsedParams = false → Holds s) ∧
        (∀ s c, Holds s → Holds (doCall o req s c).2) ∧
        (∀ fuel s, Holds s → Holds (run o req fuel s).2) ∧
        (∀ fuel i p s, Holds s → Holds (exec o req (run o req fuel) i p s).2) ∧
        ∀ s f, Holds s → (doCall o req s (.readForm f)).1 = .ok (f F) := by
  have hplain := plain_of_method hm
  have hp : ∀ body, (o.parse req (wantsMultipart req) body).form = copyValues [] (parseQuery req.rawQuery).1 ∧
      (o.parse req (wantsMultipart req) body).fails = false := by
    intro body
    rw [hplain, ho]
    simp only [parseRequest, Bool.false_eq_true, if_false]
    obtain ⟨p1, p2, _⟩ := parsePlain_none (m := m) (req := req) (body := body) (fun d hd => hm hd.1)
    refine ⟨p1, ?_⟩
    rw [Bool.eq_false_iff, Ne, p2, parseQuery_ok hq]
    simp [hm]
  let F : Form := copyValues [] (parseQuery req.rawQuery).1
  let Holds : St ω → Prop := fun s => s.ctx.parsedParams = true → s.form = F
  have hcall : ∀ s c, Holds s → Holds (doCall o req s c).2 := by
    intro s c hs
    have hpf : ∀ s : St ω, Holds s → (s.parseForm o req).2.form = F := by
      intro s hs
      unfold St.parseForm
      cases h : s.ctx.parsedParams with
      | true => simp; exact hs h
      | false => simp; exact (hp s.body).1
    have hw : ∀ (s : St ω) code, Holds s → Holds (s.writeHeader o code).2 := by
      intro s code hs
      simp only [St.writeHeader]
      split <;> exact hs
    cases c with
    | parseForm =>
      intro _
      simp only [doCall]
      have := hpf s hs
      rcases hr : s.parseForm o req with ⟨p, s1⟩
      rw [hr] at this
      cases p <;> exact this
    | readForm f =>
      intro _
      simp only [doCall]
      have := hpf s hs
      rcases hr : s.parseForm o req with ⟨p, s1⟩
      rw [hr] at this
      cases p <;> exact this
    | writeHeader code =>
      simp only [doCall]
      have := hw s code hs
      rcases hr : s.writeHeader o code with ⟨p, s1⟩
      rw [hr] at this
      cases p <;> exact this
    | write d =>
      have : Holds (s.write o d).2 := by
        simp only [St.write]
        split
        · exact hs
        · have h2 : ∀ s : St ω, Holds s → Holds
              (match s.writeHeader o 200 with
              | (true, s) => (true, s)
              | (false, s) => (false, { s with rw := s.rw.write d }) : Bool × St ω).2 := by
            intro s h
            have := hw s 200 h
            rcases hr : s.writeHeader o 200 with ⟨p, s1⟩
            rw [hr] at this
            cases p <;> exact this
          apply h2
          split <;> exact hs
      simp only [doCall]
      rcases hr : s.write o d with ⟨p, s1⟩
      rw [hr] at this
      cases p <;> exact this
    | rawWriteHeader code =>
      simp only [doCall]
      rcases s.rw.writeHeader o.bad code with ⟨p, rw⟩
      cases p <;> exact hs
    | param k => simp only [doCall]; split <;> exact hs
    | envSet k v => simp only [doCall]; split <;> exact hs
    | envGet k => simp only [doCall]; split <;> exact hs
    | readBody l => simp only [doCall]; split <;> exact hs
    | _ => exact hs
  have hrun : ∀ fuel s, Holds s → Holds (run o req fuel s).2 := fun fuel =>
    run_inv o req Holds (fun _ => True) (fun _ _ h => h) (fun _ h => h) (fun s c _ h => hcall s c h)
      (fun s _ p _ => C36_kept.callsIn_true p) fuel
  refine ⟨F, copyValues_nodup (by simp) _, ?_, Holds, ?_, hcall, hrun, ?_, ?_⟩
  · intro k
    rw [values_copyValues (by simp), parseQuery_values (query_lenient hq)]
    rfl
  · intro s hs h
    rw [hs] at h
    cases h
  · intro fuel i p s hs
    exact exec_inv o req Holds (fun _ => True) _ (fun _ _ _ h => h) (fun _ h => h) (fun s c _ h => hcall s c h)
      (hrun fuel) i p (C36_kept.callsIn_true p) s hs
  · intro s f hs
    cases h : s.ctx.parsedParams with
    | true => rw [later_read o req s f h, hs h]
    | false =>
      obtain ⟨h1, _⟩ := first_read o req s f h
      rw [h1, (hp s.body).2, (hp s.body).1]
      rfl

theorem queryByte_sent : ∀ c : UInt8, (keptByQuery c = true ↔ c ∈ unreserved) ∧
    b!"0123456789ABCDEF"[c.toNat / 16]? = some (upperHex (c.toNat / 16)) ∧
    b!"0123456789ABCDEF"[c.toNat % 16]? = some (upperHex (c.toNat % 16)) := by
  have h : ∀ n : Fin 256, (keptByQuery (UInt8.ofNat n.val) = true ↔ UInt8.ofNat n.val ∈ unreserved) ∧
      b!"0123456789ABCDEF"[(UInt8.ofNat n.val).toNat / 16]? = some (upperHex ((UInt8.ofNat n.val).toNat / 16)) ∧
      b!"0123456789ABCDEF"[(UInt8.ofNat n.val).toNat % 16]? = some (upperHex ((UInt8.ofNat n.val).toNat % 16)) := by decide +kernel
  intro c
  have := h ⟨c.toNat, c.toNat_lt⟩
  simpa using this

/-- C79, the sender's side: `url.QueryEscape` writes exactly the one encoding. -/
theorem C79_sent (t s : Str) : queryEscape t = s ↔ Sends t s := by
  constructor
  · rintro rfl
    induction t with
    | nil => exact .nil
    | cons c t ih =>
      obtain ⟨h1, h2, h3⟩ := queryByte_sent c
      show Sends (c :: t) ((if c = 32 then [43] else if keptByQuery c then [c]
        else [37, upperHex (c.toNat / 16), upperHex (c.toNat % 16)]) ++ queryEscape t)
      split
      · next h => subst h; exact .plus ih
      · next h =>
        split
        · next hk => exact .keep (h1.1 hk) ih
        · next hk => exact .hex (fun hc => hk (h1.2 hc)) h h2 h3 ih
  · intro h
    induction h with
    | nil => rfl
    | @keep c t s hc _ ih =>
      have hne : c ≠ 32 := by rintro rfl; exact absurd hc (by decide)
      show (if c = 32 then [43] else if keptByQuery c then [c]
        else [37, upperHex (c.toNat / 16), upperHex (c.toNat % 16)]) ++ queryEscape t = _
      rw [if_neg hne, if_pos ((queryByte_sent c).1.2 hc), ih]; rfl
    | plus _ ih => show [43] ++ queryEscape _ = _; rw [ih]; rfl
    | @hex c a b t s hc hne ha hb _ ih =>
      obtain ⟨h1, h2, h3⟩ := queryByte_sent c
      show (if c = 32 then [43] else if keptByQuery c then [c]
        else [37, upperHex (c.toNat / 16), upperHex (c.toNat % 16)]) ++ queryEscape t = _
      rw [if_neg hne, if_neg (fun hk => hc (h1.1 hk)), ih]
      rw [ha] at h2; rw [hb] at h3
      cases h2; cases h3; rfl

/-- the query string a Go client makes of some pairs, one by one -/
def encodeForm (ps : List (Str × Str)) : Str :=
  join b!"&" (ps.map (fun p => queryEscape p.1 ++ b!"=" ++ queryEscape p.2))

/-- C79. Every list of pairs has such a query string. -/
theorem C79_encode (ps : List (Str × Str)) : Query (encodeForm ps) ps := by
  have piece : ∀ p : Str × Str, Piece (queryEscape p.1 ++ b!"=" ++ queryEscape p.2) [p] := by
    intro p
    have ns : ∀ s : Str, NoSep (queryEscape s) := fun s =>
      ⟨fun h => (queryEscape_safe h).1 rfl, fun h => (queryEscape_safe h).2.1 rfl⟩
    have := Piece.pair (queryEscape_encodes p.1) (queryEscape_encodes p.2) (ns _) (ns _)
      (fun h => (queryEscape_safe h).2.2.1 rfl)
    simpa using this
  unfold encodeForm
  induction ps with
  | nil => exact .one .empty
  | cons p ps ih =>
    cases ps with
    | nil => exact .one (piece p)
    | cons q qs =>
      have := Query.more (piece p) (.inl rfl) ih
      simpa [join] using this

/-- C79. What the accessors return of a form with these values. -/
theorem C79_accessors {F : Form} (hd : (F.map Prod.fst).Nodup) {ps : List (Str × Str)} (hv : ∀ k, values F k = valuesIn ps k)
    (k : Str) :
    (valuesIn ps k = [] → F.query k = [] ∧ F.queryArray k = none ∧ ∀ d, F.defaultQuery k d = d) ∧
    (∀ v vs, valuesIn ps k = v :: vs → Trimmed v (F.query k) ∧ (∀ d, F.defaultQuery k d = F.query k) ∧
      (∃ ts, F.queryArray k = some ts ∧ ts.length = (v :: vs).length ∧
        ∀ (i : Nat) x t, (v :: vs)[i]? = some x → ts[i]? = some t → Trimmed x t) ∧
      (∀ i : Int, -(2 ^ 63) ≤ i → i < 2 ^ 63 → v = itoa i → F.queryInt k = i ∧ F.queryInt64 k = i) ∧
      (∀ n : Nat, n < 2 ^ 64 → v = itoaNat n → F.queryUint k = n ∧ F.queryUint64 k = n) ∧
      (F.queryBool k = true ↔ F.query k ∈ trues)) := by
  have hat := form_at_values hd k
  constructor
  · intro h
    rw [← hv] at h
    exact ⟨((C41_query hd k []).1 h).1, (C41_array hd k none).1 h, fun d => ((C41_query hd k d).1 h).2⟩
  · intro v vs h
    rw [← hv] at h
    have hat' : F.at k = some (v :: vs) := by
      rw [h] at hat
      cases ha : F.at k with
      | none => rw [ha] at hat; cases hat
      | some l => rw [ha] at hat; rw [show l = v :: vs from hat]
    refine ⟨((C41_query hd k []).2 v vs h).1, fun d => ((C41_query hd k d).2 v vs h).2, ?_, ?_, ?_, ?_⟩
    · obtain ⟨ts, h1, _, h2, h3⟩ := (C41_array hd k none).2.1 (by rw [h]; simp)
      rw [h] at h2 h3
      exact ⟨ts, h1, h2, h3⟩
    · rintro i h1 h2 rfl
      have := (C38_int h1 h2 k).2.1 F _ vs hat' (C38_trim i)
      exact ⟨this.1, this.2.1⟩
    · rintro n h1 rfl
      have h0 := C38_trim (n : Int)
      have := (C38_uint h1 k).2.1 F _ vs hat' h0
      exact ⟨this.1, this.2.1⟩
    · exact (C39_bool k).2.1 F

/-! ### C80 -/

/-- C80. A form in the body of a POST, PUT or PATCH request that is not multipart, with a query string: for every name the
values of the body come first, then those of the query string. -/
theorem C80_body_first_partial {m : Mime} {o : Oracle} (ho : o.parse = parseRequest m) {req : Req} {s : St ω} {d : Str}
    (hd : FormText m req s.body d) (hmp : ¬ Multipart req) (ht : ¬ TypeFails m req) (hl : d.length ≤ 10 * 2 ^ 20)
    {ps qs : List (Str × Str)} (hp : Query d ps) (hq : Query req.rawQuery qs) (hs : s.ctx.parsedParams = false)
    (f : Form → Res) :
    ∃ F s', doCall o req s (.readForm f) = (.ok (f F), s') ∧ s'.form = F ∧ s'.body = some [] ∧ (F.map Prod.fst).Nodup ∧
      ∀ k, values F k = valuesIn ps k ++ valuesIn qs k := by
  obtain ⟨h1, h2, h3, h4, h5⟩ := first_read o req s f hs
  have hw : wantsMultipart req = false := by
    rw [Bool.eq_false_iff, Ne, wantsMultipart_iff]; exact hmp
  obtain ⟨p1, p2, p3⟩ := parsePlain_text hd hl
  rw [hw, ho] at h1 h2 h4
  simp only [parseRequest, Bool.false_eq_true, if_false] at h1 h2 h4
  have hf : (parsePlain m req s.body).fails = false := by
    rw [Bool.eq_false_iff, Ne, p2, parseQuery_ok hp, parseQuery_ok hq]
    simp [ht]
  rw [hf] at h1
  refine ⟨(parsePlain m req s.body).form, (doCall o req s (.readForm f)).2, Prod.ext h1 rfl, h2, ?_, parsePlain_nodup m req s.body, ?_⟩
  · rw [h4, p3, hd.2.1]; simp
  · intro k
    rw [p1, values_copyValues (parseQuery_nodup d), parseQuery_values (query_lenient hp), parseQuery_values (query_lenient hq)]

/-- C80, the other way round for a multipart form: the values of the query string come first, then those of the body. -/
theorem C80_multipart_partial {m : Mime} {o : Oracle} (ho : o.parse = parseRequest m) {req : Req} {s : St ω} {d : Str}
    (hmp : Multipart req) (hb : s.body = some d)
    (hty : m.mediaType (req.header.get b!"Content-Type") = (b!"multipart/form-data", false)) {G : Form} {n : Nat}
    (hparts : m.parts (req.header.get b!"Content-Type") d = (some G, n))
    {qs : List (Str × Str)} (hq : Query req.rawQuery qs) (hs : s.ctx.parsedParams = false) (f : Form → Res) :
    ∃ F s', doCall o req s (.readForm f) = (.ok (f F), s') ∧ s'.form = F ∧ (F.map Prod.fst).Nodup ∧
      ∀ k, values F k = valuesIn qs k ++ values G k := by
  obtain ⟨h1, h2, _⟩ := first_read o req s f hs
  have hw : wantsMultipart req = true := (wantsMultipart_iff req).2 hmp
  have hne : req.header.get b!"Content-Type" ≠ [] := by
    obtain ⟨_, a, b, hab⟩ := hmp
    rw [hab]
    cases a <;> simp
  have hn : ∀ d, ¬ FormText m req s.body d := by
    rintro d ⟨_, _, hu⟩
    unfold Urlencoded at hu
    rw [if_neg hne, hty] at hu
    revert hu; decide
  obtain ⟨p1, p2, p3⟩ := parsePlain_none hn
  have hf : (parsePlain m req s.body).fails = false := by
    rw [Bool.eq_false_iff, Ne, p2, parseQuery_ok hq]
    unfold TypeFails
    rw [if_neg hne, hty]
    simp
  have hmulti : parseMulti m req s.body = ⟨copyValues (parsePlain m req s.body).form G, false, (parsePlain m req s.body).read + n⟩ := by
    unfold parseMulti
    simp only [kContentType]
    rw [hf, p3, hb] at *
    simp only [Bool.false_eq_true, if_false, hty, hne, Option.getD_some, List.drop_zero, hparts]
    simp
  have hnd := parseRequest_nodup m req true s.body
  rw [hw, ho] at h1 h2
  simp only [parseRequest, if_true] at h1 h2 hnd
  rw [hmulti] at h1 h2 hnd
  refine ⟨_, (doCall o req s (.readForm f)).2, Prod.ext h1 rfl, h2, hnd, ?_⟩
  intro k
  rw [values_copyValues (parsePlain_nodup m req s.body), p1, values_copyValues (by simp), parseQuery_values (query_lenient hq)]
  rfl

/-! ### C81 -/

/-- every percent sign is followed by two hexadecimal digits -/
def Escaped (q : Str) : Prop :=
  ∀ a b, q = a ++ 37 :: b → ∃ x y r, b = x :: y :: r ∧ hexOf x ≠ none ∧ hexOf y ≠ none

theorem escaped_of_encodes {t s : Str} (h : Encodes t s) : Escaped s := by
  induction h with
  | nil => intro a b h; cases a <;> simp at h
  | plain h1 _ _ ih =>
    intro a b h
    cases a with
    | nil => simp at h; exact absurd h.1 h1
    | cons x a => simp at h; exact ih a b h.2
  | plus _ ih =>
    intro a b h
    cases a with
    | nil => simp at h
    | cons x a => simp at h; exact ih a b h.2
  | @hex x y u v t s hx hy _ ih =>
    intro a b h
    have h37 : hexOf 37 = none := by decide
    match a, h with
    | [], h => simp at h; exact ⟨x, y, s, h.symm, by simp [hx], by simp [hy]⟩
    | [_], h =>
      simp at h
      rw [h.2.1, h37] at hx; cases hx
    | [_, _], h =>
      simp at h
      rw [h.2.2.1, h37] at hy; cases hy
    | _ :: _ :: _ :: a, h => simp at h; exact ih a b h.2.2.2

theorem escaped_append {s t : Str} {c : UInt8} (hc : c ≠ 37) (hx : hexOf c = none) :
    Escaped (s ++ c :: t) ↔ Escaped s ∧ Escaped t := by
  constructor
  · intro h
    constructor
    · rintro a b rfl
      obtain ⟨x, y, r, hb, h1, h2⟩ := h a (b ++ c :: t) (by simp)
      match b, hb with
      | [], hb => simp at hb; rw [← hb.1] at h1; exact absurd hx h1
      | [_], hb => simp at hb; rw [← hb.2.1] at h2; exact absurd hx h2
      | p :: q :: b, hb => simp at hb; exact ⟨p, q, b, rfl, by rw [hb.1]; exact h1, by rw [hb.2.1]; exact h2⟩
    · rintro a b rfl
      exact h (s ++ c :: a) b (by simp)
  · rintro ⟨h1, h2⟩ a b he
    rcases List.append_eq_append_iff.1 he with ⟨r, hr, he'⟩ | ⟨r, hr, he'⟩
    · -- the percent sign is in `c :: t`
      cases r with
      | nil =>
        simp at he'
        exact absurd he'.1 hc
      | cons z r =>
        simp at he'
        exact h2 r b he'.2
    · cases r with
      | nil =>
        simp at he'
        exact absurd he'.1.symm hc
      | cons z r =>
        simp at he'
        obtain ⟨x, y, u, hu, h3, h4⟩ := h1 a r (by rw [hr, ← he'.1])
        exact ⟨x, y, u ++ c :: t, by rw [he'.2, hu]; rfl, h3, h4⟩

theorem encodes_of_escaped (n : Nat) : ∀ s : Str, s.length ≤ n → Escaped s → ∃ t, Encodes t s := by
  induction n with
  | zero =>
    intro s hs _
    rw [List.length_eq_zero_iff.1 (Nat.le_zero.1 hs)]
    exact ⟨[], .nil⟩
  | succ n ih =>
    intro s hs h
    cases s with
    | nil => exact ⟨[], .nil⟩
    | cons c s =>
      have tail : ∀ p r, c :: s = p ++ r → Escaped r := by
        intro p r hpr a b hab
        exact h (p ++ a) b (by rw [hpr, hab]; simp)
      by_cases hc : c = 37
      · subst hc
        obtain ⟨x, y, r, rfl, h1, h2⟩ := h [] s rfl
        obtain ⟨u, hu⟩ := Option.ne_none_iff_exists'.1 h1
        obtain ⟨v, hv⟩ := Option.ne_none_iff_exists'.1 h2
        obtain ⟨t, ht⟩ := ih r (by simp at hs; omega) (tail [37, x, y] r rfl)
        exact ⟨_, .hex hu hv ht⟩
      · obtain ⟨t, ht⟩ := ih s (by simp at hs; omega) (tail [c] s rfl)
        by_cases h43 : c = 43
        · subst h43; exact ⟨_, .plus ht⟩
        · exact ⟨_, .plain hc h43 ht⟩

/-- C81. A string stands for a list of pairs exactly if every percent sign in it is followed by two hexadecimal digits. -/
theorem C81_wellformed (q : Str) : (∃ ps, Query q ps) ↔ Escaped q := by
  have h38 : hexOf 38 = none := by decide
  have h59 : hexOf 59 = none := by decide
  have h61 : hexOf 61 = none := by decide
  have sep : ∀ {c : UInt8}, c = 38 ∨ c = 59 → c ≠ 37 ∧ hexOf c = none := by
    rintro c (rfl | rfl) <;> exact ⟨by decide, by assumption⟩
  have piece : ∀ {s ps}, Piece s ps → Escaped s := by
    intro s ps h
    cases h with
    | empty => intro a b h; cases a <;> simp at h
    | name hk _ _ _ => exact escaped_of_encodes hk
    | pair hk hv _ _ _ => exact (escaped_append (by decide) h61).2 ⟨escaped_of_encodes hk, escaped_of_encodes hv⟩
  constructor
  · rintro ⟨ps, h⟩
    induction h with
    | one hp => exact piece hp
    | more hp hc _ ih => exact (escaped_append (sep hc).1 (sep hc).2).2 ⟨piece hp, ih⟩
  · have back : ∀ s, NoSep s → Escaped s → ∃ ps, Piece s ps := by
      intro s hn he
      by_cases h0 : s = []
      · subst h0; exact ⟨_, .empty⟩
      · cases hi : indexByte s 61 with
        | none =>
          obtain ⟨t, ht⟩ := encodes_of_escaped _ s (Nat.le_refl _) he
          exact ⟨_, .name ht hn (indexByte_none.1 hi) h0⟩
        | some i =>
          obtain ⟨_, hs, hn61⟩ := indexByte_some hi
          rw [hs] at he
          obtain ⟨e1, e2⟩ := (escaped_append (by decide) h61).1 he
          obtain ⟨t, ht⟩ := encodes_of_escaped _ _ (Nat.le_refl _) e1
          obtain ⟨u, hu⟩ := encodes_of_escaped _ _ (Nat.le_refl _) e2
          refine ⟨[(t, u)], ?_⟩
          have := Piece.pair ht hu ⟨fun hm => hn.1 (List.mem_of_mem_take hm), fun hm => hn.2 (List.mem_of_mem_take hm)⟩
            ⟨fun hm => hn.1 (List.mem_of_mem_drop hm), fun hm => hn.2 (List.mem_of_mem_drop hm)⟩ hn61
          rw [← hs] at this
          exact this
    have all : ∀ (n : Nat) (q : Str), q.length ≤ n → Escaped q → ∃ ps, Query q ps := by
      intro n
      induction n with
      | zero =>
        intro q hq _
        rw [List.length_eq_zero_iff.1 (Nat.le_zero.1 hq)]
        exact ⟨[], .one .empty⟩
      | succ n ih =>
        intro q hq he
        rcases sep_cases q with hn | ⟨s, c, r, rfl, hn, hc⟩
        · obtain ⟨ps, h⟩ := back q hn he
          exact ⟨ps, .one h⟩
        · obtain ⟨e1, e2⟩ := (escaped_append (sep hc).1 (sep hc).2).1 he
          obtain ⟨ps, h⟩ := back s hn e1
          obtain ⟨qs, h'⟩ := ih r (by simp at hq; omega) e2
          exact ⟨ps ++ qs, .more h hc h'⟩
    exact all _ q (Nat.le_refl _)

theorem plain_fails {m : Mime} {req : Req} {body : Option Str} : (parsePlain m req body).fails = true ↔
      ¬ Escaped req.rawQuery ∨
      (FormMethod req ∧ ∃ d, body = some d ∧ (TypeFails m req ∨ (Urlencoded m req ∧ (10 * 2 ^ 20 < d.length ∨ ¬ Escaped d)))) := by
  have bad : ∀ q, (parseQuery q).2 = true ↔ ¬ Escaped q := by
    intro q
    rw [parseQuery_fails, ← C81_wellformed]
    exact not_exists.symm
  by_cases h : ∃ d, FormText m req body d
  · obtain ⟨d, hd⟩ := h
    by_cases hl : d.length ≤ 10 * 2 ^ 20
    · rw [(parsePlain_text hd hl).2.1, bad, bad]
      constructor
      · rintro (h | h | h)
        · exact .inr ⟨hd.1, d, hd.2.1, .inl h⟩
        · exact .inr ⟨hd.1, d, hd.2.1, .inr ⟨hd.2.2, .inr h⟩⟩
        · exact .inl h
      · rintro (h | ⟨_, d', hd', h | ⟨_, h | h⟩⟩)
        · exact .inr (.inr h)
        · exact .inl h
        · rw [hd.2.1] at hd'; cases hd'; omega
        · rw [hd.2.1] at hd'; cases hd'; exact .inr (.inl h)
    · rw [(parsePlain_long hd (by omega)).2.1]
      exact ⟨fun _ => .inr ⟨hd.1, d, hd.2.1, .inr ⟨hd.2.2, .inl (by omega)⟩⟩, fun _ => rfl⟩
  · rw [(parsePlain_none (fun d hd => h ⟨d, hd⟩)).2.1, bad]
    constructor
    · rintro (⟨h1, h2, h3⟩ | h)
      · obtain ⟨d, hd⟩ := Option.ne_none_iff_exists'.1 h2
        exact .inr ⟨h1, d, hd, .inl h3⟩
      · exact .inl h
    · rintro (h' | ⟨h1, d, hd, h' | ⟨h2, _⟩⟩)
      · exact .inr h'
      · exact .inl ⟨h1, by simp [hd], h'⟩
      · exact absurd ⟨d, h1, hd, h2⟩ h

/-- C81. The data that make the first accessor of a request that is not multipart panic: a percent sign without two
hexadecimal digits in the query string, or - for POST, PUT and PATCH with a body - a Content-Type that cannot be parsed,
or a form in the body that is longer than 10 MiB or has such a percent sign. -/
theorem C81_panics_partial {m : Mime} {o : Oracle} (ho : o.parse = parseRequest m) {req : Req} (s : St ω)
    (hmp : ¬ Multipart req) (hs : s.ctx.parsedParams = false) (f : Form → Res) :
    (∃ v, (doCall o req s (.readForm f)).1 = .error v) ↔
      ¬ Escaped req.rawQuery ∨
      (FormMethod req ∧ ∃ d, s.body = some d ∧ (TypeFails m req ∨ (Urlencoded m req ∧ (10 * 2 ^ 20 < d.length ∨ ¬ Escaped d)))) := by
  obtain ⟨h1, _⟩ := first_read o req s f hs
  have hw : wantsMultipart req = false := by
    rw [Bool.eq_false_iff, Ne, wantsMultipart_iff]; exact hmp
  rw [hw, ho] at h1
  simp only [parseRequest, Bool.false_eq_true, if_false] at h1
  have hsplit : (∃ v, (doCall o req s (.readForm f)).1 = .error v) ↔ (parsePlain m req s.body).fails = true := by
    rw [h1]
    cases (parsePlain m req s.body).fails <;> simp
  rw [hsplit, plain_fails]

theorem multi_fails {m : Mime} {req : Req} {body : Option Str} (hmp : Multipart req) : (parseMulti m req body).fails = true ↔
      ¬ Escaped req.rawQuery ∨
      (∃ d, body = some d ∧ (TypeFails m req ∨ (Urlencoded m req ∧ (10 * 2 ^ 20 < d.length ∨ ¬ Escaped d)))) ∨
      m.mediaType (req.header.get b!"Content-Type") ≠ (b!"multipart/form-data", false) ∨
      (m.parts (req.header.get b!"Content-Type") (body.getD [])).1 = none := by
  have hct : req.header.get b!"Content-Type" ≠ [] := by
    obtain ⟨_, a, b, h⟩ := hmp
    rw [h]
    simp
  have hfm : FormMethod req := hmp.1
  have hp := plain_fails (m := m) (req := req) (body := body)
  simp only [hfm, true_and] at hp
  rw [← or_assoc, ← hp]
  unfold parseMulti
  cases hf : (parsePlain m req body).fails with
  | true => simp [hf]
  | false =>
    simp only [hf, Bool.false_eq_true, if_false, false_or]
    by_cases hty : m.mediaType (req.header.get b!"Content-Type") = (b!"multipart/form-data", false)
    · have hno : ∀ d, ¬ FormText m req body d := by
        rintro d ⟨_, _, hu⟩
        unfold Urlencoded at hu
        rw [if_neg hct, hty] at hu
        revert hu; decide
      have hread := (parsePlain_none hno).2.2
      have hc : ¬ (req.header.get kContentType = [] ∨ (m.mediaType (req.header.get kContentType)).2 = true ∨
          (m.mediaType (req.header.get kContentType)).1 ≠ b!"multipart/form-data") := by
        show ¬ (req.header.get b!"Content-Type" = [] ∨ (m.mediaType (req.header.get b!"Content-Type")).2 = true ∨
          (m.mediaType (req.header.get b!"Content-Type")).1 ≠ b!"multipart/form-data")
        rw [hty]
        simp [hct]
      rw [if_neg hc, hread, List.drop_zero]
      rcases hr : m.parts (req.header.get kContentType) (body.getD []) with ⟨_ | vs, n⟩
      · have : (m.parts (req.header.get b!"Content-Type") (body.getD [])).1 = none := by
          show (m.parts (req.header.get kContentType) (body.getD [])).1 = none
          rw [hr]
        exact ⟨fun _ => .inr this, fun _ => rfl⟩
      · have : (m.parts (req.header.get b!"Content-Type") (body.getD [])).1 = some vs := by
          show (m.parts (req.header.get kContentType) (body.getD [])).1 = some vs
          rw [hr]
        rw [this]
        refine ⟨fun h => (by cases h), ?_⟩
        rintro (h | h)
        · exact absurd hty h
        · cases h
    · have hc : req.header.get kContentType = [] ∨ (m.mediaType (req.header.get kContentType)).2 = true ∨
          (m.mediaType (req.header.get kContentType)).1 ≠ b!"multipart/form-data" := by
        show req.header.get b!"Content-Type" = [] ∨ (m.mediaType (req.header.get b!"Content-Type")).2 = true ∨
          (m.mediaType (req.header.get b!"Content-Type")).1 ≠ b!"multipart/form-data"
        rcases hm : m.mediaType (req.header.get b!"Content-Type") with ⟨x, y⟩
        rw [hm] at hty
        cases y with
        | true => exact .inr (.inl rfl)
        | false => exact .inr (.inr (fun e => hty (by rw [show x = _ from e])))
      rw [if_pos hc]
      exact ⟨fun _ => .inl hty, fun _ => rfl⟩

/-- C81. The data that make the first accessor of a multipart request panic: the same, or a Content-Type that is not
`multipart/form-data` after all, or a body that is not as `multipart` wants it. -/
theorem C81_multipart {m : Mime} {o : Oracle} (ho : o.parse = parseRequest m) {req : Req} (s : St ω)
    (hmp : Multipart req) (hs : s.ctx.parsedParams = false) (f : Form → Res) :
    (∃ v, (doCall o req s (.readForm f)).1 = .error v) ↔
      ¬ Escaped req.rawQuery ∨
      (∃ d, s.body = some d ∧ (TypeFails m req ∨ (Urlencoded m req ∧ (10 * 2 ^ 20 < d.length ∨ ¬ Escaped d)))) ∨
      m.mediaType (req.header.get b!"Content-Type") ≠ (b!"multipart/form-data", false) ∨
      (m.parts (req.header.get b!"Content-Type") (s.body.getD [])).1 = none := by
  obtain ⟨h1, _⟩ := first_read o req s f hs
  rw [(wantsMultipart_iff req).2 hmp, ho] at h1
  simp only [parseRequest, if_true] at h1
  have hsplit : (∃ v, (doCall o req s (.readForm f)).1 = .error v) ↔ (parseMulti m req s.body).fails = true := by
    rw [h1]
    cases (parseMulti m req s.body).fails <;> simp
  rw [hsplit, multi_fails hmp]

/-- C81. What is left of the body of a request that is not multipart after the first accessor, whether it panics or not: a form in the
body is read whole, or up to one byte more than 10 MiB; any other body is left alone. -/
theorem C81_left {m : Mime} {o : Oracle} (ho : o.parse = parseRequest m) {req : Req} (s : St ω)
    (hmp : ¬ Multipart req) (hs : s.ctx.parsedParams = false) (f : Form → Res) :
    (∀ d, FormMethod req → s.body = some d → Urlencoded m req → (doCall o req s (.readForm f)).2.body = some (d.drop (10 * 2 ^ 20 + 1))) ∧
    ((¬ FormMethod req ∨ s.body = none ∨ ¬ Urlencoded m req) → (doCall o req s (.readForm f)).2.body = s.body) := by
  obtain ⟨-, -, -, h1, -⟩ := first_read o req s f hs
  have hw : wantsMultipart req = false := by
    rw [Bool.eq_false_iff, Ne, wantsMultipart_iff]; exact hmp
  rw [hw, ho] at h1
  simp only [parseRequest, Bool.false_eq_true, if_false] at h1
  rw [h1]
  refine ⟨?_, ?_⟩
  · intro d hm hb hu
    have hd : FormText m req s.body d := ⟨hm, hb, hu⟩
    by_cases hl : d.length ≤ 10 * 2 ^ 20
    · rw [(parsePlain_text hd hl).2.2, hb, Option.map_some, List.drop_length, List.drop_eq_nil_of_le (by omega)]
    · rw [(parsePlain_long hd (by omega)).2.2, hb, Option.map_some]
  · intro h
    have hn : ∀ d, ¬ FormText m req s.body d := by
      rintro d ⟨h2, h3, h4⟩
      rcases h with h | h | h
      · exact h h2
      · rw [h] at h3; cases h3
      · exact h h4
    rw [(parsePlain_none hn).2.2]
    simp

/-- C81. A handler that recovers from that panic finds the form: the next accessor does not panic, and (for a request
without a form in its body) it reads the pieces of the query string that are well formed. -/
theorem C81_again {m : Mime} {o : Oracle} (ho : o.parse = parseRequest m) {req : Req} (s : St ω) (f g : Form → Res) :
    ∃ F, doCall o req (doCall o req s (.readForm f)).2 (.readForm g) = (.ok (g F), (doCall o req s (.readForm f)).2) ∧
      (s.ctx.parsedParams = false → ¬ FormMethod req →
        ∃ ps, Lenient req.rawQuery ps ∧ ∀ k, values F k = valuesIn ps k) := by
  cases hs : s.ctx.parsedParams with
  | true =>
    rw [later_read o req s f hs, later_read o req s g hs]
    exact ⟨s.form, rfl, fun h => by cases h⟩
  | false =>
    obtain ⟨_, h2, h3, _⟩ := first_read o req s f hs
    refine ⟨_, later_read o req _ g h3, ?_⟩
    intro _ hm
    rw [h2, plain_of_method hm, ho]
    simp only [parseRequest, Bool.false_eq_true, if_false]
    rw [(parsePlain_none (m := m) (req := req) (body := s.body) (fun d hd => hm hd.1)).1]
    obtain ⟨ps, hl⟩ := lenient_exists _ req.rawQuery (Nat.le_refl _)
    refine ⟨ps, hl, ?_⟩
    intro k
    rw [values_copyValues (by simp), parseQuery_values hl]
    rfl

/-! ### Examples and refutations -/
namespace Demo

/-- media types without their parameters; a multipart body has the value `body` for the name `a` -/
def formMime : Mime where
  mediaType := fun s => (s.takeWhile (· != 59), false)
  parts := fun _ d => (some [(b!"a", [b!"body"])], d.length)

def formO : Oracle := { chainO with parse := parseRequest formMime }

/-- a request with a query string -/
def queryReq (q : Str) : Req := { chainReq with rawQuery := q }

/-- a POST request with a form in its body -/
def postReq (ct q : Str) : Req :=
  { chainReq with method := b!"POST", rawQuery := q, header := Header.put Map.empty b!"Content-Type" ct }

def formSt (body : Option Str) : St Unit := { chainSt [] with body }

/-- what `Query(k)` returns; the empty result is a panic -/
def askQuery (req : Req) (body : Option Str) (k : Str) : Option Str :=
  match (doCall formO req (formSt body) (.readForm (fun f => .str (f.query k)))).1 with
  | .ok (.str v) => some v
  | _ => none

-- a query string that meets the hypotheses of `C79_first`: `a=1&&b=x y;a=%C3%A9&c`
example : askQuery (queryReq b!"a=1&&b=x+y;a=%C3%a9&c") none b!"b" = some b!"x y" ∧
    askQuery (queryReq b!"a=1&&b=x+y;a=%C3%a9&c") none b!"a" = some b!"1" ∧
    askQuery (queryReq b!"a=1&&b=x+y;a=%C3%a9&c") none b!"c" = some [] := by decide +kernel

example : Query b!"a=%20;b" [(b!"a", b!" "), (b!"b", [])] := by
  have h1 : Piece b!"a=%20" [(b!"a", b!" ")] :=
    Piece.pair (k := b!"a") (v := b!" ") (s := b!"a") (t := b!"%20") (.plain (by decide) (by decide) .nil)
      (.hex (x := 2) (y := 0) (by decide) (by decide) .nil) ⟨by decide, by decide⟩ ⟨by decide, by decide⟩ (by decide)
  have h2 : Piece b!"b" [(b!"b", [])] :=
    Piece.name (.plain (by decide) (by decide) .nil) ⟨by decide, by decide⟩ (by decide) (by decide)
  exact .more h1 (.inr rfl) (.one h2)

example : encodeForm [(b!"a b", b!"1&2"), (b!"k", b!"é")] = b!"a+b=1%262&k=%C3%A9" := by decide +kernel

-- a form in the body, in the way of `C80_body_first_partial`
example : askQuery (postReq b!"application/x-www-form-urlencoded; charset=utf-8" b!"a=url&b=url") (some b!"a=body") b!"a" =
      some b!"body" ∧
    askQuery (postReq b!"application/x-www-form-urlencoded; charset=utf-8" b!"a=url&b=url") (some b!"a=body") b!"b" =
      some b!"url" := by decide +kernel

-- a multipart form, in the way of `C80_multipart_partial`
example : askQuery (postReq b!"multipart/form-data; boundary=x" b!"a=url") (some b!"--x...") b!"a" = some b!"url" ∧
    askQuery (postReq b!"multipart/form-data; boundary=x" b!"b=url") (some b!"--x...") b!"a" = some b!"body" := by
  decide +kernel

-- malformed query strings
example : askQuery (queryReq b!"a=%zz") none b!"b" = none ∧ askQuery (queryReq b!"a=1%") none b!"a" = none ∧
    askQuery (queryReq b!"a=100%25") none b!"a" = some b!"100%" := by decide +kernel

end Demo
open Demo

/-- C80 as stated is false: with a multipart form, `Query` returns the value of the query string although the body has
another. -/
theorem C80_refuted : ∃ (m : Mime) (o : Oracle) (req : Req) (s : St Unit) (G : Form) (d : Str) (n : Nat),
    o.parse = parseRequest m ∧ FormMethod req ∧ s.body = some d ∧
    m.parts (req.header.get b!"Content-Type") d = (some G, n) ∧ values G b!"a" = [b!"body"] ∧
    (doCall o req s (.readForm (fun f => .str (f.query b!"a")))).1 = .ok (.str b!"url") := by
  refine ⟨formMime, formO, postReq b!"multipart/form-data; boundary=x" b!"a=url", formSt (some b!"--x..."),
    [(b!"a", [b!"body"])], b!"--x...", 6, rfl, by unfold FormMethod; decide, rfl, rfl, rfl, ?_⟩
  have : askQuery (postReq b!"multipart/form-data; boundary=x" b!"a=url") (some b!"--x...") b!"a" = some b!"url" := by
    decide +kernel
  unfold askQuery at this
  split at this
  · rename_i v hv; rw [hv, Option.some.inj this]
  · cases this

/-- a multipart body that breaks off makes an accessor panic -/
example (k : Str) : ∃ v, (doCall (ω := Unit) { formO with parse := parseRequest ⟨formMime.mediaType, fun _ _ => (none, 3)⟩ }
    (postReq b!"multipart/form-data; boundary=x" []) (formSt (some b!"--x")) (.readForm (fun f => .str (f.query k)))).1 = .error v := by
  refine (C81_multipart (m := ⟨formMime.mediaType, fun _ _ => (none, 3)⟩) rfl _ ?_ rfl _).2 (.inr (.inr (.inr rfl)))
  exact ⟨by decide, [], b!"; boundary=x", by decide +kernel⟩

/-- C81 as stated is false: the query string `a=%zz` makes an accessor for any name panic. -/
theorem C81_refuted : ∃ (m : Mime) (o : Oracle) (req : Req) (s : St Unit), o.parse = parseRequest m ∧
    req.method = b!"GET" ∧ req.rawQuery = b!"a=%zz" ∧
    ∀ k, ∃ v, (doCall o req s (.readForm (fun f => .str (f.query k)))).1 = .error v := by
  refine ⟨formMime, formO, queryReq b!"a=%zz", formSt none, rfl, rfl, rfl, ?_⟩
  intro k
  refine (C81_panics_partial rfl _ ?_ rfl _).2 (.inl ?_)
  · rintro ⟨h, _⟩; revert h; decide
  · intro h
    obtain ⟨x, y, r, hb, h1, _⟩ := h b!"a=" b!"zz" rfl
    cases hb
    exact h1 (by decide)

end Water
