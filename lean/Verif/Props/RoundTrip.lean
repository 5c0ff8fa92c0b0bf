import Verif.Lemmas.RoundTrip
import Verif.Props.Url
import Verif.Props.Binding
/-
C90: a struct that a client writes as a form is bound to the same struct.
-/
namespace Water
open Spec
variable {ω : Type}

theorem form_append_filled {f : Form} (h : ∀ e ∈ f, e.2 ≠ []) (k v : Str) : ∀ e ∈ f.append k [v], e.2 ≠ [] := by
  induction f with
  | nil => simp [Form.append]
  | cons a f ih =>
    simp only [Form.append]
    by_cases hk : a.1 = k
    · rw [if_pos hk]
      intro e he
      rcases List.mem_cons.1 he with rfl | he
      · simp
      · exact h e (by simp [he])
    · rw [if_neg hk]
      intro e he
      rcases List.mem_cons.1 he with rfl | he
      · exact h _ (by simp)
      · exact ih (fun e he => h e (by simp [he])) e he

theorem addAll_filled (ps : List (Str × Str)) : ∀ {f : Form}, (∀ e ∈ f, e.2 ≠ []) → ∀ e ∈ addAll f ps, e.2 ≠ [] := by
  induction ps with
  | nil => intro f h; exact h
  | cons p ps ih => intro f h; exact ih (form_append_filled h p.1 p.2)

theorem form_append_some {f : Form} (h : ∀ e ∈ f, e.2 ≠ []) (k : Str) {vs : List Str} (hvs : vs ≠ []) : ∀ e ∈ f.append k vs, e.2 ≠ [] := by
  induction f with
  | nil => simpa [Form.append] using hvs
  | cons a f ih =>
    simp only [Form.append]
    by_cases hk : a.1 = k
    · rw [if_pos hk]
      intro e he
      rcases List.mem_cons.1 he with rfl | he
      · simp [hvs]
      · exact h e (by simp [he])
    · rw [if_neg hk]
      intro e he
      rcases List.mem_cons.1 he with rfl | he
      · exact h _ (by simp)
      · exact ih (fun e he => h e (by simp [he])) e he

theorem copyValues_filled (g : Form) : ∀ {f : Form}, (∀ e ∈ f, e.2 ≠ []) → (∀ e ∈ g, e.2 ≠ []) → ∀ e ∈ copyValues f g, e.2 ≠ [] := by
  induction g with
  | nil => intro f h _; exact h
  | cons p g ih =>
    intro f h hg
    exact ih (form_append_some h p.1 (hg p (by simp))) (fun e he => hg e (by simp [he]))

theorem parseQuery_filled (q : Str) : ∀ e ∈ (parseQuery q).1, e.2 ≠ [] := by
  obtain ⟨ps, h⟩ := lenient_exists _ q (Nat.le_refl _)
  rw [parseQuery_lenient h]
  exact addAll_filled ps (by simp)

theorem at_orNone {F : Form} (hd : (F.map Prod.fst).Nodup) (hf : ∀ e ∈ F, e.2 ≠ []) {k : Str} {vs : List Str} (hv : values F k = vs) :
    F.at k = orNone vs := by
  have h := form_at_values hd k
  rw [hv] at h
  cases hk : F.at k with
  | none =>
    rw [hk] at h
    rw [show vs = [] by simpa using h.symm]
    rfl
  | some l =>
    rw [hk] at h
    simp only [Option.getD_some] at h
    subst h
    have hne : l ≠ [] := by
      unfold Form.at at hk
      rw [Option.map_eq_some_iff] at hk
      obtain ⟨e, he, rfl⟩ := hk
      exact hf e (List.mem_of_find?_eq_some he)
    rw [orNone_ne hne]

/-- **C90.** Whatever struct is sent as the pairs `send`, a form with these values (in any order of the names, with any other names) is
bound to the same struct. -/
theorem C90_form (o : BOracle) (E : TyEnv) (tag : Str) {f g n : Nat} (hg : f ≤ g) {v : Val} (hs : Sendable E tag f n v)
    (hnd : (namesOf E tag f n).Nodup) {F : Form} (hF : (F.map Prod.fst).Nodup) (hfill : ∀ e ∈ F, e.2 ≠ [])
    (hv : ∀ k ∈ namesOf E tag f n, values F k = valuesIn (send E tag f n v) k) (check : Target → Option Nat) (hc : ∀ t, check t = none) :
    ∃ w, bindForm o E g check (.struct n .zero) F [] tag = (.ok, .struct n w) ∧ SameVal E (.struct n) v w := by
  obtain ⟨w, hw, hsame⟩ := struct_back (o := o) (E := E) (form := F) (files := []) (tag := tag) f g hg n v hs hnd
    (fun k hk => ⟨at_orNone hF hfill (hv k hk), rfl⟩)
  refine ⟨w, ?_, hsame⟩
  unfold bindForm MapForm
  simp only [hw, hc]

/-- **C90 (query string).** A client sends the struct in the query string of a GET request: the handler that calls `Bind` first of all
accessors gets the same struct. -/
theorem C90_query (b : BOracle) (E : TyEnv) {m : Mime} {o : Oracle} (ho : o.parse = parseRequest m) {req : Req} (hm : req.method = b!"GET")
    {f g n : Nat} (hg : f ≤ g) {v : Val} (hs : Sendable E b!"form" f n v) (hnd : (namesOf E b!"form" f n).Nodup)
    (hq : req.rawQuery = encodeForm (send E b!"form" f n v)) (s : St ω) (h0 : s.ctx.parsedParams = false)
    (check : Target → Option Nat) (hc : ∀ t, check t = none) :
    ∃ s' w, bindPlan o req s = (.ok .form, s') ∧
      bindForm b E g check (.struct n .zero) s'.form [] b!"form" = (.ok, .struct n w) ∧ SameVal E (.struct n) v w := by
  have hfm : ¬ FormMethod req := by unfold FormMethod; rw [hm]; decide
  have hQ : Query req.rawQuery (send E b!"form" f n v) := by rw [hq]; exact C79_encode _
  obtain ⟨p1, p2, p3⟩ := parsePlain_none (m := m) (req := req) (body := s.body) (fun d hd => hfm hd.1)
  have hfail : (o.parse req (wantsMultipart req) s.body).fails = false := by
    rw [ho, plain_of_method hfm]
    simp only [parseRequest, Bool.false_eq_true, if_false]
    rw [Bool.eq_false_iff, Ne, p2, parseQuery_ok hQ]
    simp [hfm]
  have hform : (o.parse req (wantsMultipart req) s.body).form = copyValues [] (parseQuery req.rawQuery).1 := by
    rw [ho, plain_of_method hfm]
    simp only [parseRequest, Bool.false_eq_true, if_false]
    exact p1
  have hdec : newBindinger req.method (contentTypeOf req.header) = .form := by rw [hm]; rfl
  have hplan : ∃ s', bindPlan o req s = (.ok .form, s') ∧ s'.form = copyValues [] (parseQuery req.rawQuery).1 := by
    rw [← hform]
    unfold bindPlan
    simp only [hdec, ne_eq, reduceCtorEq, not_false_eq_true, and_self, if_true, doCall, St.parseForm, h0, Bool.false_eq_true, if_false,
      hfail]
    exact ⟨_, rfl, rfl⟩
  obtain ⟨s', h1, h2⟩ := hplan
  obtain ⟨w, hw, hsame⟩ := C90_form b E b!"form" hg hs hnd (F := s'.form) (by rw [h2]; exact copyValues_nodup (by simp) _)
    (by rw [h2]; exact copyValues_filled _ (by simp) (parseQuery_filled _))
    (fun k _ => by
      rw [h2, values_copyValues (by simp), parseQuery_values (query_lenient hQ)]
      rfl) check hc
  exact ⟨s', w, h1, hw, hsame⟩

/-- **C90 (body).** The same for a body of pairs of at most 10 MiB, as a browser sends a form; the query string may have other names. -/
theorem C90_body (b : BOracle) (E : TyEnv) {m : Mime} {o : Oracle} (ho : o.parse = parseRequest m) {req : Req} {s : St ω}
    {f g n : Nat} (hg : f ≤ g) {v : Val} (hs : Sendable E b!"form" f n v) (hnd : (namesOf E b!"form" f n).Nodup)
    (hd : FormText m req s.body (encodeForm (send E b!"form" f n v))) (ht : ¬ TypeFails m req)
    (hl : (encodeForm (send E b!"form" f n v)).length ≤ 10 * 2 ^ 20)
    (hct : contentTypeOf req.header = b!"application/x-www-form-urlencoded") (hmp : ¬ Multipart req)
    {qs : List (Str × Str)} (hq : Query req.rawQuery qs) (hqs : ∀ k ∈ namesOf E b!"form" f n, valuesIn qs k = [])
    (h0 : s.ctx.parsedParams = false) (check : Target → Option Nat) (hc : ∀ t, check t = none) :
    ∃ s' w, bindPlan o req s = (.ok .form, s') ∧
      bindForm b E g check (.struct n .zero) s'.form [] b!"form" = (.ok, .struct n w) ∧ SameVal E (.struct n) v w := by
  have hQ : Query (encodeForm (send E b!"form" f n v)) (send E b!"form" f n v) := C79_encode _
  have hw : wantsMultipart req = false := by
    rw [Bool.eq_false_iff, Ne, wantsMultipart_iff]; exact hmp
  obtain ⟨p1, p2, p3⟩ := parsePlain_text hd hl
  have hfail : (o.parse req (wantsMultipart req) s.body).fails = false := by
    rw [ho, hw]
    simp only [parseRequest, Bool.false_eq_true, if_false]
    rw [Bool.eq_false_iff, Ne, p2, parseQuery_ok hQ, parseQuery_ok hq]
    simp [ht]
  have hform : (o.parse req (wantsMultipart req) s.body).form =
      copyValues (parseQuery (encodeForm (send E b!"form" f n v))).1 (parseQuery req.rawQuery).1 := by
    rw [ho, hw]
    simp only [parseRequest, Bool.false_eq_true, if_false]
    exact p1
  have hdec : newBindinger req.method (contentTypeOf req.header) = .form := by
    rw [hct]
    unfold newBindinger
    split
    · rfl
    · rw [if_neg (by rintro ⟨_, h⟩; exact absurd h (by decide)), if_neg (by decide), if_neg (by decide), if_pos rfl]
  have hplan : ∃ s', bindPlan o req s = (.ok .form, s') ∧
      s'.form = copyValues (parseQuery (encodeForm (send E b!"form" f n v))).1 (parseQuery req.rawQuery).1 := by
    rw [← hform]
    unfold bindPlan
    simp only [hdec, ne_eq, reduceCtorEq, not_false_eq_true, and_self, if_true, doCall, St.parseForm, h0, Bool.false_eq_true, if_false,
      hfail]
    exact ⟨_, rfl, rfl⟩
  obtain ⟨s', h1, h2⟩ := hplan
  obtain ⟨w, hw', hsame⟩ := C90_form b E b!"form" hg hs hnd (F := s'.form) (by rw [h2]; exact copyValues_nodup (parseQuery_nodup _) _)
    (by rw [h2]; exact copyValues_filled _ (parseQuery_filled _) (parseQuery_filled _))
    (fun k hk => by
      rw [h2, values_copyValues (parseQuery_nodup _), parseQuery_values (query_lenient hQ), parseQuery_values (query_lenient hq), hqs k hk,
        List.append_nil]) check hc
  exact ⟨s', w, h1, hw', hsame⟩

namespace Demo

/-- `type T struct { ID int8; On bool; Tags []string; N *uint16; In U; Sub *V; low int }`, `type U struct { A string }`,
`type V struct { B int }` -/
def tripEnv : TyEnv := fun n =>
  if n = 0 then
    [fld b!"ID" b!"id" (.int 8), fld b!"On" b!"on,default=1" .bool, fld b!"Tags" b!"tags" (.slice .string), fld b!"N" b!"n" (.ptr (.uint 16)),
     fld b!"In" b!"-" (.struct 1), fld b!"Sub" [] (.ptr (.struct 2)), { fld b!"low" b!"low" (.int 64) with exported := false }]
  else if n = 1 then [fld b!"A" b!"a" .string] else [fld b!"B" b!"b" (.int 64)]

/-- a value with odd texts, a negative number, and a boolean against its default -/
def tripVal : Val :=
  .struct [.int (-128), .bool false, .slice [.string b!"x&y=", .string []], .ptr (.uint 65535), .struct [.string b!"1 + 1"],
    .ptr (.struct [.int 7]), .zero]

/-- what is sent, and as a query string -/
example : send tripEnv b!"form" 2 0 tripVal = [(b!"id", b!"-128"), (b!"on", b!"false"), (b!"tags", b!"x&y="), (b!"tags", []),
      (b!"n", b!"65535"), (b!"a", b!"1 + 1"), (b!"b", b!"7")] ∧
    encodeForm (send tripEnv b!"form" 2 0 tripVal) = b!"id=-128&on=false&tags=x%26y%3D&tags=&n=65535&a=1+%2B+1&b=7" := by
  decide +kernel

/-- the hypotheses of C90 are met -/
theorem trip_sendable : Sendable tripEnv b!"form" 2 0 tripVal ∧ (namesOf tripEnv b!"form" 2 0).Nodup := by
  have hn : ∀ {n ty}, bindName (fld n b!"-" ty) b!"form" = none := by intros; rfl
  have hn' : ∀ {n ty}, bindName (fld n [] ty) b!"form" = none := by intros; rfl
  refine ⟨⟨trivial, rfl, ?_⟩, by decide +kernel⟩
  intro i fd x h1 h2
  have hi : i = 0 ∨ i = 1 ∨ i = 2 ∨ i = 3 ∨ i = 4 ∨ i = 5 ∨ i = 6 := by
    have : i < 7 := (List.getElem?_eq_some_iff.1 h1).1
    omega
  rcases hi with rfl | rfl | rfl | rfl | rfl | rfl | rfl <;> cases h1 <;> cases h2
  · exact .inr ⟨rfl, rfl, by decide +kernel, ⟨by decide, by decide⟩, trivial, ⟨by decide, by decide⟩⟩
  · exact .inr ⟨rfl, rfl, by decide +kernel, trivial, trivial, trivial⟩
  · refine .inr ⟨rfl, rfl, by decide +kernel, by decide +kernel, trivial, ?_⟩
    intro a ha
    simp only [elemsIn, List.mem_cons, List.not_mem_nil, or_false] at ha
    rcases ha with rfl | rfl <;> exact ⟨trivial, trivial, trivial⟩
  · exact .inr ⟨rfl, rfl, by decide +kernel, by decide +kernel, (by show 16 ≤ 64; decide), .inr ⟨_, rfl, (by show 16 ≤ 64; decide), trivial,
      (by show 65535 < 2 ^ 16; decide)⟩⟩
  · refine .inr ⟨rfl, hn, trivial, rfl, ?_⟩
    intro i fd x h1 h2
    have hi : i = 0 := by
      have : i < 1 := (List.getElem?_eq_some_iff.1 h1).1
      omega
    subst hi
    cases h1
    cases h2
    exact .inr ⟨rfl, rfl, by decide +kernel, trivial, trivial, trivial⟩
  · refine .inr ⟨rfl, hn', _, rfl, trivial, rfl, ?_⟩
    intro i fd x h1 h2
    have hi : i = 0 := by
      have : i < 1 := (List.getElem?_eq_some_iff.1 h1).1
      omega
    subst hi
    cases h1
    cases h2
    exact .inr ⟨rfl, rfl, by decide +kernel, ⟨by decide, by decide⟩, trivial, ⟨by decide, by decide⟩⟩
  · exact .inl ⟨rfl, rfl⟩

/-- and the struct comes back -/
example : same (mapForm bindO tripEnv (addAll [] (send tripEnv b!"form" 2 0 tripVal)) [] b!"form" 2 (.struct 0) .zero).2
    (.struct [.int (-128), .zero, .slice [.string b!"x&y=", .string []], .ptr (.uint 65535), .struct [.string b!"1 + 1"],
      .ptr (.struct [.int 7]), .zero]) = true := by decide +kernel

/-- A nil pointer to a struct does not: it is allocated. -/
example : same (mapForm bindO tripEnv (addAll [] (send tripEnv b!"form" 2 0 .zero)) [] b!"form" 2 (.struct 0) .zero).2
    (.struct [.int 0, .zero, .zero, .zero, .struct [.string []], .ptr (.struct [.zero]), .zero]) = true := by decide +kernel

end Demo
end Water
