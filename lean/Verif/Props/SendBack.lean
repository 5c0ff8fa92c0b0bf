import Verif.Lemmas.SendBack
import Verif.Props.Xml
import Verif.Props.Multipart
/-
C141: a response that its client sends back, under the type it came with, to a handler that calls `Bind`.
-/
namespace Water
open Spec Demo
variable {ω : Type} {E : TyEnv}

/-- the types that responses of `JSON` and `XML` can come with -/
def shownTypes : List Str := [b!"text/plain; charset=utf-8", b!"text/html; charset=utf-8", b!"application/vnd.ms-fontobject"]

theorem shown_form {req : Req} (h : req.header.get b!"Content-Type" ∈ shownTypes) :
    newBindinger req.method (contentTypeOf req.header) = .form := by
  have key : ∀ l ∈ shownTypes, (filterFlags l) ≠ b!"multipart/form-data" ∧ filterFlags l ≠ b!"application/json" ∧
      filterFlags l ≠ b!"application/xml" ∧ filterFlags l ≠ b!"text/xml" := by decide +kernel
  obtain ⟨h1, h2, h3, h4⟩ := key _ h
  exact (C57_selection _ _).2.2.2.2 (.inr ⟨h2, h3, h4, fun e => absurd e h1⟩)

theorem shown_noForm (M : MimeEnv) {req : Req} (h : req.header.get b!"Content-Type" ∈ shownTypes) : NoForm (stdMime M) req := by
  have hk : req.header.get kContentType = req.header.get b!"Content-Type" := rfl
  generalize hl : req.header.get b!"Content-Type" = l at h hk
  have hm : ∀ l ∈ shownTypes, ∃ t, (parseMediaType M l).type = t ∧ (parseMediaType M l).fails = false ∧
      t ≠ b!"application/x-www-form-urlencoded" ∧ t ≠ b!"multipart/form-data" ∧ l ≠ [] := by
    intro l hl
    simp only [shownTypes, List.mem_cons, List.not_mem_nil, or_false] at hl
    rcases hl with rfl | rfl | rfl
    · exact ⟨b!"text/plain", rfl, rfl, by decide, by decide, by decide⟩
    · exact ⟨b!"text/html", rfl, rfl, by decide, by decide, by decide⟩
    · exact ⟨b!"application/vnd.ms-fontobject", rfl, rfl, by decide, by decide, by decide⟩
  obtain ⟨t, h1, h2, h3, h4, h5⟩ := hm l h
  refine ⟨?_, ?_, ?_, ?_⟩
  · rw [hk]; exact h2
  · rw [hk]; show (parseMediaType M l).type ≠ _; rw [h1]; exact h3
  · rw [hk]; show (parseMediaType M l).type ≠ _; rw [h1]; exact h4
  · rw [hk]; exact h5

/-- a request under such a type: what `Bind` returns does not depend on the body, and no decoder gets the body -/
theorem shown_ignored (M : MimeEnv) {b : BOracle} {check : Target → Option Nat} {req : Req} (h : req.header.get b!"Content-Type" ∈ shownTypes)
    (ops : List BOp) (fuel : Nat) (obj : Target) (d : Str) :
    (((Forms.fresh (some d)).afterB (stdMime M) b E check req ops).bind (stdMime M) b E fuel check req obj).1 =
      (((Forms.fresh (some [])).afterB (stdMime M) b E check req ops).bind (stdMime M) b E fuel check req obj).1 ∧
    ∀ D, (((Forms.fresh (some d)).afterB (stdMime M) b E check req ops).bind (stdMime M) b E fuel check req obj).1 ≠ .body D := by
  have hn := shown_noForm M h
  have hf := shown_form h
  have e : Forms.fresh (some d) = (Forms.fresh (some [])).over (some d) := rfl
  refine ⟨by rw [e, over_after hn, over_bind hn], ?_⟩
  generalize (Forms.fresh (some d)).afterB (stdMime M) b E check req ops = s
  intro D
  unfold Forms.bind
  rw [hf]
  dsimp only
  rcases s.prepare (stdMime M) req with ⟨_ | _, s'⟩
  · dsimp only
    rcases (s'.prepare (stdMime M) req).2.forForm (stdMime M) req with ⟨_ | _, s2⟩ <;> simp
  · simp

/-- C141, what a response of `XML` comes as: as a page if the type of the value has the name of a tag, in any case; otherwise as text, unless the
bytes 34 and 35 happen to be `LP`; then as a font. Never as XML. -/
theorem C141_xml_label {o : Oracle} (ho : o.detect = detectStd) (req : Req) (nx : St ω → Out × St ω) (i : Nat) {s : St ω} (hs : Unsaid s)
    {code : Int} (hc : o.bad code = false) (hb : ¬ Bodiless code) {root : Str} {n : Nat} {v : Val} (hr : XName root) (hv : XmlVal E (.struct n) v)
    {pieces : List Str} (hp : pieces.flatten = encodeXml E root n v) :
    ((∃ tag ∈ pageTags, AnyCase (60 :: root) tag) →
      label detectStd (exec o req nx i (.xml code pieces .ret) s).2.rw.log = some b!"text/html; charset=utf-8") ∧
    ((¬ ∃ tag ∈ pageTags, AnyCase (60 :: root) tag) →
      label detectStd (exec o req nx i (.xml code pieces .ret) s).2.rw.log = some
        (if (encodeXml E root n v)[34]? = some 76 ∧ (encodeXml E root n v)[35]? = some 80 then b!"application/vnd.ms-fontobject"
          else b!"text/plain; charset=utf-8")) := by
  obtain ⟨kids, hd, -⟩ := C140_wellformed hr hv
  have hne : pieces.flatten ≠ [] := by
    obtain ⟨k, c, kids', -, -, -, e⟩ := hd
    rw [hp, e]; simp
  rw [helper_label ho req nx i hs (.xml pieces) hc hb hne, hp]
  obtain ⟨h1, h2⟩ := detect_doc hd
  exact ⟨fun h => by rw [h1 h], fun h => by rw [h2 h]⟩

/-- C141, as it is: when the response of `XML` is sent back under its type, in a request with any method, `Bind` does not look at the body,
whatever the handler called before. -/
theorem C141_xml_ignored {o : Oracle} (ho : o.detect = detectStd) (req : Req) (nx : St ω → Out × St ω) (i : Nat) {s : St ω} (hs : Unsaid s)
    {code : Int} (hc : o.bad code = false) (hb : ¬ Bodiless code) {root : Str} {n : Nat} {v : Val} (hr : XName root) (hv : XmlVal E (.struct n) v)
    {pieces : List Str} (hp : pieces.flatten = encodeXml E root n v) {req' : Req}
    (h : label detectStd (exec o req nx i (.xml code pieces .ret) s).2.rw.log = some (req'.header.get b!"Content-Type"))
    (M : MimeEnv) (b : BOracle) (E' : TyEnv) (check : Target → Option Nat) (ops : List BOp) (fuel : Nat) (obj : Target) (d : Str) :
    (((Forms.fresh (some d)).afterB (stdMime M) b E' check req' ops).bind (stdMime M) b E' fuel check req' obj).1 =
      (((Forms.fresh (some [])).afterB (stdMime M) b E' check req' ops).bind (stdMime M) b E' fuel check req' obj).1 ∧
    ∀ D, (((Forms.fresh (some d)).afterB (stdMime M) b E' check req' ops).bind (stdMime M) b E' fuel check req' obj).1 ≠ .body D := by
  apply shown_ignored
  obtain ⟨h1, h2⟩ := C141_xml_label ho req nx i hs hc hb hr hv hp
  by_cases ht : ∃ tag ∈ pageTags, AnyCase (60 :: root) tag
  · rw [h1 ht] at h
    rw [← Option.some.inj h]; decide
  · rw [h2 ht] at h
    rw [← Option.some.inj h]
    split <;> decide

/-- C141, as it is: the same for the response of `JSON`. -/
theorem C141_json_ignored {o : Oracle} (ho : o.detect = detectStd) (req : Req) (nx : St ω → Out × St ω) (i : Nat) {s : St ω} (hs : Unsaid s)
    {code : Int} (hc : o.bad code = false) (hb : ¬ Bodiless code) {N : Str → Prop} {v : GVal} (hv : GMade N NumText v)
    {pieces : List Str} (hp : pieces.flatten = encodeJson v) {req' : Req}
    (h : label detectStd (exec o req nx i (.json code pieces .ret) s).2.rw.log = some (req'.header.get b!"Content-Type"))
    (M : MimeEnv) (b : BOracle) (E' : TyEnv) (check : Target → Option Nat) (ops : List BOp) (fuel : Nat) (obj : Target) (d : Str) :
    (((Forms.fresh (some d)).afterB (stdMime M) b E' check req' ops).bind (stdMime M) b E' fuel check req' obj).1 =
      (((Forms.fresh (some [])).afterB (stdMime M) b E' check req' ops).bind (stdMime M) b E' fuel check req' obj).1 ∧
    ∀ D, (((Forms.fresh (some d)).afterB (stdMime M) b E' check req' ops).bind (stdMime M) b E' fuel check req' obj).1 ≠ .body D := by
  apply shown_ignored
  rw [C130_json_partial ho req nx i hs hc hb (encode_json hv).1 hp] at h
  rw [← Option.some.inj h]
  split <;> decide

/-- C141 (partial): if the client sends the response of `JSON` back under the type that the helper means to give it, and not with GET, `Bind`
leaves the value in the struct, whatever the handler called before that. Missing: the type that it comes with (`C141_json_ignored`), and GET. -/
theorem C141_json_partial {D : Decoding} (hD : ReadsJson E D) {n : Nat} {cur v : Val} (h : ReadBack E (.struct n) cur v)
    (o : Oracle) (req : Req) (nx : St ω → Out × St ω) (i : Nat) (s : St ω) {code : Int} {pieces : List Str}
    (hp : pieces.flatten = encodeJson (toG E (.struct n) v)) (hc : o.bad code = false) (hw : s.ctx.written = false) (hl : s.rw.log = [])
    {req' : Req} (hm : req'.method ≠ b!"GET") (ht : req'.header.get b!"Content-Type" = b!"application/json; charset=utf-8") (m : FMime) (b : BOracle) (check : Target → Option Nat)
    (fs : Forms) (fuel : Nat) :
    (fs.bind m b E fuel check req' (.struct n cur)).1 = .body .json ∧
    ∀ (bd : Body) (q : Sched) (fuel : Nat) (r : Option JErr × Target) (b' : Option Body),
      Arrives bd (receivedBody (exec o req nx i (.json code pieces .ret) s).2.rw.log) none → bindBodyF D q fuel check (.struct n cur) (some bd) = some (r, b') →
      r = ((check (.struct n v)).map JErr.invalid, .struct n v) := by
  have hct : contentTypeOf req'.header = b!"application/json" := by unfold contentTypeOf; rw [ht]; decide +kernel
  constructor
  · unfold Forms.bind
    rw [(C57_selection _ _).2.1.2 ⟨hm, hct⟩]
  · obtain ⟨s', h1, h2⟩ := C139_bind_partial hD h o req nx i s hp hc hw hl
    rw [h1]
    intro bd q fuel r b' ha hr
    exact h2 bd q fuel check r b' ha hr

/-- C141 (partial): the same for the response of `XML`, and a new struct. -/
theorem C141_xml_partial {D : Decoding} (hD : ReadsXml E D) {root : Str} {n : Nat} {v : Val} (hr : XName root) (hv : XmlVal E (.struct n) v)
    (h : XmlBack E false (.struct n) 1 v) (o : Oracle) (req : Req) (nx : St ω → Out × St ω) (i : Nat) (s : St ω) {code : Int}
    {pieces : List Str}
    (hp : pieces.flatten = encodeXml E root n v) (hc : o.bad code = false) (hw : s.ctx.written = false) (hl : s.rw.log = [])
    {req' : Req} (hm : req'.method ≠ b!"GET") (ht : req'.header.get b!"Content-Type" = b!"application/xml; charset=utf-8") (m : FMime) (b : BOracle) (check : Target → Option Nat)
    (fs : Forms) (fuel : Nat) :
    (fs.bind m b E fuel check req' (.struct n .zero)).1 = .body .xml ∧
    ∀ (bd : Body) (q : Sched) (fuel : Nat) (r : Option JErr × Target) (b' : Option Body),
      Arrives bd (receivedBody (exec o req nx i (.xml code pieces .ret) s).2.rw.log) none → bindBodyF D q fuel check (.struct n .zero) (some bd) = some (r, b') →
      r = ((check (.struct n v)).map JErr.invalid, .struct n v) := by
  have hct : contentTypeOf req'.header = b!"application/xml" := by unfold contentTypeOf; rw [ht]; decide +kernel
  constructor
  · unfold Forms.bind
    rw [(C57_selection _ _).2.2.1.2 ⟨hm, .inl hct⟩]
  · obtain ⟨s', h1, -, h2⟩ := C140_bind_partial hD hr hv h o req nx i s hp hc hw hl
    rw [h1]
    intro bd q fuel r b' ha hr
    exact h2 bd q fuel check r b' ha hr

/-- C141 as stated: the response of `JSON` to a request, sent back by POST under the type it came with, is read as JSON. -/
def C141_claim : Prop :=
  ∀ (E : TyEnv) (n : Nat) (v : Val) (pieces : List Str), ProperVal E (.struct n) v → ReadBack E (.struct n) .zero v →
    pieces.flatten = encodeJson (toG E (.struct n) v) →
    ∀ req' : Req, req'.method = b!"POST" →
      label detectStd (exec stdO chainReq (runAll stdO chainReq) 0 (.json 200 pieces .ret) (chainSt [])).2.rw.log =
        some (req'.header.get b!"Content-Type") →
      ∀ (M : MimeEnv) (d : Str), ((Forms.fresh (some d)).bind (stdMime M) bindO E 1 (fun _ => none) req' (.struct n .zero)).1 = .body .json

namespace Demo

/-- how the first half of the laws is met -/
def someMime : MimeEnv := ⟨fun p _ => p, fun _ => none, fun _ => false, fun _ => 0, 0⟩

theorem chain_json : label detectStd (exec stdO chainReq (runAll stdO chainReq) 0
    (.json 200 [encodeJson (toG listEnv (.struct 0) chain)] .ret) (chainSt [])).2.rw.log =
    some ((postReq b!"text/plain; charset=utf-8" []).header.get b!"Content-Type") := by
  rw [C130_json_partial rfl chainReq _ 0 fresh_chain (by decide) (by unfold Bodiless; decide)
    (encode_json (proper_made proper_chain)).1 (by simp [encodeJson])]
  decide +kernel

/-- Beside `C141_json_ignored`: a list, which is sent back under `text/plain`. -/
theorem C141_demo (d : Str) : ∀ D, ((Forms.fresh (some d)).bind (stdMime someMime) bindO listEnv 1 (fun _ => none)
    (postReq b!"text/plain; charset=utf-8" []) (.struct 0 .zero)).1 ≠ .body D :=
  (C141_json_ignored rfl chainReq _ 0 fresh_chain (by decide) (by unfold Bodiless; decide) (proper_made proper_chain)
    (by simp) chain_json someMime bindO listEnv (fun _ => none) [] 1 (.struct 0 .zero) d).2

/-- Beside `C141_xml_label`: a value of a type `Title` comes as a page. -/
example : ∃ tag ∈ pageTags, AnyCase (60 :: b!"Title") tag :=
  ⟨b!"<TITLE", by decide, .cons (.inl rfl) (.cons (.inl rfl) (.cons (.inr (.inl (by decide))) (.cons (.inr (.inl (by decide)))
    (.cons (.inr (.inl (by decide))) (.cons (.inr (.inl (by decide))) .nil)))))⟩

end Demo

/-- C141, as stated, is false: the response comes as `text/plain`, and such bodies are not read. -/
theorem C141_refuted : ¬ C141_claim := fun h =>
  C141_demo [] .json (h listEnv 0 chain [encodeJson (toG listEnv (.struct 0) chain)] proper_chain C139_demo (by simp)
    (postReq b!"text/plain; charset=utf-8" []) rfl chain_json someMime [])

end Water
