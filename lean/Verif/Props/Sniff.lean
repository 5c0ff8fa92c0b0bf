import Verif.Lemmas.Sniff
import Verif.Props.Label
import Verif.Props.HttpDate
/-
C130: what responses are shown as, with `http.DetectContentType` as it is.
-/
namespace Water
open Spec Demo
variable {ω : Type}

/-- Exactly the texts that begin like a page are taken for a page. -/
theorem C130_page (s : Str) : detectStd s = b!"text/html; charset=utf-8" ↔ Page (s.take 512) := detect_page s

/-- Exactly the texts that begin like an XML document are taken for one. -/
theorem C130_xml (s : Str) : detectStd s = b!"text/xml; charset=utf-8" ↔ XmlBegin (s.take 512) := detect_xml s

/-- Exactly what has the mark of UTF-8, or has no control characters and begins like nothing else, is taken for text. -/
theorem C130_text (s : Str) : detectStd s = b!"text/plain; charset=utf-8" ↔
    Fits [some 0xEF, some 0xBB, some 0xBF, none] (s.take 512) ∨
    ((∀ c ∈ s.take 512, ¬ Control c) ∧ ¬ Page (s.take 512) ∧ ¬ XmlBegin (s.take 512) ∧ ¬ OtherKind (s.take 512)) := detect_plain s

theorem detect_take (s : Str) : detectStd (s.take 512) = detectStd s := by
  unfold detectStd
  rw [List.take_take, Nat.min_self]

/-- a fresh response: nothing written, and no header that says what follows -/
structure Unsaid (s : St ω) : Prop where
  unwritten : s.ctx.written = false
  unsent : s.rw.log = []
  type : s.rw.header b!"Content-Type" = none
  coding : s.rw.header.get b!"Content-Encoding" = []
  transfer : s.rw.header.get b!"Transfer-Encoding" = []

/-- the label of a helper's response -/
theorem helper_label {o : Oracle} (ho : o.detect = detectStd) (req : Req) (nx : St ω → Out × St ω) (i : Nat) {s : St ω} (hs : Unsaid s) {code : Int}
    {p : Prog ω} {ctype : Str} {pieces : List Str} (hp : Helper code p ctype pieces) (hc : o.bad code = false) (hb : ¬ Bodiless code)
    (hne : pieces.flatten ≠ []) : label detectStd (exec o req nx i p s).2.rw.log = some (detectStd pieces.flatten) := by
  have := (C115_label_partial o req nx i s hp hc hs.unwritten hs.unsent hb).2 hs.type hs.coding hs.transfer
  rw [ho, if_neg hne, detect_take] at this
  exact this

/-- **C130, partial.** The response of every helper, whatever it is for, is shown as a page exactly if it begins like one, as an XML document
exactly if it begins like one, and as text exactly if it has the mark of UTF-8, or no control characters and another beginning. -/
theorem C130_shown_partial {o : Oracle} (ho : o.detect = detectStd) (req : Req) (nx : St ω → Out × St ω) (i : Nat) {s : St ω} (hs : Unsaid s) {code : Int}
    {p : Prog ω} {ctype : Str} {pieces : List Str} (hp : Helper code p ctype pieces) (hc : o.bad code = false) (hb : ¬ Bodiless code)
    (hne : pieces.flatten ≠ []) :
    (label detectStd (exec o req nx i p s).2.rw.log = some b!"text/html; charset=utf-8" ↔ Page (pieces.flatten.take 512)) ∧
    (label detectStd (exec o req nx i p s).2.rw.log = some b!"text/xml; charset=utf-8" ↔ XmlBegin (pieces.flatten.take 512)) ∧
    (label detectStd (exec o req nx i p s).2.rw.log = some b!"text/plain; charset=utf-8" ↔
      Fits [some 0xEF, some 0xBB, some 0xBF, none] (pieces.flatten.take 512) ∨
      ((∀ c ∈ pieces.flatten.take 512, ¬ Control c) ∧ ¬ Page (pieces.flatten.take 512) ∧ ¬ XmlBegin (pieces.flatten.take 512) ∧
        ¬ OtherKind (pieces.flatten.take 512))) := by
  rw [helper_label ho req nx i hs hp hc hb hne]
  simp only [Option.some.injEq]
  exact ⟨detect_page _, detect_xml _, detect_plain _⟩

/-- **C130 for JSON, partial.** A value sent with `JSON`, whatever texts it holds, is shown as text, unless its bytes 34 and 35 happen to be `LP`;
then it is shown as a font. -/
theorem C130_json_partial {o : Oracle} (ho : o.detect = detectStd) (req : Req) (nx : St ω → Out × St ω) (i : Nat) {s : St ω} (hs : Unsaid s) {code : Int}
    (hc : o.bad code = false) (hb : ¬ Bodiless code) {v : Str} (hv : Json v) {enc : List Str} (he : enc.flatten = v ++ b!"\n") :
    label detectStd (exec o req nx i (.json code enc .ret) s).2.rw.log =
      some (if v[34]? = some 76 ∧ v[35]? = some 80 then b!"application/vnd.ms-fontobject" else b!"text/plain; charset=utf-8") := by
  rw [helper_label ho req nx i hs (.json enc) hc hb (by rw [he]; simp), he, detect_json hv]

/-- So a value sent with `JSON` is never shown as a page. -/
theorem C130_json_no_page {o : Oracle} (ho : o.detect = detectStd) (req : Req) (nx : St ω → Out × St ω) (i : Nat) {s : St ω} (hs : Unsaid s) {code : Int}
    (hc : o.bad code = false) (hb : ¬ Bodiless code) {v : Str} (hv : Json v) {enc : List Str} (he : enc.flatten = v ++ b!"\n") :
    label detectStd (exec o req nx i (.json code enc .ret) s).2.rw.log ≠ some b!"text/html; charset=utf-8" := by
  rw [C130_json_partial ho req nx i hs hc hb hv he]
  split <;> decide

/-- The first piece that a handler writes with `ctx.Write` decides what the whole response is shown as: a page exactly if that piece begins like
one. -/
theorem C130_write {o : Oracle} (ho : o.detect = detectStd) (h200 : o.bad 200 = false) (req : Req) (nx : St ω → Out × St ω) (i : Nat) {s : St ω}
    (hs : Unsaid s) {d : Str} (hd : d ≠ []) :
    (label detectStd (exec o req nx i (.do (.write d) .ret) s).2.rw.log = some b!"text/html; charset=utf-8" ↔ Page (d.take 512)) ∧
    label detectStd (exec o req nx i (.do (.write d) .ret) s).2.rw.log = some (detectStd d) := by
  have key : label detectStd (exec o req nx i (.do (.write d) .ret) s).2.rw.log = some (detectStd d) := by
    have hck : canonKey kContentType = b!"Content-Type" := by decide
    have hg : s.rw.header.get kContentType = [] := by
      unfold Header.get; rw [hck, hs.type]
    have hlen : 0 < d.length := List.length_pos_iff.2 hd
    apply label_sent (h := s.rw.header.put kContentType (detectStd d)) (ts := [])
    · simp [Prog.do, exec, doCall, St.write, hs.unwritten, hg, hlen, St.writeHeader, Writer.writeHeader, hs.unsent, h200, Writer.write, receivedHeader, ho]
    · unfold Header.put Map.set
      rw [hck]; simp
  rw [key]
  simp only [Option.some.injEq, and_true]
  exact detect_page d

theorem put_raw {h : Header} {k k' v : Str} (hk : canonKey k ≠ k') : (h.put k v) k' = h k' := by
  unfold Header.put Map.set
  simp [hk.symm]

/-- **C130 for files.** A file is shown as what its name says; one whose name says nothing is shown as what it begins like, and so as a page exactly if
it begins like one. -/
theorem C130_file {rx : Regex} {o : Oracle} (hdet : o.detect = detectStd) {io : ContentIO ω} {fs : FS ω}
    {opt : StaticOptions ω} {name : Str} {e : Engine (Prog ω)} (ha : FileApp rx o io fs opt name e) (h200 : o.bad 200 = false)
    (h304 : o.bad 304 = false) {v : CacheVisit ω} {i : FileInfo} {d : Str} (hv : VisitOf fs io opt name v i d) (hask : Asks none v.req) :
    (io.typeOf name ≠ [] → label detectStd (answerAt rx o e v) = some (io.typeOf name)) ∧
    (io.typeOf name = [] → label detectStd (answerAt rx o e v) = some (detectStd d) ∧
      (label detectStd (answerAt rx o e v) = some b!"text/html; charset=utf-8" ↔ Page (d.take 512))) := by
  have hp := asks_plainly hask
  have hn : v.req.header.get b!"If-None-Match" = [] := hask.tag
  have key : label detectStd (answerAt rx o e v) = some (if io.typeOf name ≠ [] then io.typeOf name else detectStd d) := by
    obtain ⟨w, hans⟩ := app_answer ha h200 h304 hv hp (Or.inl hn)
    generalize hL : answerAt rx o e v = L at hans ⊢
    cases hans with
    | tag h1 h2 => rw [hn] at h2; exact absurd h2.symm (staticTag_ne_nil _ _)
    | old h1 h2 =>
      rw [conditions_untagged hp hn, if_neg (by rw [hask.date]; simp)] at h2
      cases h2
    | file h1 h2 =>
      obtain ⟨r1, r2, r3⟩ := received_sent 200 (wholeHeader io o name i.modTime d (taggedHeader opt i (startHeader opt w))) d
      apply label_sent r2 (ts := [])
      have c1 : canonKey b!"Accept-Ranges" = b!"Accept-Ranges" := by decide +kernel
      have c2 : canonKey b!"Content-Length" = b!"Content-Length" := by decide +kernel
      have c3 : canonKey b!"Last-Modified" = b!"Last-Modified" := by decide +kernel
      have c4 : canonKey b!"ETag" = b!"Etag" := canon_etag
      have c5 : canonKey b!"Expires" = b!"Expires" := by decide +kernel
      have c6 : canonKey b!"Content-Type" = b!"Content-Type" := by decide +kernel
      have s1 : (setLastModified io i.modTime (taggedHeader opt i (startHeader opt w))) b!"Content-Type" = none := by
        have s2 : (startHeader opt w) b!"Content-Type" = none := by
          unfold startHeader
          cases opt.expires with
          | none => rfl
          | some e => dsimp only; rw [put_raw (by rw [c5]; decide)]; rfl
        have s3 : (taggedHeader opt i (startHeader opt w)) b!"Content-Type" = none := by
          unfold taggedHeader
          split
          · exact s2
          · rw [put_raw (by rw [c4]; decide)]; exact s2
        unfold setLastModified
        split
        · exact s3
        · rw [put_raw (by rw [c3]; decide)]; exact s3
      have s4 : (typedOf io o name i.modTime d (taggedHeader opt i (startHeader opt w))) b!"Content-Type" =
          some [if io.typeOf name ≠ [] then io.typeOf name else detectStd d] := by
        unfold typedOf typedHeader
        rw [s1, hdet, detect_take]
        dsimp only
        unfold Header.put Map.set
        rw [c6]; simp
      unfold wholeHeader sentHeader
      generalize (Header.get _ b!"Content-Encoding" != []) = enc
      cases enc
      · simp only [Bool.false_eq_true, if_false]
        rw [put_raw (by rw [c2]; decide), put_raw (by rw [c1]; decide), s4]
      · simp only [if_true]
        rw [put_raw (by rw [c1]; decide), s4]
  refine ⟨fun h => by rw [key, if_pos h], fun h => ?_⟩
  rw [key, if_neg (by simp [h])]
  simp only [Option.some.injEq, true_and]
  exact detect_page d

namespace Demo

/-- an oracle with the standard guess -/
def stdO : Oracle := { chainO with detect := detectStd }

theorem fresh_chain : Unsaid (chainSt []) := ⟨rfl, rfl, rfl, rfl, rfl⟩

theorem page_script : Page b!"\n <ScRipt >alert(1)</script>" :=
  (page_iff _).2 ⟨b!"<SCRIPT", by decide +kernel, by decide +kernel⟩

/-- the hypotheses of `C130_shown_partial` are met by pages, by texts and by documents -/
example : Page b!"\n <ScRipt >alert(1)</script>" ∧
    label detectStd (exec stdO chainReq (runAll stdO chainReq) 0 (.string 200 b!"\n <ScRipt >alert(1)</script>" .ret) (chainSt [])).2.rw.log =
      some b!"text/html; charset=utf-8" ∧
    label detectStd (exec stdO chainReq (runAll stdO chainReq) 0 (.xml 200 [b!"<?xml version=\"1.0\"?>", b!"<a/>"] .ret) (chainSt [])).2.rw.log =
      some b!"text/xml; charset=utf-8" ∧
    label detectStd (exec stdO chainReq (runAll stdO chainReq) 0 (.string 200 b!"1 < 2" .ret) (chainSt [])).2.rw.log =
      some b!"text/plain; charset=utf-8" ∧ ¬ Page b!"1 < 2" := by
  refine ⟨page_script, ?_, ?_, ?_, ?_⟩
  · exact ((C130_shown_partial rfl chainReq _ 0 fresh_chain (.string (code := 200) b!"\n <ScRipt >alert(1)</script>") rfl (by decide) (by decide)).1).2 page_script
  · exact ((C130_shown_partial rfl chainReq _ 0 fresh_chain (.xml (code := 200) [b!"<?xml version=\"1.0\"?>", b!"<a/>"]) rfl (by decide) (by decide)).2.1).2
      (XmlBegin.mk (ws := []) (by simp) (rest := b!" version=\"1.0\"?><a/>"))
  · decide +kernel
  · intro h
    have := (C130_page b!"1 < 2").2 h
    revert this; decide +kernel

/-- a value with the text of a visitor in it -/
theorem json_visitor : Json b!"{\"name\":\"<script>alert(1)</script>\",\"n\":[1,-2.5e+3,true,null]}" := by
  have t : ∀ s : Str, (∀ c ∈ s, 32 ≤ c.toNat ∧ c ≠ 34 ∧ c ≠ 92) → JsonInner s := by
    intro s
    induction s with
    | nil => intro _; exact .nil
    | cons c s ih =>
      intro h
      obtain ⟨h1, h2, h3⟩ := h c (by simp)
      exact .char h1 h2 h3 (ih (fun x hx => h x (by simp [hx])))
  have k1 : JsonText b!"\"name\"" := .mk (t b!"name" (by decide))
  have k2 : JsonText b!"\"n\"" := .mk (t b!"n" (by decide))
  have v1 : Json b!"\"<script>alert(1)</script>\"" := .text (.mk (t b!"<script>alert(1)</script>" (by decide)))
  have n1 : Json b!"1" := .number (.mk (sign := []) (whole := b!"1") (frac := []) (exp := []) (.inl rfl) (.one (by decide) (by decide)) (by decide) (.inl rfl) (.inl rfl))
  have n2 : Json b!"-2.5e+3" := .number (.mk (sign := b!"-") (whole := b!"2") (frac := b!".5") (exp := b!"e+3") (.inr rfl) (.one (by decide) (by decide)) (by decide)
    (.inr ⟨b!"5", .one (by decide) (by decide), rfl⟩)
    (.inr ⟨b!"e", by decide, b!"+", by decide, b!"3", .one (by decide) (by decide), rfl⟩))
  have v2 : Json b!"[1,-2.5e+3,true,null]" := .array (xs := [b!"1", b!"-2.5e+3", b!"true", b!"null"]) (by
    intro x hx
    simp only [List.mem_cons, List.not_mem_nil, or_false] at hx
    rcases hx with rfl | rfl | rfl | rfl
    · exact n1
    · exact n2
    · exact .yes
    · exact .null)
  exact Json.object (kvs := [(b!"\"name\"", b!"\"<script>alert(1)</script>\""), (b!"\"n\"", b!"[1,-2.5e+3,true,null]")])
    (by intro p hp; simp only [List.mem_cons, List.not_mem_nil, or_false] at hp; rcases hp with rfl | rfl; exact k1; exact k2)
    (by intro p hp; simp only [List.mem_cons, List.not_mem_nil, or_false] at hp; rcases hp with rfl | rfl; exact v1; exact v2)

/-- the hypotheses of `C130_json_partial` are met: the tag in the value does no harm -/
example : label detectStd (exec stdO chainReq (runAll stdO chainReq) 0
    (.json 200 [b!"{\"name\":\"<script>alert(1)</script>\",\"n\":[1,-2.5e+3,true,null]}\n"] .ret) (chainSt [])).2.rw.log =
      some b!"text/plain; charset=utf-8" :=
  (C130_json_partial rfl chainReq _ 0 fresh_chain rfl (by decide) json_visitor rfl).trans (by decide +kernel)

/-- the hypotheses of `C130_write` are met -/
example : label detectStd (exec stdO chainReq (runAll stdO chainReq) 0 (.do (.write b!"<h1>Hello</h1>") .ret) (chainSt [])).2.rw.log =
    some b!"text/html; charset=utf-8" :=
  (C130_write rfl rfl chainReq _ 0 fresh_chain (by decide)).1.2 ((C130_page b!"<h1>Hello</h1>").1 (by decide +kernel))

/-- a system without a table of types; the one in package mime has no `.txt` -/
def bareIO : ContentIO (FileInfo × Str) := { stdIO with typeOf := fun _ => [] }

/-- the rest of net/http is not used -/
def bareHttp : Http (FileInfo × Str) := { oneHttp with serveContent := serveContentStd bareIO stdO }

/-- build the application and test it -/
def withBare (p : Engine (Prog (FileInfo × Str)) → Bool) : Bool :=
  match runOps [] (.newRouter :: staticOps 0 oneFS bareHttp (oneOpt 0)) with
  | .error _ => false
  | .ok heap =>
    match handler Demo.rx heap 0 [] with
    | .error _ => false
    | .ok e => p e

theorem withBare_spec {p : Engine (Prog (FileInfo × Str)) → Bool} (h : withBare p = true) :
    ∃ e, FileApp Demo.rx stdO bareIO oneFS (oneOpt 0) b!"f.txt" e ∧ p e = true := by
  unfold withBare at h
  cases h1 : runOps [] (.newRouter :: staticOps 0 oneFS bareHttp (oneOpt 0)) with
  | error _ => rw [h1] at h; cases h
  | ok heap =>
    rw [h1] at h
    dsimp only at h
    cases h2 : handler Demo.rx heap 0 [] with
    | error _ => rw [h2] at h; cases h
    | ok e =>
      rw [h2] at h
      exact ⟨e, alone_app (by decide) (by decide) (oneOrdinary 0) rfl h1 h2, h⟩

/-- the hypotheses of `C130_file` are met: a text file with a tag at its beginning is shown as a page -/
example : ∃ e, FileApp Demo.rx stdO bareIO oneFS (oneOpt 0) b!"f.txt" e ∧
    label detectStd (answerAt Demo.rx stdO e (visitOne none (newInfo, b!"<b>News"))) = some b!"text/html; charset=utf-8" ∧
    label detectStd (answerAt Demo.rx stdO e (visitOne none (newInfo, b!"News"))) = some b!"text/plain; charset=utf-8" := by
  obtain ⟨e, h1, -⟩ := withBare_spec (p := fun _ => true) (by decide +kernel)
  have hv : ∀ d, VisitOf oneFS bareIO (oneOpt 0) b!"f.txt" (visitOne none (newInfo, d)) newInfo d := fun d =>
    ⟨⟨Or.inr ⟨rfl, Int.le_refl 1⟩, show b!"/static/f.txt" ≠ b!"*" by decide, List.mem_cons_self⟩,
      show b!"/static/f.txt" = pathBelow (elems b!"/static") b!"f.txt" by decide +kernel, ⟨_, _, _, rfl, rfl, rfl, rfl⟩⟩
  refine ⟨e, h1, ?_, ?_⟩
  · exact ((C130_file rfl h1 rfl rfl (hv b!"<b>News") (visitOne_asks _ _)).2 rfl).2.2 ((C130_page b!"<b>News").1 (by decide +kernel))
  · exact ((C130_file rfl h1 rfl rfl (hv b!"News") (visitOne_asks _ _)).2 rfl).1.trans (by decide +kernel)

/-- a value whose bytes 34 and 35 are `LP` -/
theorem json_help : Json b!"\"If you do not see it, just ask HELP or read the manual.\"" := by
  refine .text (.mk (s := b!"If you do not see it, just ask HELP or read the manual.") ?_)
  have t : ∀ s : Str, (∀ c ∈ s, 32 ≤ c.toNat ∧ c ≠ 34 ∧ c ≠ 92) → JsonInner s := by
    intro s
    induction s with
    | nil => intro _; exact .nil
    | cons c s ih =>
      intro h
      obtain ⟨h1, h2, h3⟩ := h c (by simp)
      exact .char h1 h2 h3 (ih (fun x hx => h x (by simp [hx])))
  exact t _ (by decide)

end Demo

/-- what the helpers are for: the program, the body it sends, and what that may be shown as -/
inductive Meant : Prog ω → Str → List Str → Prop where
  | text (s : Str) : Meant (.string 200 s .ret) s [b!"text/plain; charset=utf-8"]
  | html (s : Str) : Meant (.htmlRaw 200 s .ret) s [b!"text/html; charset=utf-8"]
  | json {s : Str} : Json s → Meant (.json 200 [s ++ b!"\n"] .ret) (s ++ b!"\n") [b!"application/json; charset=utf-8", b!"text/plain; charset=utf-8"]
  | xml (s : Str) : Meant (.xml 200 [s] .ret) s [b!"application/xml; charset=utf-8", b!"text/xml; charset=utf-8", b!"text/plain; charset=utf-8"]

/-- the claim of C130 for one program: what it sends is shown as what it is for -/
def C130_claim (p : Prog Unit) : Prop :=
  ∀ b ls, Meant p b ls → b ≠ [] → ∃ l ∈ ls, label detectStd (exec stdO chainReq (runAll stdO chainReq) 0 p (chainSt [])).2.rw.log = some l

theorem refute_shown {p : Prog Unit} {b : Str} {ls : List Str} (h : Meant p b ls) (hb : b ≠ []) {l : Str}
    (hl : label detectStd (exec stdO chainReq (runAll stdO chainReq) 0 p (chainSt [])).2.rw.log = some l) (hne : l ∉ ls) : ¬ C130_claim p := by
  intro hc
  obtain ⟨l', h1, h2⟩ := hc b ls h hb
  rw [hl] at h2
  cases h2
  exact hne h1

/-- C130 is false for `String`: a text of a visitor is shown as a page, and what is in it runs. -/
theorem C130_refuted : ¬ C130_claim (.string 200 b!"<script>alert(1)</script>" .ret) :=
  refute_shown (.text _) (by decide) (l := b!"text/html; charset=utf-8") (by decide +kernel) (by decide)

/-- C130 is false for `HTMLRaw`: a page that begins with another tag is shown as text. -/
theorem C130_refuted_html : ¬ C130_claim (.htmlRaw 200 b!"<h2>Hello</h2>" .ret) :=
  refute_shown (.html _) (by decide) (l := b!"text/plain; charset=utf-8") (by decide +kernel) (by decide)

/-- C130 is false for `XML`: the value of a type with the name of a tag, such as `Title`, is shown as a page. -/
theorem C130_refuted_xml : ¬ C130_claim (.xml 200 [b!"<Title><Name>Hello</Name></Title>"] .ret) :=
  refute_shown (.xml _) (by decide) (l := b!"text/html; charset=utf-8") (by decide +kernel) (by decide)

/-- C130 is false for `JSON`: a value with `LP` in the wrong place is shown as a font. -/
theorem C130_refuted_json : ¬ C130_claim (.json 200 [b!"\"If you do not see it, just ask HELP or read the manual.\"" ++ b!"\n"] .ret) :=
  refute_shown (.json json_help) (by decide) (l := b!"application/vnd.ms-fontobject") (by decide +kernel) (by decide)

end Water
