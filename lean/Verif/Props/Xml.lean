import Verif.Lemmas.Xml
import Verif.Props.JsonBind
/-
C140: a struct that is sent with `XML` and read with `Bind`.
-/
namespace Water
open Spec
variable {ω : Type} {E : TyEnv}

/-- C140 as stated: a value that is sent is read back into a new variable. -/
def C140_claim : Prop :=
  ∀ (E : TyEnv) (root : Str) (n : Nat) (v : Val), XName root → XmlVal E (.struct n) v → ∀ x, XmlDoc (encodeXml E root n v) x →
    readXml E n x .zero = some v

theorem encodeXml_doc {root : Str} {n : Nat} {vs : List Val} (hr : XName root) (hv : XmlVal E (.struct n) (.struct vs)) :
    XmlDoc (encodeXml E root n (.struct vs)) (.elem root (xfields E ((E n).map retag) vs)) := by
  cases hv with
  | struct hf hl hall =>
    have h : XSays (xmlFields E ((E n).map retag) vs) (xfields E ((E n).map retag) vs) := by
      refine fields_says _ _ ?_
      intro i fd v k hi hv hs
      have hn := xmlFields_name hf hi hs
      rw [List.getElem?_map] at hi
      cases hfd : (E n)[i]? with
      | none => rw [hfd] at hi; cases hi
      | some fd' =>
        rw [hfd] at hi
        cases hi
        exact xml_says (hall i fd' v hfd hv) hn
    refine ⟨root, _, _, rfl, hr, h, ?_⟩
    unfold encodeXml
    rw [xmlValue]
    unfold xmlElem
    simp

/-- C140: what is sent for a struct is an element with the name of its type, and no reader can find anything else in it. -/
theorem C140_wellformed {root : Str} {n : Nat} {v : Val} (hr : XName root) (hv : XmlVal E (.struct n) v) :
    ∃ kids, XmlDoc (encodeXml E root n v) (.elem root kids) ∧ ∀ x, XmlDoc (encodeXml E root n v) x → x = .elem root kids := by
  have : ∃ vs, v = .struct vs := by cases hv; exact ⟨_, rfl⟩
  obtain ⟨vs, rfl⟩ := this
  have h := encodeXml_doc hr hv
  exact ⟨_, h, fun x hx => xmlDoc_unique hx h⟩

/-- C140: what is sent for a string says its characters, with U+FFFD for what XML does not allow; and it says nothing else. -/
theorem C140_text (s : Str) : ∃ l, XmlCleaned s l ∧ XSays (xmlText s) (l.map .chr) ∧ ∀ l', XSays (xmlText s) l' → l' = l.map .chr :=
  ⟨_, xcodes_cleaned _ s (Nat.le_refl _), xmlText_says _ s, fun _ h => (xsays_unique (r := []) (r' := []) h (xmlText_says _ s) rfl).2.1⟩

/-- C140 (partial): a value is read back into a new variable exactly if it is such as `XmlBack` says. Missing: the other values, see
`C140_refuted`. -/
theorem C140_exact_partial {root : Str} {n : Nat} {v : Val} (hr : XName root) (hv : XmlVal E (.struct n) v) :
    (∃ x, XmlDoc (encodeXml E root n v) x ∧ readXml E n x .zero = some v) ↔ XmlBack E false (.struct n) 1 v := by
  have : ∃ vs, v = .struct vs := by cases hv; exact ⟨_, rfl⟩
  obtain ⟨vs, rfl⟩ := this
  have hd := encodeXml_doc hr hv
  have hx : xitems E root false (.struct n) (.struct vs) = [.elem root (xfields E ((E n).map retag) vs)] := by rw [xitems]
  have hf : ∀ x, xfold E (.struct n) [x] (blank (.struct n)) = readXml E n x .zero := by
    intro x
    rw [xfold_one, xmlThrough]
    · rfl
    all_goals simp
  constructor
  · rintro ⟨x, h1, h2⟩
    rw [xmlDoc_unique h1 hd, ← hf, ← hx] at h2
    have := reads_back hv h2
    rw [hx] at this
    exact this
  · intro h
    refine ⟨_, hd, ?_⟩
    have := (back_reads h root).2
    rw [hx, hf] at this
    exact this

/-- C140 (partial): one handler sends the value, in whatever pieces; the body that its client gets is sent as the body of a request to another
one, in whatever pieces it arrives, through `Logger` or not; and `Bind` leaves the value in the new struct, and returns what the
validator says of it. Missing: the values that are not read back. -/
theorem C140_bind_partial {D : Decoding} (hD : ReadsXml E D) {root : Str} {n : Nat} {v : Val} (hr : XName root) (hv : XmlVal E (.struct n) v)
    (h : XmlBack E false (.struct n) 1 v) (o : Oracle) (req : Req) (nx : St ω → Out × St ω) (i : Nat) (s : St ω) {code : Int}
    {pieces : List Str} (hp : pieces.flatten = encodeXml E root n v) (hc : o.bad code = false) (hw : s.ctx.written = false) (hl : s.rw.log = []) :
    ∃ s', exec o req nx i (.xml code pieces .ret) s = (.ret, s') ∧ s'.ctx.status = code ∧
      ∀ (b : Body) (q : Sched) (fuel : Nat) (check : Target → Option Nat) (r : Option JErr × Target) (b' : Option Body),
        Arrives b (receivedBody s'.rw.log) none → bindBodyF D q fuel check (.struct n .zero) (some b) = some (r, b') →
        r = ((check (.struct n v)).map JErr.invalid, .struct n v) := by
  obtain ⟨s', h1, h2, -, -, h5, -⟩ := C31_helpers_partial o req nx i s (.xml pieces) hc hw hl
  refine ⟨s', h1, h5, ?_⟩
  intro b q fuel check r b' ha hb
  rw [h2, receivedBody, receivedBody_pieces, hp] at ha
  rw [C105_result hD.one ha hb]
  obtain ⟨x, h6, h7⟩ := (C140_exact_partial hr hv).2 h
  have := hD.says _ x n .zero h6
  rw [h7] at this
  simp only [] at this
  rw [this]
  unfold Spec.bound
  simp only []
  cases check (.struct n v) <;> rfl

/-- C140: elements for which there is no field of just this name are skipped, wherever they are. -/
theorem C140_skipped {n : Nat} (hp : XmlFields (E n)) {l l' kids : List XItem} {k root : Str} (cur : Val)
    (h : ∀ fd ∈ E n, ∀ k' opt, SentUnder (forXml fd) k' opt → k' ≠ k) :
    readXml E n (.elem root (l ++ .elem k kids :: l')) cur = readXml E n (.elem root (l ++ l')) cur := by
  have hn : ((E n).map retag).findIdx? (fun fd => jsonKey fd == some k) = none := by
    rw [List.findIdx?_eq_none_iff]
    intro fd hfd
    rw [beq_eq_false_iff_ne]
    intro e
    obtain ⟨fd', h1, rfl⟩ := List.mem_map.1 hfd
    rcases (hp.1.1 _ hfd).2 with hn | ⟨k', opt, hs⟩
    · rw [neverSent_key hn] at e; cases e
    · rw [(sentUnder_head hs).1] at e
      cases e
      exact h fd' h1 k opt hs rfl
  have key : ∀ (l : List XItem) (now : List Val),
      readXItems E ((E n).map retag) (l ++ .elem k kids :: l') now = readXItems E ((E n).map retag) (l ++ l') now := by
    intro l
    induction l with
    | nil =>
      intro now
      rw [List.nil_append, List.nil_append, readXItems]
      simp only [XItem.name, hn]
    | cons x l ih =>
      intro now
      rw [List.cons_append, List.cons_append, readXItems, readXItems]
      cases x.name with
      | none => exact ih now
      | some k' =>
        simp only []
        cases ((E n).map retag).findIdx? (fun fd => jsonKey fd == some k') with
        | none => exact ih now
        | some i =>
          simp only []
          cases ((E n).map retag)[i]? with
          | none => rfl
          | some fd =>
            cases now[i]? with
            | none => rfl
            | some w =>
              simp only []
              cases xmlThrough (readXItem E x) fd.ty w with
              | none => rfl
              | some v => exact ih _
  unfold readXml
  rw [readXItem, readXItem, key]

/-- C140: a string gets the characters that stand directly in the element, whatever elements are between them; what it held does not matter. -/
theorem C140_string (k : Str) (kids : List XItem) (cur : Val) :
    readXItem E (.elem k kids) .string cur = some (.string (kids.flatMap (fun x => match x with | .chr n => charBytes n | .elem _ _ => []))) := by
  rw [read_leaf k kids (by simp), readLeaf]
  congr 2
  induction kids with
  | nil => rfl
  | cons x kids ih =>
    cases x with
    | chr n => rw [dataOf, ih]; rfl
    | elem k' l => rw [dataOf, ih]; rfl

/-- C140: white space around a number does not matter, of any kind. -/
theorem C140_spaces {k : Str} {kids : List XItem} {bits : Nat} {i : Int} (cur : Val) (h1 : 2 ≤ bits) (h2 : bits ≤ 64) (h3 : FitsInt bits i)
    {data : Str} (hd : kids.flatMap (fun x => match x with | .chr n => charBytes n | .elem _ _ => []) = data) (ht : Trimmed data (itoa i)) :
    readXItem E (.elem k kids) (.int bits) cur = some (.int i) := by
  have hs := C140_string (E := E) k kids cur
  rw [read_leaf k kids (by simp), readLeaf, hd] at hs
  simp only [Option.some.injEq, Val.string.injEq] at hs
  rw [read_leaf k kids (by simp), readLeaf, hs, ← trimmed_unique ht]
  have hne : data ≠ [] := by
    rintro rfl
    have := trimmed_unique ht
    obtain ⟨c, r, h, -⟩ := numText_head (numText_int (itoa_digits i))
    rw [h] at this
    exact absurd this (by rw [show trimSpace [] = [] from by decide +kernel]; simp)
  have : parseInt bits (itoa i) = (i, none) := (parseInt_ok h1 h2).2 ⟨itoa_signed i, by
    have e : ((2 ^ (bits - 1) : Nat) : Int) = 2 ^ (bits - 1) := by push_cast; rfl
    rw [e]; exact h3⟩
  rw [if_neg hne, this]

/-! ### there is such a decoder -/

/-- what an element does to a target -/
def xmlEffect (E : TyEnv) (x : XItem) : Target → Option Nat × Target
  | .struct n w => match readXml E n x w with
    | some v => (none, .struct n v)
    | none => (some 1, .struct n w)
  | obj => (some 1, obj)

/-- The text begins with an element. -/
def XmlFront (p : Str) (x : XItem) : Prop := ∃ u y, XmlDoc u x ∧ p = u ++ y

open Classical in
/-- the decoder that follows the rules -/
noncomputable def xmlByTheRules (E : TyEnv) : Decoding where
  size := 4096
  early := fun p obj => if h : ∃ x, XmlFront p x then some (xmlEffect E h.choose obj) else none
  late := fun _ _ obj => (some 1, obj)

theorem xmlFront_unique {p : Str} {x x' : XItem} (h : XmlFront p x) (h' : XmlFront p x') : x = x' := by
  obtain ⟨u, y, ⟨k, c, kids, rfl, h1, h2, rfl⟩, rfl⟩ := h
  obtain ⟨u', y', ⟨k', c', kids', rfl, h1', h2', rfl⟩, e⟩ := h'
  simp only [List.cons_append, List.append_assoc, List.cons.injEq, true_and] at e
  obtain ⟨rfl, e2⟩ := span_unique (P := fun c => c ≠ 62) (fun c hc => (name_bytes h1 c hc).1) (fun c hc => (name_bytes h1' c hc).1)
    (by simp) (by simp) e
  obtain ⟨-, rfl, -⟩ := xsays_unique h2 h2' (List.cons.inj e2).2
  rfl

/-- C140: there is a decoder such as `ReadsXml` asks for. -/
theorem C140_decoder (E : TyEnv) : ReadsXml E (xmlByTheRules E) where
  one := {
    room := (by decide : 0 < 4096)
    start := by
      intro obj
      simp only [xmlByTheRules]
      rw [dif_neg]
      rintro ⟨x, u, y, ⟨k, c, kids, -, -, -, rfl⟩, e⟩
      simp at e
    stable := by
      intro p z obj r h
      simp only [xmlByTheRules] at h ⊢
      split at h
      · rename_i hj
        have more : ∀ x, XmlFront p x → XmlFront (p ++ z) x := by
          rintro x ⟨u, y, hu, rfl⟩
          exact ⟨u, y ++ z, hu, by simp⟩
        have hj' : ∃ x, XmlFront (p ++ z) x := ⟨_, more _ hj.choose_spec⟩
        rw [dif_pos hj', ← h, xmlFront_unique hj'.choose_spec (more _ hj.choose_spec)]
      · exact absurd h (by simp)
    empty := fun _ _ => ⟨1, rfl⟩
    broken := fun _ _ _ => ⟨1, rfl⟩ }
  says := by
    intro text x n w h
    have hf : XmlFront text x := ⟨text, [], h, by simp⟩
    have key : decoded (xmlByTheRules E) text none (.struct n w) = xmlEffect E x (.struct n w) := by
      unfold decoded
      simp only [xmlByTheRules]
      have hx : ∃ x, XmlFront text x := ⟨x, hf⟩
      rw [dif_pos hx]
      simp only []
      rw [xmlFront_unique hx.choose_spec hf]
    rw [key]
    unfold xmlEffect
    cases hr : readXml E n x w with
    | some v => simp only [hr]
    | none => simp only [hr]; exact ⟨1, rfl⟩

/-! ### cases -/

namespace Demo

/-- a field with a tag for XML -/
def xf (name tag : Str) (ty : Ty) : Field :=
  { name := name, exported := true, anonymous := false, tag := fun k => if k = b!"xml" then tag else [], ty := ty }

/-- `type Note struct { Title string; Tags []string `xml:"tag,omitempty"`; Parent *Note `xml:"parent"` }` -/
def noteEnv : TyEnv
  | 0 => [xf b!"Title" [] .string, xf b!"Tags" b!"tag,omitempty" (.slice .string), xf b!"Parent" b!"parent" (.ptr (.struct 0))]
  | _ => []

theorem sent_title : SentUnder (forXml (xf b!"Title" [] .string)) b!"Title" false := ⟨rfl, by decide, [], by decide, rfl, rfl⟩
theorem sent_tags : SentUnder (forXml (xf b!"Tags" b!"tag,omitempty" (.slice .string))) b!"tag" true := ⟨rfl, by decide, b!"tag", by decide, rfl, rfl⟩
theorem sent_parent : SentUnder (forXml (xf b!"Parent" b!"parent" (.ptr (.struct 0)))) b!"parent" false :=
  ⟨rfl, by decide, b!"parent", by decide, rfl, rfl⟩

theorem xname_of {c : UInt8} {r : Str} (h1 : c ∈ nameStarts) (h2 : ∀ d ∈ r, d ∈ nameStarts ++ b!"-.0123456789") : XName (c :: r) :=
  ⟨c, r, rfl, h1, h2⟩

theorem xml_note : XmlFields (noteEnv 0) := by
  refine ⟨plain_of_keys ?_ (by decide +kernel), ?_⟩
  · intro fd hfd
    simp only [noteEnv, List.map_cons, List.map_nil, List.mem_cons, List.not_mem_nil, or_false] at hfd
    rcases hfd with rfl | rfl | rfl
    · exact ⟨rfl, .inr ⟨_, _, sent_title⟩⟩
    · exact ⟨rfl, .inr ⟨_, _, sent_tags⟩⟩
    · exact ⟨rfl, .inr ⟨_, _, sent_parent⟩⟩
  · intro fd hfd
    simp only [noteEnv, List.mem_cons, List.not_mem_nil, or_false] at hfd
    rcases hfd with rfl | rfl | rfl
    · refine ⟨by decide, ?_⟩
      intro k opt h
      have := (sentUnder_head h).1
      rw [(sentUnder_head sent_title).1] at this
      cases this
      exact xname_of (by decide) (by decide)
    · refine ⟨by decide, ?_⟩
      intro k opt h
      have := (sentUnder_head h).1
      rw [(sentUnder_head sent_tags).1] at this
      cases this
      exact xname_of (by decide) (by decide)
    · refine ⟨by decide, ?_⟩
      intro k opt h
      have := (sentUnder_head h).1
      rw [(sentUnder_head sent_parent).1] at this
      cases this
      exact xname_of (by decide) (by decide)

theorem val_note {a b c : Val} (ha : XmlVal noteEnv .string a) (hb : XmlVal noteEnv (.slice .string) b)
    (hc : XmlVal noteEnv (.ptr (.struct 0)) c) : XmlVal noteEnv (.struct 0) (.struct [a, b, c]) := by
  refine .struct xml_note rfl ?_
  intro i fd v hf hv
  match i with
  | 0 => cases hf; cases hv; exact ha
  | 1 => cases hf; cases hv; exact hb
  | 2 => cases hf; cases hv; exact hc
  | i + 3 => cases hv

theorem val_tags (l : List Str) : XmlVal noteEnv (.slice .string) (.slice (l.map .string)) := by
  refine .slice (by decide) ?_
  intro i v hv
  rw [List.getElem?_map] at hv
  cases hl : l[i]? with
  | none => rw [hl] at hv; cases hv
  | some s => rw [hl] at hv; cases hv; exact .string

/-- `Note{Title: "a<b", Tags: {"x", "y\n"}, Parent: &Note{}}` -/
def noteVal : Val := .struct [.string b!"a<b", .slice ([b!"x", b!"y\n"].map .string), .ptr (.struct [.string [], .zero, .zero])]

theorem val_noteV : XmlVal noteEnv (.struct 0) noteVal := val_note .string (val_tags _) (.ptr (val_note .string .nilSlice .nilPtr))

/-- what is sent for it -/
example : encodeXml noteEnv b!"Note" 0 noteVal =
    b!"<Note><Title>a&lt;b</Title><tag>x</tag><tag>y&#xA;</tag><parent><Title></Title></parent></Note>" := by decide +kernel

theorem noteVal_reads : ∃ x, XmlDoc (encodeXml noteEnv b!"Note" 0 noteVal) x ∧ readXml noteEnv 0 x .zero = some noteVal :=
  ⟨_, encodeXml_doc (xname_of (by decide) (by decide)) val_noteV, rfl⟩

/-- The value is read back. -/
theorem C140_demo : XmlBack noteEnv false (.struct 0) 1 noteVal :=
  (C140_exact_partial (root := b!"Note") (xname_of (by decide) (by decide)) val_noteV).1 noteVal_reads

/-- `<title>` goes nowhere: the field is `Title`. -/
example (cur : Val) (kids l : List XItem) : readXml noteEnv 0 (.elem b!"n" (.elem b!"title" kids :: l)) cur = readXml noteEnv 0 (.elem b!"n" l) cur := by
  refine C140_skipped (l := []) xml_note cur ?_
  intro fd hfd k' opt hs
  simp only [noteEnv, List.mem_cons, List.not_mem_nil, or_false] at hfd
  rcases hfd with rfl | rfl | rfl
  · have := (sentUnder_head hs).1
    rw [(sentUnder_head sent_title).1] at this
    cases this; decide
  · have := (sentUnder_head hs).1
    rw [(sentUnder_head sent_tags).1] at this
    cases this; decide
  · have := (sentUnder_head hs).1
    rw [(sentUnder_head sent_parent).1] at this
    cases this; decide

/-- `<a> 5<b/></a>` is 5 -/
example (cur : Val) : readXItem noteEnv (.elem b!"a" [.chr 32, .chr 53, .elem b!"b" []]) (.int 64) cur = some (.int 5) := by
  refine C140_spaces cur (by decide) (by decide) (by unfold FitsInt; decide) (data := b!" 5") (by decide +kernel) ?_
  rw [show itoa 5 = trimSpace b!" 5" from by decide +kernel]
  exact trimSpace_trimmed _

/-- a control character and a byte that is no character -/
example : xmlText [97, 1, 0xFF, 38] = b!"a" ++ charBytes 0xFFFD ++ charBytes 0xFFFD ++ b!"&amp;" := by decide +kernel

end Demo
open Demo

/-- C140, as stated, is false: of `Tags: {"x", ""}` in a field with `omitempty` only `{"x"}` comes back, as the option is applied to the
elements of the slice. -/
theorem C140_refuted : ¬ C140_claim := by
  intro h
  have hv := val_note (a := .string []) .string (val_tags [b!"x", []]) .nilPtr
  have hr : XName b!"Note" := xname_of (by decide) (by decide)
  have := h noteEnv b!"Note" 0 _ hr hv _ (encodeXml_doc hr hv)
  have e : readXml noteEnv 0 (.elem b!"Note" (xfields noteEnv ((noteEnv 0).map retag) [.string [], .slice ([b!"x", []].map .string), .zero])) .zero =
      some (.struct [.string [], .slice [.string b!"x"], .zero]) := rfl
  rw [e] at this
  exact absurd this (by simp)

/-- the claim that a value which can be read back into a new variable replaces whatever a variable holds -/
def C140_fresh_claim : Prop :=
  ∀ (E : TyEnv) (root : Str) (n : Nat) (v cur : Val), XName root → XmlVal E (.struct n) v → XmlBack E false (.struct n) 1 v → XmlVal E (.struct n) cur →
    ∀ x, XmlDoc (encodeXml E root n v) x → readXml E n x cur = some v

/-- That is false: elements are added to a slice that is there. The note, read into itself, has its tags twice. -/
theorem C140_fresh_refuted : ¬ C140_fresh_claim := by
  intro h
  have hr : XName b!"Note" := xname_of (by decide) (by decide)
  have := h noteEnv b!"Note" 0 noteVal noteVal hr val_noteV C140_demo val_noteV _ (encodeXml_doc hr val_noteV)
  have e : readXml noteEnv 0 (.elem b!"Note" (xfields noteEnv ((noteEnv 0).map retag)
      [.string b!"a<b", .slice ([b!"x", b!"y\n"].map .string), .ptr (.struct [.string [], .zero, .zero])])) noteVal =
      some (.struct [.string b!"a<b", .slice ([b!"x", b!"y\n", b!"x", b!"y\n"].map .string), .ptr (.struct [.string [], .zero, .zero])]) := rfl
  rw [e] at this
  exact absurd this (by simp [noteVal])

end Water
