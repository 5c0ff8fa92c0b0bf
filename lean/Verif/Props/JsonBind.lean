import Verif.Lemmas.JsonBind
import Verif.Props.Json
import Verif.Props.BodyBind
/-
C139: a value that is sent with `JSON` and read with `Bind`.
-/
namespace Water
open Spec
variable {ω : Type} {E : TyEnv}

/-- C139 as stated: a value that is sent is read back into a new variable. -/
def C139_claim : Prop :=
  ∀ (E : TyEnv) (n : Nat) (v : Val), ProperVal E (.struct n) v → ∀ j, JsonDoc (encodeJson (toG E (.struct n) v)) j →
    readJson E (.struct n) j .zero = some v

/-- C139 (partial): a value is read back into a variable exactly if its strings are valid, none of its pointers leads to nil, and what is not
sent of it is in the variable already. Missing: the other values, see `C139_refuted`. -/
theorem C139_exact_partial {t : Ty} {cur v : Val} (hv : ProperVal E t v) (hc : OfType E t cur) :
    (∃ j, JsonDoc (encodeJson (toG E t v)) j ∧ readJson E t j cur = some v) ↔ ReadBack E t cur v := by
  constructor
  · rintro ⟨j', h, h'⟩
    obtain ⟨j, hj, -⟩ := shows_total (proper_made hv)
    rw [jsonText_unique h (encodeJson_says hj)] at h'
    exact reads_readBack hv hc hj h'
  · intro h
    obtain ⟨j, h1, h2, -⟩ := readBack_reads h
    exact ⟨j, encodeJson_says h1, h2⟩

/-- C139: if all of a value is sent, it replaces whatever the variable held. -/
theorem C139_replaced {t : Ty} {cur v : Val} (hv : AllSent E t v) (hc : OfType E t cur) :
    ∃ j, JsonDoc (encodeJson (toG E t v)) j ∧ readJson E t j cur = some v := by
  obtain ⟨j, h1, h2, -⟩ := readBack_reads (allSent_readBack hv cur hc)
  exact ⟨j, encodeJson_says h1, h2⟩

/-- C139 (partial): one handler sends the value, in whatever pieces; the body that its client gets is sent as the body of a request to another
one, in whatever pieces it arrives, through `Logger` or not; and `Bind` leaves the value in the struct, and returns what the validator says
of it. Missing: the values that are not read back. -/
theorem C139_bind_partial {D : Decoding} (hD : ReadsJson E D) {n : Nat} {cur v : Val} (h : ReadBack E (.struct n) cur v)
    (o : Oracle) (req : Req) (nx : St ω → Out × St ω) (i : Nat) (s : St ω) {code : Int} {pieces : List Str}
    (hp : pieces.flatten = encodeJson (toG E (.struct n) v)) (hc : o.bad code = false) (hw : s.ctx.written = false) (hl : s.rw.log = []) :
    ∃ s', exec o req nx i (.json code pieces .ret) s = (.ret, s') ∧
      ∀ (b : Body) (q : Sched) (fuel : Nat) (check : Target → Option Nat) (r : Option JErr × Target) (b' : Option Body),
        Arrives b (receivedBody s'.rw.log) none → bindBodyF D q fuel check (.struct n cur) (some b) = some (r, b') →
        r = ((check (.struct n v)).map JErr.invalid, .struct n v) := by
  obtain ⟨s', h1, -, -, h4⟩ := C138_sent o req nx i s hp hc hw hl
  refine ⟨s', h1, ?_⟩
  intro b q fuel check r b' ha hr
  rw [h4] at ha
  rw [C105_result hD.one ha hr]
  obtain ⟨j, h5, h6, -⟩ := readBack_reads h
  have := hD.says _ j n cur (encodeJson_says h5)
  rw [h6] at this
  simp only [] at this
  rw [this]
  unfold Spec.bound
  simp only []
  cases check (.struct n v) <;> rfl

theorem fieldFor_none {fds : List Field} {k : Str} (h : ∀ fd ∈ fds, ∀ k' opt, SentUnder fd k' opt → toLower k' ≠ toLower k)
    (hp : PlainFields fds) : fieldFor fds k = none := by
  have key : ∀ fd ∈ fds, ∀ k', jsonKey fd = some k' → toLower k' ≠ toLower k := by
    intro fd hfd k' hk'
    rcases (hp.1 fd hfd).2 with hn | ⟨k'', opt, hs⟩
    · rw [neverSent_key hn] at hk'; cases hk'
    · rw [(sentUnder_head hs).1] at hk'
      cases hk'
      exact h fd hfd _ opt hs
  unfold fieldFor
  have h1 : fds.findIdx? (fun fd => jsonKey fd == some k) = none := by
    rw [List.findIdx?_eq_none_iff]
    intro fd hfd
    rw [beq_eq_false_iff_ne]
    intro e
    exact key fd hfd k e rfl
  rw [h1]
  simp only []
  rw [List.findIdx?_eq_none_iff]
  intro fd hfd
  rw [beq_eq_false_iff_ne]
  intro e
  cases hk : jsonKey fd with
  | none => rw [hk] at e; cases e
  | some k' =>
    rw [hk] at e
    simp only [Option.map_some, Option.some.injEq] at e
    exact key fd hfd k' hk e

/-- C139: members for which there is no field, not even but for case, are skipped, wherever they are. -/
theorem C139_skipped {n : Nat} (hp : PlainFields (E n)) {l l' : List (Str × JTree)} {k : Str} {j : JTree} (cur : Val)
    (h : ∀ fd ∈ E n, ∀ k' opt, SentUnder fd k' opt → toLower k' ≠ toLower k) :
    readJson E (.struct n) (.obj (l ++ (k, j) :: l')) cur = readJson E (.struct n) (.obj (l ++ l')) cur := by
  have key : ∀ (l : List (Str × JTree)) (now : List Val), readMembers E (E n) (l ++ (k, j) :: l') now = readMembers E (E n) (l ++ l') now := by
    intro l
    induction l with
    | nil =>
      intro now
      rw [List.nil_append, List.nil_append, readMembers, fieldFor_none h hp]
    | cons m l ih =>
      intro now
      obtain ⟨k', j'⟩ := m
      rw [List.cons_append, List.cons_append, readMembers, readMembers]
      cases fieldFor (E n) k' with
      | none => exact ih now
      | some i =>
        simp only []
        cases (E n)[i]? with
        | none => rfl
        | some fd =>
          cases now[i]? with
          | none => rfl
          | some w =>
            simp only []
            cases readJson E fd.ty j' w with
            | none => rfl
            | some v => exact ih _
  simp only [readJson, readThrough, key]

/-- C139: a member whose name is written in other letters, small or capital, goes to the same field, if no field has just this name, and no
two fields have the same name but for case. -/
theorem C139_case {n : Nat} (hp : PlainFields (E n)) {l l' : List (Str × JTree)} {k k' : Str} {j : JTree} (cur : Val) {i : Nat} {fd : Field}
    {opt : Bool} (hi : (E n)[i]? = some fd) (hk : SentUnder fd k opt) (hc : toLower k' = toLower k)
    (h : ∀ (i' : Nat) fd' k'' opt', (E n)[i']? = some fd' → SentUnder fd' k'' opt' → toLower k'' = toLower k → i' = i) :
    readJson E (.struct n) (.obj (l ++ (k', j) :: l')) cur = readJson E (.struct n) (.obj (l ++ (k, j) :: l')) cur := by
  have hf : fieldFor (E n) k' = some i := by
    obtain ⟨hlt, he⟩ := List.getElem?_eq_some_iff.1 hi
    have uniq : ∀ i' (hi' : i' < (E n).length) k'', jsonKey (E n)[i'] = some k'' → toLower k'' = toLower k → i' = i := by
      intro i' hi' k'' h1 h2
      rcases (hp.1 _ (List.getElem_mem hi')).2 with hn | ⟨k3, opt', hs⟩
      · rw [neverSent_key hn] at h1; cases h1
      · rw [(sentUnder_head hs).1] at h1
        cases h1
        exact h i' _ _ opt' (List.getElem?_eq_getElem hi') hs h2
    unfold fieldFor
    cases hx : (E n).findIdx? (fun fd => jsonKey fd == some k') with
    | some x =>
      rw [List.findIdx?_eq_some_iff_getElem] at hx
      obtain ⟨h1, h2, -⟩ := hx
      rw [uniq x h1 k' (beq_iff_eq.1 h2) hc]
    | none =>
      simp only []
      rw [List.findIdx?_eq_some_iff_getElem]
      refine ⟨hlt, by rw [he, (sentUnder_head hk).1]; simp [hc], ?_⟩
      intro x hx'
      rw [beq_iff_eq]
      intro e
      have hxl : x < (E n).length := Nat.lt_trans hx' hlt
      cases hk' : jsonKey (E n)[x] with
      | none => rw [hk'] at e; cases e
      | some k'' =>
        rw [hk'] at e
        simp only [Option.map_some, Option.some.injEq] at e
        have := uniq x hxl k'' hk' (by rw [e, hc])
        omega
  have key : ∀ (l : List (Str × JTree)) (now : List Val),
      readMembers E (E n) (l ++ (k', j) :: l') now = readMembers E (E n) (l ++ (k, j) :: l') now := by
    intro l
    induction l with
    | nil =>
      intro now
      rw [List.nil_append, List.nil_append, readMembers, readMembers, hf, fieldFor_exact hp hi hk]
    | cons m l ih =>
      intro now
      obtain ⟨k', j'⟩ := m
      rw [List.cons_append, List.cons_append, readMembers, readMembers]
      cases fieldFor (E n) k' with
      | none => exact ih now
      | some i =>
        simp only []
        cases (E n)[i]? with
        | none => rfl
        | some fd =>
          cases now[i]? with
          | none => rfl
          | some w =>
            simp only []
            cases readJson E fd.ty j' w with
            | none => rfl
            | some v => exact ih _
  simp only [readJson, readThrough, key]

/-! ### there is such a decoder -/

/-- what a tree does to a target -/
def effectOf (E : TyEnv) (j : JTree) : Target → Option Nat × Target
  | .struct n w => match readJson E (.struct n) j w with
    | some v => (none, .struct n v)
    | none => (some 1, .struct n w)
  | obj => (some 1, obj)

/-- The text begins with a value, and something after it. -/
def Fronts (p : Str) (j : JTree) : Prop := ∃ a u x, JsonBlank a ∧ Denotes .value u j ∧ x ≠ [] ∧ Stops .value x ∧ p = a ++ u ++ x

open Classical in
/-- the decoder that follows the rules -/
noncomputable def byTheRules (E : TyEnv) : Decoding where
  size := 512
  early := fun p obj => if h : ∃ j, Fronts p j then some (effectOf E h.choose obj) else none
  late := fun p e obj => if h : e = .eof ∧ ∃ j, JsonDoc p j then effectOf E h.2.choose obj else (some 1, obj)

theorem fronts_unique {p : Str} {j j' : JTree} (h : Fronts p j) (h' : Fronts p j') : j = j' := by
  obtain ⟨a, u, x, h1, h2, -, h4, rfl⟩ := h
  obtain ⟨a', u', x', h1', h2', -, h4', e⟩ := h'
  rw [List.append_assoc, List.append_assoc] at e
  obtain ⟨-, e⟩ := blank_unique h1 h1' (value_nonblank h2 x) (value_nonblank h2' x') e
  exact (denotes_unique h2 h2' h4 h4' e).2.1

theorem fronts_doc {p : Str} {j j' : JTree} (h : Fronts p j) (h' : JsonDoc p j') : j = j' := by
  obtain ⟨a, u, x, h1, h2, -, h4, rfl⟩ := h
  obtain ⟨a', u', x', h1', h2', h3', e⟩ := h'
  rw [List.append_assoc, List.append_assoc] at e
  obtain ⟨-, e⟩ := blank_unique h1 h1' (value_nonblank h2 x) (value_nonblank h2' x') e
  refine (denotes_unique h2 h2' h4 ?_ e).2.1
  intro c hc
  cases x' with
  | nil => cases hc
  | cons d x' => cases hc; exact (by decide : ∀ c ∈ b!" \t\n\r", c ∉ numBytes) _ (h3' _ List.mem_cons_self)

theorem doc_nil {j : JTree} (h : JsonDoc [] j) : False := by
  obtain ⟨a, u, b, -, h, -, e⟩ := h
  obtain ⟨c, r, rfl, -⟩ := value_head h rfl
  simp at e

theorem fronts_more {p : Str} {j : JTree} (h : Fronts p j) (y : Str) : Fronts (p ++ y) j := by
  obtain ⟨a, u, x, h1, h2, h3, h4, rfl⟩ := h
  refine ⟨a, u, x ++ y, h1, h2, by simp [h3], ?_, by simp⟩
  cases x with
  | nil => exact absurd rfl h3
  | cons c x => exact h4

/-- C139: there is a decoder such as `ReadsJson` asks for. -/
theorem C139_decoder (E : TyEnv) : ReadsJson E (byTheRules E) where
  one := {
    room := (by decide : 0 < 512)
    start := by
      intro obj
      simp only [byTheRules]
      rw [dif_neg]
      rintro ⟨j, a, u, x, -, -, h, -, e⟩
      simp [h] at e
    stable := by
      intro p x obj r h
      simp only [byTheRules] at h ⊢
      split at h
      · rename_i hj
        have hj' : ∃ j, Fronts (p ++ x) j := ⟨_, fronts_more hj.choose_spec x⟩
        rw [dif_pos hj', ← h, fronts_unique hj'.choose_spec (fronts_more hj.choose_spec x)]
      · exact absurd h (by simp)
    empty := by
      intro e obj
      simp only [byTheRules]
      refine ⟨1, ?_⟩
      rw [dif_neg]
      rintro ⟨-, j, h⟩
      exact doc_nil h
    broken := by
      intro p e obj
      simp only [byTheRules]
      refine ⟨1, ?_⟩
      rw [dif_neg]
      rintro ⟨h, -⟩
      cases h }
  says := by
    intro text j n w h
    have key : decoded (byTheRules E) text none (.struct n w) = effectOf E j (.struct n w) := by
      unfold decoded
      simp only [byTheRules]
      by_cases hf : ∃ j, Fronts text j
      · rw [dif_pos hf]
        simp only []
        rw [fronts_doc hf.choose_spec h]
      · rw [dif_neg hf]
        have hl : RdErr.eof = .eof ∧ ∃ j, JsonDoc text j := ⟨rfl, j, h⟩
        simp only []
        rw [dif_pos hl, jsonText_unique hl.2.choose_spec h]
    rw [key]
    unfold effectOf
    cases hr : readJson E (.struct n) j w with
    | some v => simp only [hr]
    | none => simp only [hr]; exact ⟨1, rfl⟩

/-! ### cases -/

namespace Demo

/-- a field with a tag for JSON -/
def jf (name tag : Str) (ty : Ty) (exported : Bool := true) : Field :=
  { name := name, exported := exported, anonymous := false, tag := fun k => if k = b!"json" then tag else [], ty := ty }

/-- `type Node struct { Name string; Next *Node `json:"next,omitempty"`; P *[]int `json:"p"` }` and
`type Pair struct { A int; B int `json:"B,omitempty"` }` -/
def listEnv : TyEnv
  | 0 => [jf b!"Name" [] .string, jf b!"Next" b!"next,omitempty" (.ptr (.struct 0)), jf b!"P" b!"p" (.ptr (.slice (.int 64)))]
  | 1 => [jf b!"A" [] (.int 64), jf b!"B" b!"B,omitempty" (.int 64)]
  | _ => []

theorem sent_name : SentUnder (jf b!"Name" [] .string) b!"Name" false := ⟨rfl, by decide, [], by decide, rfl, rfl⟩
theorem sent_next : SentUnder (jf b!"Next" b!"next,omitempty" (.ptr (.struct 0))) b!"next" true :=
  ⟨rfl, by decide, b!"next", by decide, rfl, rfl⟩
theorem sent_p : SentUnder (jf b!"P" b!"p" (.ptr (.slice (.int 64)))) b!"p" false := ⟨rfl, by decide, b!"p", by decide, rfl, rfl⟩
theorem sent_a : SentUnder (jf b!"A" [] (.int 64)) b!"A" false := ⟨rfl, by decide, [], by decide, rfl, rfl⟩
theorem sent_b : SentUnder (jf b!"B" b!"B,omitempty" (.int 64)) b!"B" true := ⟨rfl, by decide, b!"B", by decide, rfl, rfl⟩

theorem plain_of_keys {fds : List Field} (h1 : ∀ fd ∈ fds, fd.anonymous = false ∧ (NeverSent fd ∨ ∃ k opt, SentUnder fd k opt))
    (h2 : ∀ i < fds.length, ∀ j < fds.length, (fds[i]?.bind jsonKey).isSome = true → fds[i]?.bind jsonKey = fds[j]?.bind jsonKey → i = j) :
    PlainFields fds := by
  refine ⟨h1, ?_⟩
  intro i i' fd fd' k b b' hi hi' hk hk'
  refine h2 i (List.getElem?_eq_some_iff.1 hi).1 i' (List.getElem?_eq_some_iff.1 hi').1 ?_ ?_
  · rw [hi]; simp [(sentUnder_head hk).1]
  · rw [hi, hi']; simp [(sentUnder_head hk).1, (sentUnder_head hk').1]

theorem plain_node : PlainFields (listEnv 0) := by
  refine plain_of_keys ?_ (by decide +kernel)
  intro fd hfd
  simp only [listEnv, List.mem_cons, List.not_mem_nil, or_false] at hfd
  rcases hfd with rfl | rfl | rfl
  · exact ⟨rfl, .inr ⟨_, _, sent_name⟩⟩
  · exact ⟨rfl, .inr ⟨_, _, sent_next⟩⟩
  · exact ⟨rfl, .inr ⟨_, _, sent_p⟩⟩

theorem plain_pair : PlainFields (listEnv 1) := by
  refine plain_of_keys ?_ (by decide +kernel)
  intro fd hfd
  simp only [listEnv, List.mem_cons, List.not_mem_nil, or_false] at hfd
  rcases hfd with rfl | rfl
  · exact ⟨rfl, .inr ⟨_, _, sent_a⟩⟩
  · exact ⟨rfl, .inr ⟨_, _, sent_b⟩⟩

/-- a value of the type: one field, and the others -/
theorem proper_node {a b c : Val} (ha : ProperVal listEnv .string a) (hb : ProperVal listEnv (.ptr (.struct 0)) b)
    (hc : ProperVal listEnv (.ptr (.slice (.int 64))) c) : ProperVal listEnv (.struct 0) (.struct [a, b, c]) := by
  refine .struct plain_node rfl ?_
  intro i fd v hf hv
  match i with
  | 0 => cases hf; cases hv; exact ha
  | 1 => cases hf; cases hv; exact hb
  | 2 => cases hf; cases hv; exact hc
  | i + 3 => cases hv

/-- `Node{Name: "<", Next: &Node{P: &[]int{-5}}}` -/
def chain : Val := .struct [.string b!"<", .ptr (.struct [.string [], .zero, .ptr (.slice [.int (-5)])]), .zero]

theorem proper_chain : ProperVal listEnv (.struct 0) chain := by
  refine proper_node .string (.ptr (proper_node .string .nilPtr (.ptr (.slice (by decide) ?_)))) .nilPtr
  intro i v hv
  match i with
  | 0 => cases hv; exact .int (by decide) (by decide) (by unfold FitsInt; decide)
  | i + 1 => cases hv

/-- what is sent for it -/
example : encodeJson (toG listEnv (.struct 0) chain) = b!"{\"Name\":\"\\u003c\",\"next\":{\"Name\":\"\",\"p\":[-5]},\"p\":null}\n" := by
  decide +kernel

/-- The value is read back into a new variable. -/
theorem C139_demo : ReadBack listEnv (.struct 0) .zero chain := by
  obtain ⟨j, hj, -⟩ := shows_total (proper_made proper_chain)
  refine reads_readBack proper_chain .zero hj ?_
  have h : Shows (toG listEnv (.struct 0) chain)
      (.obj [(b!"Name", .str b!"<"), (b!"next", .obj [(b!"Name", .str []), (b!"p", .arr [.num b!"-5"])]), (b!"p", .null)]) := by
    refine .fields (.string (cleaned_valid ⟨[60], fun n hn => by rw [List.mem_singleton.1 hn]; exact .inl (by decide), rfl⟩)) (.fields (.fields (.string .nil) (.fields (.list ?_ .list0) .fields0))
      (.fields .nil .fields0))
    exact .int (itoa_digits (-5))
  rw [C138_shown hj h]
  rfl

/-- all of it sent, into a variable that holds something else -/
example : ∃ j, JsonDoc (encodeJson (toG listEnv (.struct 1) (.struct [.int 1, .int 2]))) j ∧
    readJson listEnv (.struct 1) j (.struct [.int 7, .int 8]) = some (.struct [.int 1, .int 2]) := by
  refine C139_replaced (.struct plain_pair rfl ?_ ?_) (.struct rfl ?_)
  · intro i fd v hf hv
    match i with
    | 0 =>
      cases hf; cases hv
      refine ⟨fun h => neverSent_not h sent_a, ?_⟩
      rintro ⟨k, h⟩
      have := (sentUnder_head h).2
      rw [(sentUnder_head sent_a).2] at this
      cases this
    | 1 => cases hf; cases hv; exact ⟨fun h => neverSent_not h sent_b, fun _ => by simp [EmptyV]⟩
    | i + 2 => cases hv
  · intro i fd v hf hv
    match i with
    | 0 => cases hf; cases hv; exact .int (by decide) (by decide) (by unfold FitsInt; decide)
    | 1 => cases hf; cases hv; exact .int (by decide) (by decide) (by unfold FitsInt; decide)
    | i + 2 => cases hv
  · intro i fd v hf hv
    match i with
    | 0 => cases hf; cases hv; exact .int
    | 1 => cases hf; cases hv; exact .int
    | i + 2 => cases hv

/-- `"NAME"` goes to the field `Name`, and `"x"` nowhere. -/
example (cur : Val) : readJson listEnv (.struct 0) (.obj [(b!"x", .null), (b!"NAME", .str b!"a")]) cur =
    readJson listEnv (.struct 0) (.obj [(b!"Name", .str b!"a")]) cur := by
  rw [show ([(b!"x", JTree.null), (b!"NAME", .str b!"a")] : List (Str × JTree)) = [] ++ (b!"x", .null) :: [(b!"NAME", .str b!"a")] from rfl,
    C139_skipped plain_node cur]
  · refine C139_case (l := []) (l' := []) plain_node cur (i := 0) rfl sent_name (by decide +kernel) ?_
    intro i' fd' k'' opt' hf hs hl
    match i' with
    | 0 => rfl
    | 1 =>
      cases hf
      have := (sentUnder_head hs).1
      rw [(sentUnder_head sent_next).1] at this
      cases this
      exact absurd hl (by decide +kernel)
    | 2 =>
      cases hf
      have := (sentUnder_head hs).1
      rw [(sentUnder_head sent_p).1] at this
      cases this
      exact absurd hl (by decide +kernel)
    | i + 3 => cases hf
  · intro fd hfd k' opt hs
    simp only [listEnv, List.mem_cons, List.not_mem_nil, or_false] at hfd
    rcases hfd with rfl | rfl | rfl
    · have := (sentUnder_head hs).1
      rw [(sentUnder_head sent_name).1] at this
      cases this; decide +kernel
    · have := (sentUnder_head hs).1
      rw [(sentUnder_head sent_next).1] at this
      cases this; decide +kernel
    · have := (sentUnder_head hs).1
      rw [(sentUnder_head sent_p).1] at this
      cases this; decide +kernel

end Demo
open Demo

/-- C139, as stated, is false: a pointer to a nil slice comes back as a nil pointer. -/
theorem C139_refuted : ¬ C139_claim := by
  intro h
  have hp : ProperVal listEnv (.struct 0) (.struct [.string [], .zero, .ptr .zero]) := proper_node .string .nilPtr (.ptr .nilSlice)
  have hs : Shows (toG listEnv (.struct 0) (.struct [.string [], .zero, .ptr .zero])) (.obj [(b!"Name", .str []), (b!"p", .null)]) :=
    .fields (.string .nil) (.fields .nil .fields0)
  have := h listEnv 0 _ hp _ (encodeJson_says hs)
  have e : readJson listEnv (.struct 0) (.obj [(b!"Name", .str []), (b!"p", .null)]) .zero = some (.struct [.string [], .zero, .zero]) := rfl
  rw [e] at this
  cases this

/-- the claim that a value which can be read back into a new variable can be read back into any -/
def C139_fresh_claim : Prop :=
  ∀ (E : TyEnv) (t : Ty) (v cur : Val), OfType E t cur → ReadBack E t (blank t) v → ReadBack E t cur v

/-- That is false: the elements of a slice that is there are changed, not replaced, and keep what is not sent: `[{"A":1}]` read into
`[]Pair{{7, 8}}` gives `[]Pair{{1, 8}}`. -/
theorem C139_fresh_refuted : ¬ C139_fresh_claim := by
  intro h
  have hv : ProperVal listEnv (.slice (.struct 1)) (.slice [.struct [.int 1, .int 0]]) := by
    refine .slice (by decide) ?_
    intro i v hv
    match i with
    | 0 =>
      cases hv
      refine .struct plain_pair rfl ?_
      intro i fd v hf hv
      match i with
      | 0 => cases hf; cases hv; exact .int (by decide) (by decide) (by unfold FitsInt; decide)
      | 1 => cases hf; cases hv; exact .int (by decide) (by decide) (by unfold FitsInt; decide)
      | i + 2 => cases hv
    | i + 1 => cases hv
  have hc : OfType listEnv (.slice (.struct 1)) (.slice [.struct [.int 7, .int 8]]) := by
    refine .slice ?_
    intro i v hv
    match i with
    | 0 =>
      cases hv
      refine .struct rfl ?_
      intro i fd v hf hv
      match i with
      | 0 => cases hf; cases hv; exact .int
      | 1 => cases hf; cases hv; exact .int
      | i + 2 => cases hv
    | i + 1 => cases hv
  have hs : Shows (toG listEnv (.slice (.struct 1)) (.slice [.struct [.int 1, .int 0]])) (.arr [.obj [(b!"A", .num b!"1")]]) :=
    .list (.fields (.int (itoa_digits 1)) .fields0) .list0
  have h1 := h listEnv _ _ _ hc (reads_readBack hv .zero hs rfl)
  obtain ⟨j, h2, h3, -⟩ := readBack_reads h1
  rw [C138_shown h2 hs] at h3
  have e : readJson listEnv (.slice (.struct 1)) (.arr [.obj [(b!"A", .num b!"1")]]) (.slice [.struct [.int 7, .int 8]]) =
    some (.slice [.struct [.int 1, .int 8]]) := rfl
  rw [e] at h3
  cases h3

end Water
