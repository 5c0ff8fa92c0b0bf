import Verif.Lemmas.HeaderTrip
import Verif.Lemmas.Xml
import Verif.Spec.RoundTripOld
namespace Water
open Spec

/-! ### structs with their texts as header lines hold them -/

/-- the line with its text as it is written -/
def stripLine (l : Str × Str) : Str × Str := (l.1, fieldText l.2)

theorem stripVals_map (vs : List Val) : stripVals vs = vs.map stripVal := by
  induction vs with
  | nil => rfl
  | cons v vs ih => rw [stripVals, ih]; rfl

theorem fieldText_number (i : Int) : fieldText (itoa i) = itoa i := by
  have hb : ∀ c ∈ itoa i, c ≠ 10 ∧ c ≠ 13 ∧ c ≠ 32 ∧ c ≠ 9 := by
    intro c hc
    have := itoa_bytes i c hc
    clear hc
    revert c
    apply all_bytes
    decide +kernel
  exact fieldText_id ⟨fun h => (hb _ h).1 rfl, fun h => (hb _ h).2.1 rfl, fun c h => (hb c (List.mem_of_mem_head? h)).2.2,
    fun c h => (hb c (List.mem_of_mem_getLast? h)).2.2⟩

theorem strip_zero {v : Val} (h : v = .zero) : stripVal v = .zero := by rw [h]; rfl

theorem strip_plain {t : Ty} {a : Val} (h : PlainVal t a) : PlainVal t (stripVal a) ∧ textFor t (stripVal a) = fieldText (textFor t a) := by
  obtain ⟨h1, h2, h3⟩ := h
  cases t with
  | int bits =>
    have e : stripVal a = a := by cases a <;> first | rfl | cases h2
    rw [e]
    exact ⟨⟨h1, h2, h3⟩, (fieldText_number _).symm⟩
  | uint bits =>
    have e : stripVal a = a := by cases a <;> first | rfl | cases h2
    rw [e]
    refine ⟨⟨h1, h2, h3⟩, ?_⟩
    have := fieldText_number (natIn a : Int)
    have e2 : itoa (natIn a : Int) = itoaNat (natIn a) := by
      unfold itoa
      rw [if_neg (by omega)]
      rfl
    rw [e2] at this
    exact this.symm
  | bool =>
    have e : stripVal a = a := by cases a <;> first | rfl | cases h2
    rw [e]
    refine ⟨⟨h1, h2, h3⟩, ?_⟩
    show (if truth a then b!"true" else b!"false") = fieldText (if truth a then b!"true" else b!"false")
    cases truth a <;> decide +kernel
  | string =>
    cases a with
    | zero => exact ⟨⟨trivial, trivial, trivial⟩, by decide +kernel⟩
    | string s => exact ⟨⟨trivial, trivial, trivial⟩, rfl⟩
    | _ => cases h2
  | _ => cases h1

theorem strip_fields (k : Nat) {n : Nat} {v : Val} (h : Shaped (.struct n) v) : fieldVals k (stripVal v) = (fieldVals k v).map stripVal ∧ Shaped (.struct n) (stripVal v) := by
  cases v with
  | zero => exact ⟨by simp [stripVal, fieldVals], trivial⟩
  | struct vs => exact ⟨stripVals_map vs, trivial⟩
  | _ => cases h

theorem strip_elems {t : Ty} {v : Val} (h : Shaped (.slice t) v) : elemsIn (stripVal v) = (elemsIn v).map stripVal ∧ Shaped (.slice t) (stripVal v) := by
  cases v with
  | zero => exact ⟨rfl, trivial⟩
  | slice vs => exact ⟨stripVals_map vs, trivial⟩
  | _ => cases h

theorem strip_field {inner : Nat → Val → Prop} {innerS : Nat → Val → List (Str × Str)} {tag : Str}
    (hi : ∀ m y, inner m y → inner m (stripVal y) ∧ innerS m (stripVal y) = (innerS m y).map stripLine) {fd : Field} {x : Val}
    (h : FieldSendable inner tag fd x) : FieldSendable inner tag fd (stripVal x) ∧
      sendField innerS tag fd (stripVal x) = (sendField innerS tag fd x).map stripLine := by
  rcases h with ⟨h1, rfl⟩ | ⟨h1, h2⟩
  · refine ⟨.inl ⟨h1, rfl⟩, ?_⟩
    unfold sendField
    rw [if_pos h1, if_pos h1]
    rfl
  · have hh : ¬ Hidden fd = true := by simp [Hidden, h1]
    have key : (match fd.ty with
      | .struct m => bindName fd tag = none ∧ inner m (stripVal x)
      | .ptr (.struct m) => bindName fd tag = none ∧ ∃ y, stripVal x = .ptr y ∧ inner m y
      | .slice t => fd.anonymous = false ∧ bindName fd tag ≠ none ∧ bindDefault fd tag = none ∧ Shaped (.slice t) (stripVal x) ∧ ∀ a ∈ elemsIn (stripVal x), PlainVal t a
      | .ptr t => fd.anonymous = false ∧ bindName fd tag ≠ none ∧ bindDefault fd tag = none ∧ PlainTy t ∧
          (stripVal x = .zero ∨ ∃ y, stripVal x = .ptr y ∧ PlainVal t y)
      | t => fd.anonymous = false ∧ bindName fd tag ≠ none ∧ PlainVal t (stripVal x)) ∧
      sendField innerS tag fd (stripVal x) = (sendField innerS tag fd x).map stripLine := by
      unfold sendField
      rw [if_neg hh, if_neg hh]
      dsimp only
      cases hty : fd.ty with
      | struct m =>
        rw [hty] at h2
        exact ⟨⟨h2.1, (hi m x h2.2).1⟩, (hi m x h2.2).2⟩
      | slice t =>
        rw [hty] at h2
        obtain ⟨a1, a2, a3, a4, a5⟩ := h2
        obtain ⟨e1, e2⟩ := strip_elems a4
        refine ⟨⟨a1, a2, a3, e2, ?_⟩, ?_⟩
        · intro a ha
          rw [e1] at ha
          obtain ⟨b, hb, rfl⟩ := List.mem_map.1 ha
          exact (strip_plain (a5 b hb)).1
        · show (elemsIn (stripVal x)).map _ = ((elemsIn x).map _).map stripLine
          rw [e1, List.map_map, List.map_map]
          apply List.map_congr_left
          intro b hb
          show (_, textFor t (stripVal b)) = (_, fieldText (textFor t b))
          rw [(strip_plain (a5 b hb)).2]
      | ptr t =>
        rw [hty] at h2
        cases t with
        | struct m =>
          obtain ⟨a1, y, rfl, a2⟩ := h2
          exact ⟨⟨a1, stripVal y, rfl, (hi m y a2).1⟩, (hi m y a2).2⟩
        | _ =>
          obtain ⟨a1, a2, a3, a4, a5⟩ := h2
          rcases a5 with rfl | ⟨y, rfl, a5⟩
          · exact ⟨⟨a1, a2, a3, a4, .inl rfl⟩, rfl⟩
          · refine ⟨⟨a1, a2, a3, a4, .inr ⟨stripVal y, rfl, (strip_plain a5).1⟩⟩, ?_⟩
            show [(_, _)] = [(_, _)]
            rw [(strip_plain a5).2]
      | _ =>
        rw [hty] at h2
        obtain ⟨a1, a2, a3⟩ := h2
        refine ⟨⟨a1, a2, (strip_plain a3).1⟩, ?_⟩
        show [(_, _)] = [(_, _)]
        rw [(strip_plain a3).2]
    exact ⟨.inr ⟨h1, key.1⟩, key.2⟩

theorem flatMap_zip {fds : List Field} {xs : List Val} {s : Field → Val → List (Str × Str)}
    (h : ∀ (i : Nat) fd x, fds[i]? = some fd → xs[i]? = some x → s fd (stripVal x) = (s fd x).map stripLine) :
    (fds.zip (xs.map stripVal)).flatMap (fun p => s p.1 p.2) = ((fds.zip xs).flatMap (fun p => s p.1 p.2)).map stripLine := by
  induction fds generalizing xs with
  | nil => rfl
  | cons fd fds ih =>
    cases xs with
    | nil => rfl
    | cons x xs =>
      rw [List.map_cons, List.zip_cons_cons, List.zip_cons_cons, List.flatMap_cons, List.flatMap_cons, List.map_append,
        ih (fun i fd x h1 h2 => h (i + 1) fd x h1 h2)]
      show s fd (stripVal x) ++ _ = _
      rw [h 0 fd x rfl rfl]

theorem strip_send (E : TyEnv) (tag : Str) (f n : Nat) (v : Val) (h : Sendable E tag f n v) :
    Sendable E tag f n (stripVal v) ∧ send E tag f n (stripVal v) = (send E tag f n v).map stripLine := by
  induction f generalizing n v with
  | zero => cases h
  | succ f ih =>
    obtain ⟨h1, h2, h3⟩ := h
    obtain ⟨e1, e2⟩ := strip_fields (E n).length h1
    refine ⟨⟨e2, by rw [e1, List.length_map]; exact h2, ?_⟩, ?_⟩
    · intro i fd x hi hx
      rw [e1, List.getElem?_map] at hx
      obtain ⟨y, hy, rfl⟩ := Option.map_eq_some_iff.1 hx
      exact (strip_field (innerS := send E tag f) (fun m y hm => ih m y hm) (h3 i fd y hi hy)).1
    · show ((E n).zip (fieldVals (E n).length (stripVal v))).flatMap _ = _
      rw [e1]
      exact flatMap_zip (s := sendField (send E tag f) tag) (fun i fd x hi hx =>
        (strip_field (fun m y hm => ih m y hm) (h3 i fd x hi hx)).2)

/-! ### the same value is sent alike -/

theorem same_text {E : TyEnv} {t : Ty} {a b : Val} (h : SameVal E t a b) : textFor t a = textFor t b := by
  cases h with
  | refl => rfl
  | int _ _ e => show itoa _ = itoa _; rw [e]
  | uint _ _ e => show itoaNat _ = itoaNat _; rw [e]
  | bool _ _ e => show (if _ then _ else _) = (if _ then _ else _); rw [e]
  | string _ _ e => exact e
  | _ => rfl

theorem same_texts {E : TyEnv} {t : Ty} {name : Str} {vs ws : List Val} (hl : vs.length = ws.length)
    (h : ∀ (i : Nat) a b, vs[i]? = some a → ws[i]? = some b → SameVal E t a b) :
    vs.map (fun a => (name, textFor t a)) = ws.map (fun a => (name, textFor t a)) := by
  induction vs generalizing ws with
  | nil =>
    cases ws with
    | nil => rfl
    | cons => cases hl
  | cons v vs ih =>
    cases ws with
    | nil => cases hl
    | cons w ws =>
      rw [List.map_cons, List.map_cons, same_text (h 0 v w rfl rfl), ih (by simpa using hl) (fun i a b h1 h2 => h (i + 1) a b h1 h2)]

theorem same_field {E : TyEnv} {inner : Nat → Val → List (Str × Str)} (hi : ∀ m y z, SameVal E (.struct m) y z → inner m y = inner m z) {tag : Str}
    {fd : Field} {x y : Val} (h : SameVal E fd.ty x y) : sendField inner tag fd x = sendField inner tag fd y := by
  unfold sendField
  split
  · rfl
  · dsimp only
    cases hty : fd.ty with
    | struct m => rw [hty] at h; exact hi m x y h
    | slice t =>
      rw [hty] at h
      cases h with
      | refl => rfl
      | slice _ _ h1 h2 => exact same_texts h1 h2
    | ptr t =>
      rw [hty] at h
      cases h with
      | refl => rfl
      | ptr h1 =>
        cases t with
        | struct m => exact hi m _ _ h1
        | _ => show [(_, _)] = [(_, _)]; rw [same_text h1]
    | _ =>
      rw [hty] at h
      show [(_, _)] = [(_, _)]
      rw [same_text h]

theorem zip_same {fds : List Field} {xs ys : List Val} {s : Field → Val → List (Str × Str)} (h1 : xs.length = fds.length)
    (h2 : ys.length = fds.length)
    (h : ∀ (i : Nat) fd a b, fds[i]? = some fd → xs[i]? = some a → ys[i]? = some b → s fd a = s fd b) :
    (fds.zip xs).flatMap (fun p => s p.1 p.2) = (fds.zip ys).flatMap (fun p => s p.1 p.2) := by
  induction fds generalizing xs ys with
  | nil => rfl
  | cons fd fds ih =>
    cases xs with
    | nil => cases h1
    | cons x xs =>
      cases ys with
      | nil => cases h2
      | cons y ys =>
        rw [List.zip_cons_cons, List.zip_cons_cons, List.flatMap_cons, List.flatMap_cons,
          ih (by simpa using h1) (by simpa using h2) (fun i fd a b e1 e2 e3 => h (i + 1) fd a b e1 e2 e3)]
        show s fd x ++ _ = s fd y ++ _
        rw [h 0 fd x y rfl rfl rfl]

theorem same_send (E : TyEnv) (tag : Str) (f n : Nat) (v w : Val) (h : SameVal E (.struct n) v w) : send E tag f n v = send E tag f n w := by
  induction f generalizing n v w with
  | zero => rfl
  | succ f ih =>
    cases h with
    | refl => rfl
    | struct _ _ l1 l2 h =>
      exact zip_same (s := sendField (send E tag f) tag) l1 l2 (fun i fd a b e1 e2 e3 => same_field ih (h i fd a b e1 e2 e3))

/-! ### the older mapper -/

theorem strip_element (x : Val) (i : Nat) : element (stripVal x) i = stripVal (element x i) := by
  cases x with
  | slice vs =>
    show ((stripVals vs)[i]?).getD .zero = stripVal ((vs[i]?).getD .zero)
    rw [stripVals_map, List.getElem?_map]
    cases vs[i]? <;> rfl
  | _ => rfl

theorem strip_array {k : Nat} {v : Val} (h : ShapedArray k v) : ShapedArray k (stripVal v) := by
  rcases h with rfl | ⟨vs, rfl, h⟩
  · exact .inl rfl
  · exact .inr ⟨stripVals vs, rfl, by rw [stripVals_map, List.length_map, h]⟩

theorem strip_sendOld (E : TyEnv) (hd : Bool) (tag : Str) (f : Nat) (t : Ty) (fd : Field) (x : Val) (h : SendableOld E hd tag f t fd x) :
    SendableOld E hd tag f t fd (stripVal x) ∧ sendOld E hd tag f t fd (stripVal x) = (sendOld E hd tag f t fd x).map stripLine := by
  induction f generalizing t fd x with
  | zero => cases h
  | succ f ih =>
    rcases h with ⟨h1, rfl⟩ | ⟨h1, h2⟩
    · refine ⟨.inl ⟨h1, rfl⟩, ?_⟩
      unfold sendOld
      rw [if_pos h1, if_pos h1]
      rfl
    · have plain : ∀ (u : Ty), fd.exported = true ∧ Spec.lookupName fd tag ≠ none ∧ Sized2 u ∧ PlainVal u x →
          (fd.exported = true ∧ Spec.lookupName fd tag ≠ none ∧ Sized2 u ∧ PlainVal u (stripVal x)) ∧
          [((sentName hd fd tag).getD [], textFor u (stripVal x))] = [((sentName hd fd tag).getD [], textFor u x)].map stripLine := by
        intro u ⟨a1, a2, a3, a4⟩
        refine ⟨⟨a1, a2, a3, (strip_plain a4).1⟩, ?_⟩
        show [(_, _)] = [(_, _)]
        rw [(strip_plain a4).2]
      cases t with
      | ptr t =>
        rcases h2 with ⟨rfl, h2⟩ | ⟨a1, y, rfl, a2, a3⟩
        · refine ⟨.inr ⟨h1, .inl ⟨rfl, h2⟩⟩, ?_⟩
          unfold sendOld
          rw [if_neg h1, if_neg h1]
          rfl
        · obtain ⟨e1, e2⟩ := ih t fd y a2
          refine ⟨.inr ⟨h1, .inr ⟨a1, stripVal y, rfl, e1, ?_⟩⟩, ?_⟩
          · rw [e2]
            simpa using a3
          · unfold sendOld
            rw [if_neg h1, if_neg h1]
            exact e2
      | struct n =>
        obtain ⟨a1, a2, a3, a4⟩ := h2
        obtain ⟨e1, e2⟩ := strip_fields (E n).length a2
        refine ⟨.inr ⟨h1, a1, e2, by rw [e1, List.length_map]; exact a3, ?_⟩, ?_⟩
        · intro i fd' y hi hy
          rw [e1, List.getElem?_map] at hy
          obtain ⟨z, hz, rfl⟩ := Option.map_eq_some_iff.1 hy
          rcases a4 i fd' z hi hz with ⟨b1, rfl⟩ | ⟨b1, b2⟩
          · exact .inl ⟨b1, rfl⟩
          · exact .inr ⟨b1, (ih _ _ _ b2).1⟩
        · unfold sendOld
          rw [if_neg h1, if_neg h1]
          dsimp only
          rw [e1]
          refine flatMap_zip (s := fun p q => if Hidden p then [] else sendOld E hd tag f p.ty p q) ?_
          intro i fd' y hi hy
          rcases a4 i fd' y hi hy with ⟨b1, rfl⟩ | ⟨b1, b2⟩
          · rw [if_pos b1, if_pos b1]; rfl
          · have : ¬ Hidden fd' = true := by rw [b1]; simp
            rw [if_neg this, if_neg this]; exact (ih _ _ _ b2).2
      | slice t =>
        obtain ⟨a1, a2, a3, a4, a5, a6⟩ := h2
        obtain ⟨e1, e2⟩ := strip_elems a5
        refine ⟨.inr ⟨h1, a1, a2, a3, a4, e2, ?_⟩, ?_⟩
        · intro a ha
          rw [e1] at ha
          obtain ⟨b, hb, rfl⟩ := List.mem_map.1 ha
          exact (strip_plain (a6 b hb)).1
        · unfold sendOld
          rw [if_neg h1, if_neg h1]
          dsimp only
          rw [e1, List.map_map, List.map_map]
          apply List.map_congr_left
          intro b hb
          show (_, textFor t (stripVal b)) = (_, fieldText (textFor t b))
          rw [(strip_plain (a6 b hb)).2]
      | array k t =>
        obtain ⟨a1, a2, a3, a4, a5, a6⟩ := h2
        refine ⟨.inr ⟨h1, a1, a2, a3, a4, strip_array a5, ?_⟩, ?_⟩
        · intro i hi
          rw [strip_element]
          exact (strip_plain (a6 i hi)).1
        · unfold sendOld
          rw [if_neg h1, if_neg h1]
          dsimp only
          rw [List.map_map]
          apply List.map_congr_left
          intro i hi
          show (_, textFor t (element (stripVal x) i)) = (_, fieldText (textFor t (element x i)))
          rw [strip_element, (strip_plain (a6 i (List.mem_range.1 hi))).2]
      | _ =>
        refine ⟨.inr ⟨h1, (plain _ h2).1⟩, ?_⟩
        unfold sendOld
        rw [if_neg h1, if_neg h1]
        exact (plain _ h2).2

theorem same_sendOld (E : TyEnv) (hd : Bool) (tag : Str) (f : Nat) (t : Ty) (fd : Field) (v w : Val) (h : SameVal E t v w) :
    sendOld E hd tag f t fd v = sendOld E hd tag f t fd w := by
  induction f generalizing t fd v w with
  | zero => rfl
  | succ f ih =>
    unfold sendOld
    split
    · rfl
    · dsimp only
      cases t with
      | ptr t =>
        cases h with
        | refl => rfl
        | ptr h1 => exact ih t fd _ _ h1
      | struct n =>
        cases h with
        | refl => rfl
        | struct _ _ l1 l2 h =>
          exact zip_same (s := fun p q => if Hidden p then [] else sendOld E hd tag f p.ty p q) l1 l2
            (fun i fd a b e1 e2 e3 => by split
                                         · rfl
                                         · exact ih _ _ _ _ (h i fd a b e1 e2 e3))
      | slice t =>
        cases h with
        | refl => rfl
        | slice _ _ h1 h2 => exact same_texts h1 h2
      | array k t =>
        cases h with
        | refl => rfl
        | array s1 s2 h1 =>
          have hel : ∀ (x : Val) (i : Nat), ShapedArray k x → element x i = (elemsIn x)[i]?.getD .zero := by
            intro x i hx
            rcases hx with rfl | ⟨vs, rfl, _⟩ <;> rfl
          apply List.map_congr_left
          intro i hi
          rw [hel _ i s1, hel _ i s2, same_text (h1 i (List.mem_range.1 hi))]
      | _ =>
        show [(_, _)] = [(_, _)]
        rw [same_text h]

/-! ### the wire -/

theorem fieldText_idem (v : Str) : fieldText (fieldText v) = fieldText v := fieldText_id (fieldText_safe v)

theorem wire_strip (before ls after : List (Str × Str)) : wireHeader (before ++ ls.map stripLine ++ after) = wireHeader (before ++ ls ++ after) := by
  unfold wireHeader
  simp only [List.flatMap_append, List.flatMap_map]
  have : (fun l : Str × Str => (stripLine l).1 ++ b!": " ++ fieldText (stripLine l).2 ++ b!"\r\n") = fun l => l.1 ++ b!": " ++ fieldText l.2 ++ b!"\r\n" := by
    funext l
    show l.1 ++ b!": " ++ fieldText (fieldText l.2) ++ b!"\r\n" = _
    rw [fieldText_idem]
  rw [this]

theorem sameLines_strip {ls ls' : List (Str × Str)} (h : SameLines ls ls') : SameLines (ls.map stripLine) (ls'.map stripLine) := by
  induction h with
  | nil => exact .nil
  | cons h _ ih => exact .cons h ih

theorem tokens_strip {before ls after : List (Str × Str)} (h : TokenNames (before ++ ls ++ after)) : TokenNames (before ++ ls.map stripLine ++ after) := by
  intro l hl
  simp only [List.mem_append, List.mem_map] at hl
  rcases hl with (hl | ⟨x, hx, rfl⟩) | hl
  · exact h l (by simp [hl])
  · exact h x (by simp [hx])
  · exact h l (by simp [hl])

end Water
