import Verif.Spec.RoundTripOld
import Verif.Lemmas.RoundTrip
import Verif.Lemmas.Mapping
/- Lemmas for the round trip of a struct through the older mapper. -/
namespace Water
open Spec

variable {o : BOracle} {E : TyEnv} {src : Source} {tag : Str}

theorem element_eq (v : Val) (i : Nat) : element v i = (elemsIn v)[i]?.getD .zero := by
  cases v <;> simp [element, elemsIn]

/-! ### what is said about a field -/

theorem nofiles {fd : Field} (hfi : src.files = []) : givenFiles src tag fd = none := by
  unfold givenFiles
  rw [hfi]
  cases lookupName fd tag <;> rfl

theorem given_sent {fd : Field} (hfi : src.files = []) {k : Str} (hn : sentName src.header fd tag = some k) :
    given src tag fd = match src.form.at k with
      | some vs => some vs
      | none => (bindDefault fd tag).map (fun d => [d]) := by
  unfold given
  rw [nofiles hfi]
  unfold sentName at hn
  rw [Option.map_eq_some_iff] at hn
  obtain ⟨n, h1, h2⟩ := hn
  rw [h1, ← h2]
  simp
  rfl

theorem given_unsent {fd : Field} (hn : sentName src.header fd tag = none) : given src tag fd = none := by
  unfold given
  unfold sentName at hn
  rw [Option.map_eq_none_iff] at hn
  rw [hn]
  split <;> rfl

/-- no name, or a name that is not in the form, and no default -/
theorem silent_sent {fd : Field} (hfi : src.files = []) (hf : ∀ k ∈ (sentName src.header fd tag).toList, src.form.at k = none)
    (hd : bindDefault fd tag = none) : Silent src tag fd := by
  refine ⟨?_, nofiles hfi⟩
  cases hn : sentName src.header fd tag with
  | none => exact given_unsent hn
  | some k => rw [given_sent hfi hn, hf k (by simp [hn]), hd]; rfl

/-! ### the loop over the fields -/

theorem mapLoop_back {step : Field → Val → BOut × Bool × Val} {enc : Field → Val → List (Str × Str)} {P : Field → Val → Val → Prop}
    (fds : List Field) : ∀ (xs : List Val), xs.length = fds.length →
    (∀ (i : Nat) fd x, fds[i]? = some fd → xs[i]? = some x → Hidden fd = false →
      ∃ b w, step fd .zero = (.ok, b, w) ∧ P fd x w ∧ (b = true ↔ enc fd x ≠ [])) →
    ∃ b ws, mapLoop step fds (List.replicate fds.length .zero) = (.ok, b, ws) ∧ ws.length = fds.length ∧
      (∀ (i : Nat) fd x w, fds[i]? = some fd → xs[i]? = some x → ws[i]? = some w →
        (Hidden fd = true ∧ w = .zero) ∨ (Hidden fd = false ∧ P fd x w)) ∧
      (b = true ↔ (fds.zip xs).flatMap (fun p => if Hidden p.1 then [] else enc p.1 p.2) ≠ []) := by
  induction fds with
  | nil => intro xs _ _; exact ⟨false, [], rfl, rfl, by simp, by simp⟩
  | cons fd fds ih =>
    intro xs hlen h
    cases xs with
    | nil => simp at hlen
    | cons x xs =>
      obtain ⟨b, ws, h1, h2, h3, h4⟩ := ih xs (by simpa using hlen)
        (fun i fd' x' hi hx => h (i + 1) fd' x' (by simpa using hi) (by simpa using hx))
      have hrep : List.replicate (fd :: fds).length Val.zero = .zero :: List.replicate fds.length .zero := rfl
      rw [hrep]
      cases hh : Hidden fd with
      | true =>
        refine ⟨b, .zero :: ws, ?_, by simp [h2], ?_, ?_⟩
        · simp only [mapLoop]
          rw [show (!fd.exported && !fd.anonymous) = true from hh, h1]
          rfl
        · intro i fd' x' w' hi hx hw
          cases i with
          | zero => simp at hi hx hw; subst hi hw; exact .inl ⟨hh, rfl⟩
          | succ i => exact h3 i fd' x' w' (by simpa using hi) (by simpa using hx) (by simpa using hw)
        · simp only [List.zip_cons_cons, List.flatMap_cons, hh, if_true, List.nil_append]
          exact h4
      | false =>
        obtain ⟨b0, w, g1, g2, g3⟩ := h 0 fd x rfl rfl hh
        refine ⟨b0 || b, w :: ws, ?_, by simp [h2], ?_, ?_⟩
        · simp only [mapLoop]
          rw [show (!fd.exported && !fd.anonymous) = false from hh, g1, h1]
          rfl
        · intro i fd' x' w' hi hx hw
          cases i with
          | zero => simp at hi hx hw; subst hi hx hw; exact .inr ⟨hh, g2⟩
          | succ i => exact h3 i fd' x' w' (by simpa using hi) (by simpa using hx) (by simpa using hw)
        · simp only [List.zip_cons_cons, List.flatMap_cons, hh, Bool.false_eq_true, if_false, Bool.or_eq_true, g3, h4]
          rw [Ne, Ne, Ne, List.append_eq_nil_iff]
          exact ⟨fun h e => h.elim (fun h => h e.1) (fun h => h e.2), fun h => by
            by_cases he : enc fd x = []
            · exact .inr fun e => h ⟨he, e⟩
            · exact .inl he⟩

/-! ### nothing is said -/

theorem namesOld_eq {header : Bool} {f : Nat} {t : Ty} {fd : Field} (h : fd.tag tag ≠ b!"-") : namesOld E header tag (f + 1) t fd =
    match t with
    | .ptr t => namesOld E header tag f t fd
    | .struct n => (if fd.anonymous then [] else (sentName header fd tag).toList) ++
        (E n).flatMap (fun fd => if Hidden fd then [] else namesOld E header tag f fd.ty fd)
    | _ => (sentName header fd tag).toList := by
  conv => lhs; unfold namesOld
  exact if_neg h

theorem sendOld_eq {header : Bool} {f : Nat} {t : Ty} {fd : Field} {x : Val} (h : fd.tag tag ≠ b!"-") : sendOld E header tag (f + 1) t fd x =
    match t, x with
    | .ptr t, .ptr y => sendOld E header tag f t fd y
    | .ptr _, _ => []
    | .struct n, x => ((E n).zip (fieldVals (E n).length x)).flatMap (fun p =>
        if Hidden p.1 then [] else sendOld E header tag f p.1.ty p.1 p.2)
    | .slice t, x => (elemsIn x).map (fun a => ((sentName header fd tag).getD [], textFor t a))
    | .array k t, x => (List.range k).map (fun i => ((sentName header fd tag).getD [], textFor t (element x i)))
    | t, x => [((sentName header fd tag).getD [], textFor t x)] := by
  conv => lhs; unfold sendOld
  exact if_neg h

theorem mapping_dash {f : Nat} {t : Ty} {fd : Field} {v : Val} (h : fd.tag tag = b!"-") :
    mapping o E src tag (f + 1) t fd v = (.ok, false, v) := by
  conv => lhs; unfold mapping
  rw [if_pos h]

theorem noDefaults_shown (f : Nat) : ∀ {t fd}, NoDefaults E tag f t fd → NoDefaults E tag f t (shown fd) := by
  induction f with
  | zero => intro t fd h; exact h
  | succ f ih =>
    intro t fd h
    rcases h with h | h
    · exact Or.inl h
    · right
      cases t with
      | ptr t => exact ih h
      | _ => exact h

theorem namesOld_shown {header : Bool} (f : Nat) : ∀ {t fd}, namesOld E header tag f t (shown fd) = namesOld E header tag f t fd := by
  induction f with
  | zero => intro t fd; rfl
  | succ f ih =>
    intro t fd
    cases t with
    | ptr t =>
      show (if fd.tag tag = b!"-" then [] else namesOld E header tag f t (shown fd)) = if fd.tag tag = b!"-" then [] else namesOld E header tag f t fd
      rw [ih]
    | _ => rfl

theorem old_silent (hfi : src.files = []) (f : Nat) : ∀ g, f ≤ g → ∀ t fd, NoDefaults E tag f t fd →
    (∀ k ∈ namesOld E src.header tag f t fd, src.form.at k = none) →
    ∃ w, mapping o E src tag g t fd .zero = (.ok, false, w) := by
  induction f with
  | zero => intro g _ t fd h; exact h.elim
  | succ f ih =>
    intro g hg t fd h hf
    obtain ⟨g, rfl⟩ : ∃ g', g = g' + 1 := ⟨g - 1, by omega⟩
    by_cases hd : fd.tag tag = b!"-"
    · exact ⟨_, mapping_dash hd⟩
    · have h := h.resolve_left hd
      rw [namesOld_eq hd] at hf
      cases t with
      | ptr t =>
        obtain ⟨w, hw⟩ := ih g (by omega) t (shown fd) (noDefaults_shown f h) (by rw [namesOld_shown]; exact hf)
        rw [mapping_ptr hd]
        exact ⟨.zero, by simp [mapPointer, hw]⟩
      | struct n =>
        rw [mapping_skip hd (by simp) ?_]
        · obtain ⟨b, ws, h1, _, _, h4⟩ := mapLoop_back (step := fun fd x => mapping o E src tag g fd.ty fd x) (enc := fun _ _ => [])
            (P := fun _ _ _ => True) (E n) (List.replicate (E n).length .zero) (by simp) (by
              intro i fd' x hi _ hh
              have hm : fd' ∈ E n := List.mem_of_getElem? hi
              obtain ⟨w, hw⟩ := ih g (by omega) fd'.ty fd' ((h.2 fd' hm).resolve_left (by simp [hh])) (by
                intro k hk
                refine hf k (List.mem_append.2 (.inr (List.mem_flatMap.2 ⟨fd', hm, ?_⟩)))
                rw [hh]; exact hk)
              exact ⟨false, w, hw, trivial, by simp⟩)
          have hb : b = false := by
            cases b with
            | false => rfl
            | true =>
              refine absurd ?_ (h4.1 rfl)
              rw [List.flatMap_eq_nil_iff]
              intro p _
              split <;> rfl
          subst hb
          refine ⟨.struct ws, ?_⟩
          unfold mapStruct
          dsimp only
          rw [show fieldVals (E n).length .zero = List.replicate (E n).length .zero from rfl, h1]
        · cases ha : fd.anonymous with
          | true => exact .inl ⟨rfl, rfl⟩
          | false =>
            refine .inr (silent_sent hfi (fun k hk => hf k (List.mem_append.2 (.inl ?_))) (h.1.resolve_left (by simp [ha])))
            rw [ha]; exact hk
      | time | file =>
        rw [mapping_skip hd (by simp) ?_]
        · exact ⟨_, rfl⟩
        · rcases h with h | h
          · exact .inl ⟨rfl, h⟩
          · exact .inr (silent_sent hfi hf h)
      | _ =>
        rw [mapping_skip hd (by simp) (.inr (silent_sent hfi hf h))]
        exact ⟨_, rfl⟩

/-! ### the names that are sent -/

theorem sendOld_names {header : Bool} (f : Nat) : ∀ t fd v, SendableOld E header tag f t fd v →
    ∀ k ∈ (sendOld E header tag f t fd v).map Prod.fst, k ∈ namesOld E header tag f t fd := by
  induction f with
  | zero => intro t fd v h; exact h.elim
  | succ f ih =>
    intro t fd v h k hk
    rcases h with ⟨hd, _⟩ | ⟨hd, h⟩
    · simp only [sendOld, if_pos hd] at hk
      simp at hk
    · rw [sendOld_eq hd] at hk
      rw [namesOld_eq hd]
      have hname : lookupName fd tag ≠ none → (sentName header fd tag).getD [] ∈ (sentName header fd tag).toList := by
        intro hl
        unfold sentName
        cases hl' : lookupName fd tag with
        | none => exact absurd hl' hl
        | some n => simp
      cases t with
      | ptr t =>
        rcases h with ⟨rfl, _⟩ | ⟨_, y, rfl, hy, _⟩
        · simp at hk
        · exact ih t fd y hy k hk
      | struct n =>
        obtain ⟨_, _, _, h⟩ := h
        obtain ⟨p, hp, rfl⟩ := List.mem_map.1 hk
        obtain ⟨⟨fd', x⟩, hz, hp⟩ := List.mem_flatMap.1 hp
        obtain ⟨i, hi⟩ := List.mem_iff_getElem?.1 hz
        rw [List.getElem?_zip_eq_some] at hi
        refine List.mem_append.2 (.inr (List.mem_flatMap.2 ⟨fd', List.mem_of_getElem? hi.1, ?_⟩))
        rcases h i fd' x hi.1 hi.2 with ⟨hh, _⟩ | ⟨hh, hs⟩
        · simp [hh] at hp
        · simp only [hh, Bool.false_eq_true, if_false] at hp ⊢
          exact ih fd'.ty fd' x hs _ (List.mem_map.2 ⟨p, hp, rfl⟩)
      | slice t =>
        obtain ⟨p, hp, rfl⟩ := List.mem_map.1 hk
        obtain ⟨a, _, rfl⟩ := List.mem_map.1 hp
        exact hname h.2.1
      | array j t =>
        obtain ⟨p, hp, rfl⟩ := List.mem_map.1 hk
        obtain ⟨a, _, rfl⟩ := List.mem_map.1 hp
        exact hname h.2.1
      | int _ | uint _ | bool | string =>
        simp only [List.map_cons, List.map_nil, List.mem_singleton] at hk
        subst hk
        exact hname h.2.1
      | _ => exact h.2.2.2.1.elim

/-! ### plain values -/

theorem exact_plain {fd : Field} {t : Ty} {v z : Val} (h : PlainVal t v) : ∃ w, Exact o fd t (textFor t v) z w ∧ SameVal E t v w := by
  obtain ⟨hp, hsh, hv⟩ := h
  cases t with
  | int bits => exact ⟨.int (intIn v), .int (.inl (itoa_signed _)) hv, .int hsh trivial rfl⟩
  | uint bits => exact ⟨.uint (natIn v), .uint (.inl (itoaNat_spec _)) hv, .uint hsh trivial rfl⟩
  | bool =>
    have e : textFor .bool v = if truth v then b!"true" else b!"false" := rfl
    rw [e]
    cases hb : truth v with
    | true => exact ⟨.bool true, .bool (.inl ⟨rfl, by decide⟩), .bool hsh trivial (by rw [hb]; rfl)⟩
    | false => exact ⟨.bool false, .bool (.inr ⟨rfl, by decide⟩), .bool hsh trivial (by rw [hb]; rfl)⟩
  | string => exact ⟨.string (textIn v), .string, .string hsh trivial rfl⟩
  | _ => exact absurd hp (by simp [PlainTy])

theorem exact_all {fd : Field} {t : Ty} (l : List Val) (hl : ∀ a ∈ l, PlainVal t a) : ∃ ws : List Val, ws.length = l.length ∧
    ∀ (i : Nat) a w, l[i]? = some a → ws[i]? = some w → (∀ z, z = .zero → Exact o fd t (textFor t a) z w) ∧ SameVal E t a w := by
  induction l with
  | nil => exact ⟨[], rfl, by simp⟩
  | cons a l ihl =>
    obtain ⟨ws, h1, h2⟩ := ihl (fun a ha => hl a (by simp [ha]))
    obtain ⟨w, hw1, hw2⟩ := exact_plain (o := o) (E := E) (fd := fd) (z := .zero) (hl a (by simp))
    refine ⟨w :: ws, by simp [h1], ?_⟩
    intro i a' w' ha' hw'
    cases i with
    | zero => simp at ha' hw'; subst ha' hw'; exact ⟨fun z hz => hz ▸ hw1, hw2⟩
    | succ i => exact h2 i a' w' (by simpa using ha') (by simpa using hw')

/-- a field that is given its texts -/
theorem try_given (hfi : src.files = []) {fd : Field} (hd : fd.tag tag ≠ b!"-") (hx : fd.exported = true) {t : Ty} (hz : Sized2 t)
    {ss : List Str} (hg : given src tag fd = some ss) {v w : Val} (hw : Fills o fd t ss v w) :
    tryToSetValue o src tag fd t v = (.ok, true, w) := by
  rcases try_cases (o := o) (src := src) hd t v with ⟨h1, _⟩ | ⟨_, h2, _⟩ | ⟨f, fs, h1, _⟩ | ⟨ss', h1, _, _, h3⟩
  · rw [h1.1] at hg; cases hg
  · rw [hx] at h2; cases h2
  · rw [nofiles hfi] at h1; cases h1
  · rw [hg] at h1
    cases h1
    rw [h3, (setValues_spec hz).2 hw]

theorem mapping_given (hfi : src.files = []) {fd : Field} (hd : fd.tag tag ≠ b!"-") (hx : fd.exported = true) {t : Ty}
    (hp : ∀ t', t ≠ .ptr t') (hst : t.isStruct = false) (hz : Sized2 t)
    {ss : List Str} (hg : given src tag fd = some ss) {v w : Val} (hw : Fills o fd t ss v w) (g : Nat) :
    mapping o E src tag (g + 1) t fd v = (.ok, true, w) := by
  rw [mapping_plain hd hp, hst]
  simp only [Bool.false_and, Bool.false_eq_true, if_false]
  rw [try_given hfi hd hx hz hg hw]

/-! ### the round trip -/

theorem old_back (hfi : src.files = []) (f : Nat) : ∀ g, f ≤ g → ∀ t fd v, SendableOld E src.header tag f t fd v →
    (namesOld E src.header tag f t fd).Nodup →
    (∀ k ∈ namesOld E src.header tag f t fd, src.form.at k = orNone (valuesIn (sendOld E src.header tag f t fd v) k)) →
    ∃ b w, mapping o E src tag g t fd .zero = (.ok, b, w) ∧ SameVal E t v w ∧ (b = true ↔ sendOld E src.header tag f t fd v ≠ []) := by
  induction f with
  | zero => intro g _ t fd v h; exact h.elim
  | succ f ih =>
    intro g hg t fd v h hnd hf
    obtain ⟨g, rfl⟩ : ∃ g', g = g' + 1 := ⟨g - 1, by omega⟩
    rcases h with ⟨hd, rfl⟩ | ⟨hd, h⟩
    · exact ⟨false, .zero, mapping_dash hd, .refl, by simp [sendOld, hd]⟩
    · rw [sendOld_eq hd] at hf ⊢
      rw [namesOld_eq hd] at hf hnd
      have hone : lookupName fd tag ≠ none → ∃ k, sentName src.header fd tag = some k := by
        intro hl
        unfold sentName
        cases hl' : lookupName fd tag with
        | none => exact absurd hl' hl
        | some n => exact ⟨_, rfl⟩
      cases t with
      | ptr t =>
        rw [mapping_ptr hd]
        rcases h with ⟨rfl, hnod⟩ | ⟨hx, y, rfl, hy, hne⟩
        · obtain ⟨w, hw⟩ := old_silent (o := o) hfi f g (by omega) t (shown fd) (noDefaults_shown f hnod)
            (fun k hk => by rw [namesOld_shown] at hk; rw [hf k hk]; rfl)
          exact ⟨false, .zero, by simp [mapPointer, hw], .refl, by simp⟩
        · obtain ⟨b, w, hw, hsame, hb⟩ := ih g (by omega) t fd y hy hnd hf
          rw [hb.2 hne] at hw
          exact ⟨true, .ptr w, by simp [mapPointer, shown_self hx, hw, hx], .ptr hsame, by simp [hne]⟩
      | struct n =>
        obtain ⟨hdef, hshp, hlen, h⟩ := h
        rw [List.nodup_append] at hnd
        obtain ⟨_, hnd, hdis⟩ := hnd
        have hzip : ((E n).zip (fieldVals (E n).length v)).flatMap (fun p => if Hidden p.1 then [] else namesOld E src.header tag f p.1.ty p.1) =
            (E n).flatMap (fun fd => if Hidden fd then [] else namesOld E src.header tag f fd.ty fd) := by
          have : ((E n).zip (fieldVals (E n).length v)).map Prod.fst = E n := List.map_fst_zip (by rw [hlen]; exact Nat.le_refl _)
          conv => rhs; rw [← this]
          rw [List.flatMap_map]
        have hsub : ∀ p ∈ (E n).zip (fieldVals (E n).length v),
            ∀ k ∈ (if Hidden p.1 then [] else sendOld E src.header tag f p.1.ty p.1 p.2).map Prod.fst,
              k ∈ (if Hidden p.1 then [] else namesOld E src.header tag f p.1.ty p.1) := by
          rintro ⟨fd', x'⟩ hp k hk
          obtain ⟨j, hj⟩ := List.mem_iff_getElem?.1 hp
          rw [List.getElem?_zip_eq_some] at hj
          rcases h j fd' x' hj.1 hj.2 with ⟨hh, _⟩ | ⟨hh, hs⟩
          · simp [hh] at hk
          · simp only [hh, Bool.false_eq_true, if_false] at hk ⊢
            exact sendOld_names f fd'.ty fd' x' hs k hk
        rw [mapping_skip hd (by simp) ?_]
        · obtain ⟨b, ws, h1, h2, h3, h4⟩ := mapLoop_back (step := fun fd x => mapping o E src tag g fd.ty fd x)
            (enc := fun fd x => sendOld E src.header tag f fd.ty fd x) (P := fun fd x w => SameVal E fd.ty x w) (E n)
            (fieldVals (E n).length v) hlen (by
              intro i fd' x h1 h2 hh
              have hmem : (fd', x) ∈ (E n).zip (fieldVals (E n).length v) := by
                refine List.mem_iff_getElem?.2 ⟨i, ?_⟩
                rw [List.getElem?_zip_eq_some]
                exact ⟨h1, h2⟩
              have hs : SendableOld E src.header tag f fd'.ty fd' x := by
                rcases h i fd' x h1 h2 with ⟨hh', _⟩ | ⟨_, hs⟩
                · rw [hh] at hh'; cases hh'
                · exact hs
              obtain ⟨b, w, hw, hsame, hb⟩ := ih g (by omega) fd'.ty fd' x hs
                (by
                  have : (namesOld E src.header tag f fd'.ty fd').Sublist
                      ((E n).flatMap (fun fd => if Hidden fd then [] else namesOld E src.header tag f fd.ty fd)) := by
                    rw [List.flatMap_def]
                    exact List.sublist_flatten_of_mem (List.mem_map.2 ⟨fd', List.mem_of_getElem? h1, by simp [hh]⟩)
                  exact this.nodup hnd)
                (by
                  intro k hk
                  have := hf k (List.mem_append.2 (.inr (List.mem_flatMap.2 ⟨fd', List.mem_of_getElem? h1, by simp [hh, hk]⟩)))
                  rw [this]
                  congr 1
                  rw [valuesIn_flatMap (enc := fun p => if Hidden p.1 then [] else sendOld E src.header tag f p.1.ty p.1 p.2)
                    (names := fun p => if Hidden p.1 then [] else namesOld E src.header tag f p.1.ty p.1) hsub (by rw [hzip]; exact hnd)
                    hmem (by simp [hh, hk])]
                  simp [hh])
              exact ⟨b, w, hw, hsame, hb⟩)
          refine ⟨b, .struct ws, ?_, .struct hshp trivial hlen h2 ?_, h4⟩
          · unfold mapStruct
            dsimp only
            rw [show fieldVals (E n).length .zero = List.replicate (E n).length .zero from rfl, h1]
          · intro i fd' a w g1 g2 g3
            rcases h3 i fd' a w g1 g2 g3 with ⟨hh, rfl⟩ | ⟨_, hs⟩
            · rcases h i fd' a g1 g2 with ⟨_, rfl⟩ | ⟨hh', _⟩
              · exact .refl
              · rw [hh] at hh'; cases hh'
            · exact hs
        · cases ha : fd.anonymous with
          | true => exact .inl ⟨rfl, rfl⟩
          | false =>
            refine .inr (silent_sent hfi (fun k hk => ?_) (hdef.resolve_left (by simp [ha])))
            rw [hf k (List.mem_append.2 (.inl (by simp only [ha, Bool.false_eq_true, if_false]; exact hk)))]
            rw [valuesIn_absent, orNone]
            intro hm
            obtain ⟨p, hp, rfl⟩ := List.mem_map.1 hm
            obtain ⟨q, hq, hp⟩ := List.mem_flatMap.1 hp
            have := hsub q hq p.1 (List.mem_map.2 ⟨p, hp, rfl⟩)
            refine hdis p.1 (by simp only [ha, Bool.false_eq_true, if_false]; exact hk) p.1 ?_ rfl
            rw [← hzip]
            exact List.mem_flatMap.2 ⟨q, hq, this⟩
      | slice t =>
        obtain ⟨hx, hl, hdef, hz, hshp, hel⟩ := h
        obtain ⟨k, hk⟩ := hone hl
        simp only [hk, Option.getD_some, Option.toList_some, List.mem_singleton, forall_eq] at hf ⊢
        rw [valuesIn_all] at hf
        by_cases hnil : elemsIn v = []
        · rw [hnil] at hf
          have hsil : Silent src tag fd := silent_sent hfi (fun k' hk' => by
            rw [hk] at hk'; simp at hk'; subst hk'; exact hf) hdef
          refine ⟨false, .zero, ?_, .slice hshp trivial (by rw [hnil]; rfl) (by intro i a b ha; rw [hnil] at ha; simp at ha),
            by simp [hnil]⟩
          rw [mapping_skip hd (by simp) (.inr hsil)]
          rfl
        · have hne : (elemsIn v).map (textFor t) ≠ [] := by simpa using hnil
          rw [orNone_ne hne] at hf
          obtain ⟨ws, hlen, hws⟩ := exact_all (o := o) (E := E) (fd := fd) (t := t) _ hel
          refine ⟨true, .slice ws, ?_, .slice hshp trivial (by simp [elemsIn, hlen]) (fun i a b ha hb => (hws i a b ha hb).2), by simp [hnil]⟩
          refine mapping_given (t := .slice t) hfi hd hx (by intro t' e; cases e) rfl hz (ss := (elemsIn v).map (textFor t)) (by rw [given_sent hfi hk, hf]) ?_ g
          refine .slice (by simp [hlen]) ?_
          intro i s w hs hw
          rw [List.getElem?_map, Option.map_eq_some_iff] at hs
          obtain ⟨a, ha, rfl⟩ := hs
          exact (hws i a w ha hw).1 _ rfl
      | array j t =>
        obtain ⟨hx, hl, hj, hz, hshp, hel⟩ := h
        obtain ⟨k, hk⟩ := hone hl
        simp only [hk, Option.getD_some, Option.toList_some, List.mem_singleton, forall_eq] at hf ⊢
        have hmap : (List.range j).map (fun i => (k, textFor t (element v i))) =
            ((List.range j).map (element v)).map (fun a => (k, textFor t a)) := by simp
        rw [hmap, valuesIn_all] at hf
        have hne : ((List.range j).map (element v)).map (textFor t) ≠ [] := by simp; omega
        rw [orNone_ne hne] at hf
        obtain ⟨ws, hlen, hws⟩ := exact_all (o := o) (E := E) (fd := fd) (t := t) ((List.range j).map (element v))
          (by intro a ha; obtain ⟨i, hi, rfl⟩ := List.mem_map.1 ha; exact hel i (List.mem_range.1 hi))
        have hlen' : ws.length = j := by simpa using hlen
        refine ⟨true, .slice ws, ?_, .array hshp (.inr ⟨ws, rfl, hlen'⟩) ?_, by simp; omega⟩
        · refine mapping_given (t := .array j t) hfi hd hx (by intro t' e; cases e) rfl hz (by rw [given_sent hfi hk, hf]) ?_ g
          refine .array (by simp) hlen' ?_
          intro i s w hs hw
          rw [List.getElem?_map, Option.map_eq_some_iff] at hs
          obtain ⟨a, ha, rfl⟩ := hs
          exact (hws i a w ha hw).1 _ rfl
        · intro i hi
          have hw : ws[i]? = some ws[i] := List.getElem?_eq_getElem (by omega)
          have hv : ((List.range j).map (element v))[i]? = some (element v i) := by simp [hi]
          have := (hws i _ _ hv hw).2
          rw [← element_eq]
          simpa [elemsIn, hw] using this
      | int _ | uint _ | bool | string =>
        obtain ⟨hx, hl, hz, hpv⟩ := h
        obtain ⟨k, hk⟩ := hone hl
        simp only [hk, Option.getD_some, Option.toList_some, List.mem_singleton, forall_eq] at hf ⊢
        obtain ⟨w, hw, hsame⟩ := exact_plain (o := o) (E := E) (fd := fd) (z := .zero) hpv
        refine ⟨true, w, ?_, hsame, by simp⟩
        refine mapping_given hfi hd hx (by simp) rfl hz (ss := [_]) (by rw [given_sent hfi hk, hf]; simp [valuesIn, orNone]; rfl) ?_ g
        exact .one (by simp) (by simp) hw
      | _ => exact h.2.2.2.1.elim

end Water
