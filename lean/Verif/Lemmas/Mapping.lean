import Verif.Lemmas.Binding
import Verif.Spec.Mapping
/- Lemmas on the older mapper. -/
namespace Water
open Spec

variable {o : BOracle} {E : TyEnv} {src : Source} {tag : Str}

/-! ### one text -/

theorem numberOf_parse' {bits : Nat} (h2 : 2 ≤ bits) (hb : bits ≤ 64) {s : Str} {i : Int} :
    parseInt bits (if s = [] then b!"0" else s) = (i, none) ↔ NumberOf s i ∧ FitsInt bits i := by
  have key : ∀ t : Str, parseInt bits t = (i, none) ↔ Signed t i ∧ FitsInt bits i := by
    intro t
    rw [parseInt_ok h2 hb]
    unfold FitsInt
    constructor
    · rintro ⟨h1, h2, h3⟩
      exact ⟨h1, by simpa using h2, by simpa using h3⟩
    · rintro ⟨h1, h2, h3⟩
      exact ⟨h1, by simpa using h2, by simpa using h3⟩
  rw [key]
  unfold NumberOf
  by_cases hs : s = []
  · subst hs
    rw [if_pos rfl]
    have hz : Signed b!"0" 0 := .plain ⟨by decide, by decide⟩
    constructor
    · rintro ⟨h, h3⟩
      refine ⟨Or.inr ⟨rfl, ?_⟩, h3⟩
      rw [signed_iff] at h hz
      rw [h.2, hz.2]
    · rintro ⟨h | h, h3⟩
      · rw [signed_iff] at h; exact absurd rfl h.1.1
      · rw [h.2] at h3 ⊢; exact ⟨hz, h3⟩
  · rw [if_neg hs]
    constructor
    · rintro ⟨h1, h3⟩; exact ⟨Or.inl h1, h3⟩
    · rintro ⟨h1 | h1, h3⟩
      · exact ⟨h1, h3⟩
      · exact absurd h1.1 hs

theorem naturalOf_parse' {bits : Nat} (hb : bits ≤ 64) {s : Str} {n : Nat} :
    parseUint bits (if s = [] then b!"0" else s) = (n, none) ↔ NaturalOf s n ∧ n < 2 ^ bits := by
  rw [parseUint_ok hb]
  unfold NaturalOf
  by_cases hs : s = []
  · subst hs
    rw [if_pos rfl]
    have hv : value b!"0" = 0 := by decide
    rw [hv]
    constructor
    · rintro ⟨_, rfl, h⟩; exact ⟨Or.inr ⟨rfl, rfl⟩, h⟩
    · rintro ⟨h | h, h3⟩
      · exact absurd rfl h.1.1
      · exact ⟨⟨by decide, by decide⟩, h.2.symm, h3⟩
  · rw [if_neg hs]
    constructor
    · rintro ⟨h1, h2, h3⟩; exact ⟨Or.inl ⟨h1, h2⟩, h3⟩
    · rintro ⟨h1 | h1, h3⟩
      · exact ⟨h1.1, h1.2, h3⟩
      · exact absurd h1.1 hs

theorem setTimeField_spec {fd : Field} {s : Str} {v w : Val} :
    setTimeField o fd s v = (.ok, w) ↔ ∃ t, w = .time t ∧ TimeOf o fd s t := by
  rw [← setTime_spec (tag := b!"form") (v := v)]
  rfl

theorem setProper_spec {fd : Field} {t : Ty} (hz : Sized2 t) {s : Str} {v w : Val} :
    setProper o fd t s v = (.ok, w) ↔ Exact o fd t s v w := by
  cases t with
  | int bits =>
    unfold setProper
    simp only
    rcases hp : parseInt bits (if s = [] then b!"0" else s) with ⟨i, e⟩
    cases e with
    | some e =>
      simp only [Prod.mk.injEq, reduceCtorEq, false_and, false_iff]
      intro h
      cases h with
      | int h1 h2 => rw [(numberOf_parse' hz.1 hz.2).2 ⟨h1, h2⟩] at hp; cases hp
      | json h => simp at h
    | none =>
      have hi := (numberOf_parse' hz.1 hz.2).1 hp
      simp only [Prod.mk.injEq, true_and]
      constructor
      · rintro rfl; exact .int hi.1 hi.2
      · intro h
        cases h with
        | int h1 h2 => have := (numberOf_parse' hz.1 hz.2).2 ⟨h1, h2⟩; rw [hp] at this; cases this; rfl
        | json h => simp at h
  | uint bits =>
    unfold setProper
    simp only
    rcases hp : parseUint bits (if s = [] then b!"0" else s) with ⟨n, e⟩
    have hb : bits ≤ 64 := hz
    cases e with
    | some e =>
      simp only [Prod.mk.injEq, reduceCtorEq, false_and, false_iff]
      intro h
      cases h with
      | uint h1 h2 => rw [(naturalOf_parse' hb).2 ⟨h1, h2⟩] at hp; cases hp
      | json h => simp at h
    | none =>
      have hi := (naturalOf_parse' hb).1 hp
      simp only [Prod.mk.injEq, true_and]
      constructor
      · rintro rfl; exact .uint hi.1 hi.2
      · intro h
        cases h with
        | uint h1 h2 => have := (naturalOf_parse' hb).2 ⟨h1, h2⟩; rw [hp] at this; cases this; rfl
        | json h => simp at h
  | bool =>
    unfold setProper
    simp only
    rcases hp : parseBool (if s = [] then b!"false" else s) with ⟨b, e⟩
    cases e with
    | some e =>
      simp only [Prod.mk.injEq, reduceCtorEq, false_and, false_iff]
      intro h
      cases h with
      | bool h => rw [boolOf_parse.2 h] at hp; cases hp
      | json h => simp at h
    | none =>
      have hb := boolOf_parse.1 hp
      simp only [Prod.mk.injEq, true_and]
      constructor
      · rintro rfl; exact .bool hb
      · intro h
        cases h with
        | bool h => have := boolOf_parse.2 h; rw [hp] at this; cases this; rfl
        | json h => simp at h
  | float bits =>
    unfold setProper
    simp only
    cases hp : o.float bits (if s = [] then b!"0.0" else s) with
    | none =>
      simp only [Prod.mk.injEq, reduceCtorEq, false_and, false_iff]
      intro h
      cases h with
      | float h => rw [hp] at h; cases h
      | json h => simp at h
    | some id =>
      simp only [Prod.mk.injEq, true_and]
      constructor
      · rintro rfl; exact .float hp
      · intro h
        cases h with
        | float h => rw [hp] at h; cases h; rfl
        | json h => simp at h
  | duration =>
    unfold setProper
    simp only
    cases hp : o.duration s with
    | none =>
      simp only [Prod.mk.injEq, reduceCtorEq, false_and, false_iff]
      intro h
      cases h with
      | duration h => rw [hp] at h; cases h
      | json h => simp at h
    | some id =>
      simp only [Prod.mk.injEq, true_and]
      constructor
      · rintro rfl; exact .duration hp
      · intro h
        cases h with
        | duration h => rw [hp] at h; cases h; rfl
        | json h => simp at h
  | string =>
    unfold setProper
    simp only [Prod.mk.injEq, true_and]
    constructor
    · rintro rfl; exact .string
    · intro h
      cases h with
      | string => rfl
      | json h => simp at h
  | time =>
    unfold setProper
    simp only
    rw [setTimeField_spec]
    constructor
    · rintro ⟨t, rfl, h⟩; exact .time h
    · intro h
      cases h with
      | time h => exact ⟨_, rfl, h⟩
      | json h => simp at h
  | file =>
    unfold setProper
    simp only
    rcases hp : o.json .file s v with ⟨e, x⟩
    constructor
    · intro h
      cases e with
      | some e => simp at h
      | none => simp at h; subst h; exact .json (Or.inl rfl) hp
    · intro h
      cases h with
      | json _ h => rw [hp] at h; cases h; rfl
  | struct n =>
    unfold setProper
    simp only
    rcases hp : o.json (.struct n) s v with ⟨e, x⟩
    constructor
    · intro h
      cases e with
      | some e => simp at h
      | none => simp at h; subst h; exact .json (Or.inr (Or.inl ⟨_, rfl⟩)) hp
    · intro h
      cases h with
      | json _ h => rw [hp] at h; cases h; rfl
  | map k e =>
    unfold setProper
    simp only
    rcases hp : o.json (.map k e) s v with ⟨er, x⟩
    constructor
    · intro h
      cases er with
      | some e => simp at h
      | none => simp at h; subst h; exact .json (Or.inr (Or.inr ⟨_, _, rfl⟩)) hp
    · intro h
      cases h with
      | json _ h => rw [hp] at h; cases h; rfl
  | ptr t =>
    simp only [setProper, Prod.mk.injEq, reduceCtorEq, false_and, false_iff]
    intro h
    cases h with
    | json h => simp at h
  | slice t =>
    simp only [setProper, Prod.mk.injEq, reduceCtorEq, false_and, false_iff]
    intro h
    cases h with
    | json h => simp at h
  | array n t =>
    simp only [setProper, Prod.mk.injEq, reduceCtorEq, false_and, false_iff]
    intro h
    cases h with
    | json h => simp at h
  | other n =>
    simp only [setProper, Prod.mk.injEq, reduceCtorEq, false_and, false_iff]
    intro h
    cases h with
    | json h => simp at h

theorem setProper_calm {fd : Field} {t : Ty} {s : Str} {v : Val} :
    (setProper o fd t s v).1 ≠ .fuel ∧ (setProper o fd t s v).1 ≠ .panic := by
  have ht : ∀ opt, (setTimeField2 o s opt v).1 ≠ .panic := by
    intro opt
    unfold setTimeField2
    simp only
    repeat' split
    all_goals simp
  refine ⟨?_, ?_⟩
  · unfold setProper
    split
    all_goals first | (split <;> simp) | exact setTime_fuel | simp
  · unfold setProper
    split
    all_goals first | (split <;> simp) | exact ht _ | simp

/-! ### several texts -/

theorem setArray_spec {fd : Field} {el : Ty} (hz : Sized2 el) : ∀ (ss : List Str) (vs : List Val), vs.length = ss.length → ∀ ws,
    setArray o fd el ss vs = (.ok, ws) ↔ ws.length = ss.length ∧
      ∀ (i : Nat) s w x, ss[i]? = some s → ws[i]? = some w → vs[i]? = some x → Exact o fd el s x w
  | [], [], _, ws => by
    unfold setArray
    simp only [Prod.mk.injEq, true_and]
    constructor
    · rintro rfl; simp
    · rintro ⟨h, _⟩
      exact (List.length_eq_zero_iff.1 (by simpa using h)).symm
  | [], v :: vs, h, ws => by simp at h
  | s :: ss, [], h, ws => by simp at h
  | s :: ss, v :: vs, h, ws => by
    have h' : vs.length = ss.length := by simpa using h
    unfold setArray
    rcases hp : setProper o fd el s v with ⟨out, x⟩
    by_cases ho : out = .ok
    · subst ho
      rcases hq : setArray o fd el ss vs with ⟨out', xs⟩
      simp only [Prod.mk.injEq]
      constructor
      · rintro ⟨rfl, rfl⟩
        obtain ⟨h1, h2⟩ := (setArray_spec hz ss vs h' xs).1 hq
        refine ⟨by simp [h1], ?_⟩
        intro i s' w y hs hw hy
        cases i with
        | zero => simp at hs hw hy; subst hs hw hy; exact (setProper_spec hz).1 hp
        | succ i => exact h2 i s' w y (by simpa using hs) (by simpa using hw) (by simpa using hy)
      · rintro ⟨h1, h2⟩
        cases ws with
        | nil => simp at h1
        | cons w ws =>
          have e1 := (setProper_spec hz).2 (h2 0 s w v rfl rfl rfl)
          rw [hp] at e1
          cases e1
          have e2 := (setArray_spec hz ss vs h' ws).2 ⟨by simpa using h1, fun i s' w' y a b c => h2 (i + 1) s' w' y (by simpa using a) (by simpa using b) (by simpa using c)⟩
          rw [hq] at e2
          cases e2
          exact ⟨rfl, rfl⟩
    · have hno : ∀ w ws, ¬ (∀ (i : Nat) s' w' x', (s :: ss)[i]? = some s' → (w :: ws)[i]? = some w' → (v :: vs)[i]? = some x' → Exact o fd el s' x' w') := by
        intro w ws h2
        have e1 := (setProper_spec hz).2 (h2 0 s w v rfl rfl rfl)
        rw [hp] at e1
        cases e1; exact absurd rfl ho
      constructor
      · intro h; cases out <;> first | exact absurd rfl ho | simp at h
      · rintro ⟨h1, h2⟩
        cases ws with
        | nil => simp at h1
        | cons w ws => exact absurd h2 (hno w ws)

theorem setArray_calm {fd : Field} {el : Ty} : ∀ (ss : List Str) (vs : List Val),
    (setArray o fd el ss vs).1 ≠ .fuel ∧ (setArray o fd el ss vs).1 ≠ .panic
  | [], vs => by unfold setArray; simp
  | s :: ss, [] => by unfold setArray; simp
  | s :: ss, v :: vs => by
    unfold setArray
    have hp := setProper_calm (o := o) (fd := fd) (t := el) (s := s) (v := v)
    rcases hq : setProper o fd el s v with ⟨out, x⟩
    rw [hq] at hp
    cases out with
    | ok => exact setArray_calm ss vs
    | err e => simp
    | panic => exact absurd rfl hp.2
    | fuel => exact absurd rfl hp.1

theorem elemVals_length (n : Nat) (v : Val) : (elemVals n v).length = n := by
  unfold elemVals
  split <;> simp

theorem elemVals_get {n i : Nat} {v x : Val} (h : (elemVals n v)[i]? = some x) : x = element v i := by
  unfold elemVals at h
  unfold element
  split at h
  · rw [List.getElem?_map] at h
    cases hr : (List.range n)[i]? with
    | none => rw [hr] at h; cases h
    | some j =>
      rw [hr] at h
      have : j = i := by
        have := List.getElem?_eq_some_iff.1 hr
        obtain ⟨hl, hj⟩ := this
        simpa using hj.symm
      subst this
      simpa using h.symm
  · rename_i hv
    have : x = .zero := List.eq_of_mem_replicate (List.mem_of_getElem? h)
    rw [this]
    cases v <;> first | rfl | exact absurd rfl (hv _)

theorem setValues_spec {fd : Field} {t : Ty} (hz : Sized2 t) {ss : List Str} {v w : Val} :
    setValues o fd t ss v = (.ok, w) ↔ Fills o fd t ss v w := by
  by_cases h1 : ∃ el, t = .slice el
  · obtain ⟨el, rfl⟩ := h1
    simp only [setValues]
    have hs := setArray_spec (o := o) (fd := fd) (el := el) hz ss (List.replicate ss.length .zero) (by simp)
    rcases hq : setArray o fd el ss (List.replicate ss.length .zero) with ⟨out, xs⟩
    rw [hq] at hs
    have hrep : ∀ (i : Nat) s, ss[i]? = some s → (List.replicate ss.length Val.zero)[i]? = some .zero := by
      intro i s hi
      have := (List.getElem?_eq_some_iff.1 hi).1
      simp [this]
    constructor
    · intro h
      cases out <;> simp at h
      subst h
      obtain ⟨a, b⟩ := (hs xs).1 rfl
      exact .slice a (fun i s w h1 h2 => b i s w .zero h1 h2 (hrep i s h1))
    · intro h
      cases h with
      | one h => exact absurd rfl (h _)
      | slice h1 h2 =>
        have := (hs _).2 ⟨h1, fun i s w x a b c => by
          rw [hrep i s a] at c; cases c; exact h2 i s w a b⟩
        cases this; rfl
  · by_cases h2 : ∃ n el, t = .array n el
    · obtain ⟨n, el, rfl⟩ := h2
      simp only [setValues]
      by_cases hn : ss.length = n
      · rw [if_neg (by simpa using hn)]
        have hs := setArray_spec (o := o) (fd := fd) (el := el) hz ss (elemVals n v) (by rw [elemVals_length, hn])
        rcases hq : setArray o fd el ss (elemVals n v) with ⟨out, xs⟩
        rw [hq] at hs
        have hget : ∀ (i : Nat) s, ss[i]? = some s → (elemVals n v)[i]? = some (element v i) := by
          intro i s hi
          have hl := (List.getElem?_eq_some_iff.1 hi).1
          cases he : (elemVals n v)[i]? with
          | none => rw [List.getElem?_eq_none_iff, elemVals_length] at he; omega
          | some x => rw [elemVals_get he]
        simp only [Prod.mk.injEq]
        constructor
        · rintro ⟨rfl, rfl⟩
          obtain ⟨a, b⟩ := (hs xs).1 rfl
          exact .array hn (by rw [a, hn]) (fun i s w h1 h2 => b i s w _ h1 h2 (hget i s h1))
        · intro h
          cases h with
          | one _ h => exact absurd rfl (h _ _)
          | array h1 h2 h3 =>
            have := (hs _).2 ⟨by rw [h2, h1], fun i s w x a b c => by
              rw [hget i s a] at c; cases c; exact h3 i s w a b⟩
            cases this; exact ⟨rfl, rfl⟩
      · rw [if_pos hn]
        constructor
        · intro h; simp at h
        · intro h
          cases h with
          | one _ h => exact absurd rfl (h _ _)
          | array h1 _ _ => exact absurd h1 hn
    · have e : setValues o fd t ss v = setProper o fd t (ss.headD []) v := by
        cases t <;> first | rfl | exact absurd ⟨_, rfl⟩ h1 | exact absurd ⟨_, _, rfl⟩ h2
      rw [e, setProper_spec hz]
      constructor
      · exact .one (fun el h => h1 ⟨el, h⟩) (fun n el h => h2 ⟨n, el, h⟩)
      · intro h
        cases h with
        | one _ _ h => exact h
        | slice => exact absurd ⟨_, rfl⟩ h1
        | array => exact absurd ⟨_, _, rfl⟩ h2

theorem setValues_calm {fd : Field} {t : Ty} {ss : List Str} {v : Val} :
    (setValues o fd t ss v).1 ≠ .fuel ∧ (setValues o fd t ss v).1 ≠ .panic := by
  unfold setValues
  split
  · rename_i el
    have := setArray_calm (o := o) (fd := fd) (el := el) ss (List.replicate ss.length .zero)
    rcases hq : setArray o fd el ss (List.replicate ss.length .zero) with ⟨out, xs⟩
    rw [hq] at this
    cases out <;> first | exact absurd rfl this.1 | exact absurd rfl this.2 | simp
  · rename_i n el
    split
    · simp
    · exact setArray_calm (o := o) (fd := fd) (el := el) ss (elemVals n v)
  · exact setProper_calm

/-! ### uploaded files -/

theorem setEachFile_spec {set : Nat → Val → BOut × Val} {P : Nat → Val → Prop} (hset : ∀ f v w, set f v = (.ok, w) ↔ P f w) :
    ∀ (fs : List Nat) (vs : List Val), vs.length = fs.length → ∀ ws,
    setEachFile set fs vs = (.ok, ws) ↔ ws.length = fs.length ∧ ∀ (i : Nat) f w, fs[i]? = some f → ws[i]? = some w → P f w
  | [], [], _, ws => by
    unfold setEachFile
    simp only [Prod.mk.injEq, true_and]
    constructor
    · rintro rfl; simp
    · rintro ⟨h, _⟩
      exact (List.length_eq_zero_iff.1 (by simpa using h)).symm
  | [], v :: vs, h, ws => by simp at h
  | f :: fs, [], h, ws => by simp at h
  | f :: fs, v :: vs, h, ws => by
    have h' : vs.length = fs.length := by simpa using h
    unfold setEachFile
    rcases hp : set f v with ⟨out, x⟩
    by_cases ho : out = .ok
    · subst ho
      rcases hq : setEachFile set fs vs with ⟨out', xs⟩
      simp only [Prod.mk.injEq]
      constructor
      · rintro ⟨rfl, rfl⟩
        obtain ⟨h1, h2⟩ := (setEachFile_spec hset fs vs h' xs).1 hq
        refine ⟨by simp [h1], ?_⟩
        intro i s' w hs hw
        cases i with
        | zero => simp at hs hw; subst hs hw; exact (hset _ _ _).1 hp
        | succ i => exact h2 i s' w (by simpa using hs) (by simpa using hw)
      · rintro ⟨h1, h2⟩
        cases ws with
        | nil => simp at h1
        | cons w ws =>
          have e1 := (hset f v w).2 (h2 0 f w rfl rfl)
          rw [hp] at e1
          cases e1
          have e2 := (setEachFile_spec hset fs vs h' ws).2 ⟨by simpa using h1, fun i s' w' a b => h2 (i + 1) s' w' (by simpa using a) (by simpa using b)⟩
          rw [hq] at e2
          cases e2
          exact ⟨rfl, rfl⟩
    · constructor
      · intro h; cases out <;> first | exact absurd rfl ho | simp at h
      · rintro ⟨h1, h2⟩
        cases ws with
        | nil => simp at h1
        | cons w ws =>
          have e1 := (hset f v w).2 (h2 0 f w rfl rfl)
          rw [hp] at e1
          cases e1; exact absurd rfl ho

theorem setEachFile_calm {set : Nat → Val → BOut × Val} (hset : ∀ f v, (set f v).1 ≠ .fuel ∧ (set f v).1 ≠ .panic) :
    ∀ (fs : List Nat) (vs : List Val), (setEachFile set fs vs).1 ≠ .fuel ∧ (setEachFile set fs vs).1 ≠ .panic
  | [], vs => by unfold setEachFile; simp
  | f :: fs, [] => by unfold setEachFile; simp
  | f :: fs, v :: vs => by
    unfold setEachFile
    have hp := hset f v
    rcases hq : set f v with ⟨out, x⟩
    rw [hq] at hp
    cases out with
    | ok => exact setEachFile_calm hset fs vs
    | err e => simp
    | panic => exact absurd rfl hp.2
    | fuel => exact absurd rfl hp.1

theorem setByFile_spec {key : Str} : ∀ (t : Ty) (f : Nat) (fs : List Nat) (v w : Val),
    setByFile key t (f :: fs) v = (.ok, w) ↔ FilledBy t (f :: fs) w := by
  intro t
  induction t with
  | file =>
    intro f fs v w
    simp only [setByFile, Prod.mk.injEq, true_and]
    constructor
    · rintro rfl; exact .value
    · intro h; cases h; rfl
  | ptr t ih =>
    intro f fs v w
    by_cases ht : t = .file
    · subst ht
      simp only [setByFile, Prod.mk.injEq, true_and]
      constructor
      · rintro rfl; exact .pointer
      · intro h; cases h; rfl
    · have : setByFile key (.ptr t) (f :: fs) v = (.err (.file key), v) := by
        cases t <;> first | rfl | exact absurd rfl ht
      rw [this]
      constructor
      · intro h; simp at h
      · intro h; cases h; exact absurd rfl ht
  | slice el ih =>
    intro f fs v w
    simp only [setByFile]
    have hs := setEachFile_spec (set := fun f x => setByFile key el [f] x) (P := fun f w => FilledBy el [f] w) (fun g x y => ih g [] x y) (f :: fs)
      (List.replicate (f :: fs).length .zero) (by simp)
    rcases hq : setEachFile (fun f x => setByFile key el [f] x) (f :: fs) (List.replicate (f :: fs).length .zero) with ⟨out, xs⟩
    rw [hq] at hs
    constructor
    · intro h
      cases out <;> simp at h
      subst h
      obtain ⟨a, b⟩ := (hs xs).1 rfl
      exact .slice a b
    · intro h
      cases h with
      | slice h1 h2 =>
        have := (hs _).2 ⟨h1, h2⟩
        cases this; rfl
  | array n el ih =>
    intro f fs v w
    simp only [setByFile]
    by_cases hn : n = (f :: fs).length
    · rw [if_neg (by simpa using hn)]
      have hs := setEachFile_spec (set := fun f x => setByFile key el [f] x) (P := fun f w => FilledBy el [f] w) (fun g x y => ih g [] x y) (f :: fs)
        (elemVals n v) (by rw [elemVals_length, hn])
      rcases hq : setEachFile (fun f x => setByFile key el [f] x) (f :: fs) (elemVals n v) with ⟨out, xs⟩
      rw [hq] at hs
      simp only [Prod.mk.injEq]
      constructor
      · rintro ⟨rfl, rfl⟩
        obtain ⟨a, b⟩ := (hs xs).1 rfl
        exact .array hn.symm (by rw [a, hn]) b
      · intro h
        cases h with
        | array h1 h2 h3 =>
          have := (hs _).2 ⟨by rw [h2, h1], h3⟩
          cases this; exact ⟨rfl, rfl⟩
    · rw [if_pos hn]
      constructor
      · intro h; simp at h
      · intro h
        cases h with
        | array h1 _ _ => exact absurd h1.symm hn
  | _ =>
    intro f fs v w
    simp only [setByFile, Prod.mk.injEq, reduceCtorEq, false_and, false_iff]
    intro h
    cases h

theorem setByFile_calm {key : Str} : ∀ (t : Ty) (fs : List Nat) (v : Val),
    (setByFile key t fs v).1 ≠ .fuel ∧ (setByFile key t fs v).1 ≠ .panic := by
  intro t
  induction t with
  | slice el ih =>
    intro fs v
    simp only [setByFile]
    have := setEachFile_calm (set := fun f x => setByFile key el [f] x) (fun g x => ih [g] x) fs (List.replicate fs.length .zero)
    rcases hq : setEachFile (fun f x => setByFile key el [f] x) fs (List.replicate fs.length .zero) with ⟨out, xs⟩
    rw [hq] at this
    cases out <;> first | exact absurd rfl this.1 | exact absurd rfl this.2 | simp
  | array n el ih =>
    intro fs v
    simp only [setByFile]
    split
    · simp
    · exact setEachFile_calm (set := fun f x => setByFile key el [f] x) (fun g x => ih [g] x) fs (elemVals n v)
  | ptr t ih =>
    intro fs v
    cases t <;> cases fs <;> simp [setByFile]
  | _ => intro fs v; cases fs <;> simp [setByFile]

/-! ### one field -/

theorem oldKey_eq {fd : Field} (h : fd.tag tag ≠ b!"-") :
    lookupName fd tag = if oldKey fd tag = [] then none else some (oldKey fd tag) := by
  unfold lookupName oldKey tagParts
  rw [if_neg h, (splitB_head 44 (fd.tag tag)).1]
  simp only [head_eq]
  cases hn : (fd.tag tag).takeWhile (· != 44) with
  | nil => simp
  | cons a l => simp

theorem oldDefault_eq (fd : Field) (tag : Str) : bindDefault fd tag = if oldDefault fd tag = [] then none else some (oldDefault fd tag) := by
  have h : oldDefault fd tag = (parseFormName fd tag).2.defaultValue := rfl
  obtain ⟨_, _, h3, h4⟩ := parseFormName_eq fd tag
  rw [h, h3]
  cases hb : bindDefault fd tag with
  | none => simp
  | some d =>
    have : d ≠ [] := by intro e; rw [hb, e] at h4; exact h4 rfl
    simp [this]

theorem givenFiles_eq {fd : Field} (h : fd.tag tag ≠ b!"-") : givenFiles src tag fd =
    if oldKey fd tag = [] then none else (src.files.at (oldKey fd tag)).filter (fun fs => fs ≠ []) := by
  unfold givenFiles
  rw [oldKey_eq h]
  split <;> simp

theorem given_eq {fd : Field} (h : fd.tag tag ≠ b!"-") (hf : givenFiles src tag fd = none) : given src tag fd =
    if oldKey fd tag = [] then none
    else
      match src.form.at (if src.header then canonKey (oldKey fd tag) else oldKey fd tag) with
      | some vs => some vs
      | none => if oldDefault fd tag = [] then none else some [oldDefault fd tag] := by
  unfold given
  rw [hf, oldKey_eq h, oldDefault_eq]
  by_cases hk : oldKey fd tag = []
  · simp [hk]
  · simp only [hk, if_false, ne_eq, not_true_eq_false, Option.bind_some]
    generalize src.form.at (if src.header = true then canonKey (oldKey fd tag) else oldKey fd tag) = S
    cases S with
    | some vs => rfl
    | none => dsimp only; split <;> rfl

/-- what `tryToSetValue` does, in the words of the specification -/
theorem try_cases {fd : Field} (h : fd.tag tag ≠ b!"-") (t : Ty) (v : Val) :
    (Silent src tag fd ∧ tryToSetValue o src tag fd t v = (.ok, false, v)) ∨
    (¬ Silent src tag fd ∧ fd.exported = false ∧ ∃ out, tryToSetValue o src tag fd t v = (out, true, v) ∧
      ((∃ f fs, givenFiles src tag fd = some (f :: fs) ∧ out = hiddenFile (oldKey fd tag) t (f :: fs) v) ∨
       ∃ ss, given src tag fd = some ss ∧ givenFiles src tag fd = none ∧ out = hiddenValues o fd t ss v)) ∨
    (∃ f fs, givenFiles src tag fd = some (f :: fs) ∧ fd.exported = true ∧ tryToSetValue o src tag fd t v =
      ((setByFile (oldKey fd tag) t (f :: fs) v).1, true, (setByFile (oldKey fd tag) t (f :: fs) v).2)) ∨
    (∃ ss, given src tag fd = some ss ∧ givenFiles src tag fd = none ∧ fd.exported = true ∧ tryToSetValue o src tag fd t v =
      ((setValues o fd t ss v).1, true, (setValues o fd t ss v).2)) := by
  have hg := givenFiles_eq (src := src) h
  unfold tryToSetValue
  by_cases hk : oldKey fd tag = []
  · rw [if_pos hk] at hg ⊢
    have := given_eq h hg
    rw [if_pos hk] at this
    exact Or.inl ⟨⟨this, hg⟩, rfl⟩
  · rw [if_neg hk] at hg ⊢
    by_cases hfs : ∃ f fs, src.files.at (oldKey fd tag) = some (f :: fs)
    · obtain ⟨f, fs, hfs⟩ := hfs
      unfold trySource
      rw [hfs] at hg ⊢
      simp at hg
      dsimp only
      cases hx : fd.exported with
      | false =>
        refine Or.inr (Or.inl ⟨?_, rfl, _, rfl, Or.inl ⟨f, fs, hg, rfl⟩⟩)
        intro hsil
        rw [hsil.2] at hg; cases hg
      | true => exact Or.inr (Or.inr (Or.inl ⟨f, fs, hg, rfl, rfl⟩))
    · have hnone : givenFiles src tag fd = none := by
        rw [hg]
        cases hat : src.files.at (oldKey fd tag) with
        | none => rfl
        | some l =>
          cases l with
          | nil => rfl
          | cons f fs => exact absurd ⟨f, fs, hat⟩ hfs
      have e : trySource o src fd (oldKey fd tag) (oldDefault fd tag) t v =
          setByForm o fd src.form (if src.header then canonKey (oldKey fd tag) else oldKey fd tag) (oldDefault fd tag) t v := by
        unfold trySource
        split
        · rename_i f fs hat; exact absurd ⟨f, fs, hat⟩ hfs
        · rfl
      rw [e]
      have hgv := given_eq h hnone
      rw [if_neg hk] at hgv
      unfold setByForm
      split
      · rename_i hS
        exact Or.inl ⟨⟨by rw [hgv]; exact hS, hnone⟩, rfl⟩
      · rename_i vs hS
        have hgv : given src tag fd = some vs := by rw [hgv]; exact hS
        cases hx : fd.exported with
        | false =>
          refine Or.inr (Or.inl ⟨?_, rfl, _, rfl, Or.inr ⟨vs, hgv, hnone, rfl⟩⟩)
          intro hsil
          rw [hsil.1] at hgv; cases hgv
        | true => exact Or.inr (Or.inr (Or.inr ⟨vs, hgv, hnone, rfl, rfl⟩))

theorem given_files {fd : Field} {fs : List Nat} (h : givenFiles src tag fd = some fs) : given src tag fd = none := by
  unfold given
  rw [if_pos (by rw [h]; simp)]

/-- An exported field about which something is said: it takes it, or there is an error. -/
theorem try_takes {fd : Field} (h : fd.tag tag ≠ b!"-") (hx : fd.exported = true) (hs : ¬ Silent src tag fd) {t : Ty} (hz : Sized2 t) (v : Val) :
    (∃ w, tryToSetValue o src tag fd t v = (.ok, true, w) ∧ Takes o src tag fd t v w) ∨
    (∃ e w, tryToSetValue o src tag fd t v = (.err e, true, w) ∧ ¬ ∃ w, Takes o src tag fd t v w) := by
  rcases try_cases (o := o) (src := src) h t v with ⟨h1, _⟩ | ⟨_, h2, _⟩ | ⟨f, fs, h1, _, h3⟩ | ⟨ss, h1, h2, _, h3⟩
  · exact absurd h1 hs
  · rw [hx] at h2; cases h2
  · rw [h3]
    have hc := setByFile_calm (key := oldKey fd tag) t (f :: fs) v
    have hp := setByFile_spec (key := oldKey fd tag) t f fs v
    rcases hr : setByFile (oldKey fd tag) t (f :: fs) v with ⟨out, w⟩
    rw [hr] at hc hp
    cases out with
    | ok => exact Or.inl ⟨w, rfl, .files h1 ((hp w).1 rfl)⟩
    | err e =>
      refine Or.inr ⟨e, w, rfl, ?_⟩
      rintro ⟨w', hw⟩
      cases hw with
      | files ha hb => rw [h1] at ha; cases ha; have := (hp w').2 hb; cases this
      | texts ha => rw [given_files h1] at ha; cases ha
    | panic => exact absurd rfl hc.2
    | fuel => exact absurd rfl hc.1
  · rw [h3]
    have hc := setValues_calm (o := o) (fd := fd) (t := t) (ss := ss) (v := v)
    have hp := fun w => setValues_spec (o := o) (fd := fd) hz (ss := ss) (v := v) (w := w)
    rcases hr : setValues o fd t ss v with ⟨out, w⟩
    rw [hr] at hc hp
    cases out with
    | ok => exact Or.inl ⟨w, rfl, .texts h1 ((hp w).1 rfl)⟩
    | err e =>
      refine Or.inr ⟨e, w, rfl, ?_⟩
      rintro ⟨w', hw⟩
      cases hw with
      | files ha => rw [h2] at ha; cases ha
      | texts ha hb => rw [h1] at ha; cases ha; have := (hp w').2 hb; cases this
    | panic => exact absurd rfl hc.2
    | fuel => exact absurd rfl hc.1

/-! ### unexported embedded fields -/

theorem setProper_outcome {fd : Field} {t : Ty} {s : Str} (ht : t ≠ .time) (hs : ∀ m, t ≠ .struct m) (hf : t ≠ .file)
    (hm : ∀ k e, t ≠ .map k e) (v v' : Val) : (setProper o fd t s v).1 = (setProper o fd t s v').1 := by
  cases t with
  | struct m => exact absurd rfl (hs m)
  | file => exact absurd rfl hf
  | map k e => exact absurd rfl (hm k e)
  | time => exact absurd rfl ht
  | _ =>
    simp only [setProper]
    try split <;> rfl

theorem hiddenProper_err {fd : Field} {t : Ty} (hz : Sized2 t) {s : Str} {e : BErr} (h : hiddenProper o fd t s = .err e) (v : Val) :
    ¬ ∃ w, Exact o fd t s v w := by
  rintro ⟨w, hw⟩
  have h1 := (setProper_spec hz).2 hw
  have key : t ≠ .time → (∀ m, t ≠ .struct m) → t ≠ .file → (∀ k e, t ≠ .map k e) → (setProper o fd t s .zero).1 = .ok := by
    intro a b c d
    rw [setProper_outcome a b c d .zero v, h1]
  cases t with
  | struct m => cases h
  | file => cases h
  | map k e => cases h
  | time => cases h
  | duration => cases h
  | _ =>
    have k := key (by simp) (by simp) (by simp) (by simp)
    unfold hiddenProper at h
    generalize setProper o fd _ s .zero = r at h k
    obtain ⟨out, x⟩ := r
    dsimp only at k
    subst k
    cases h

theorem hiddenProper_fuel {fd : Field} {t : Ty} {s : Str} : hiddenProper o fd t s ≠ .fuel := by
  intro h
  have hc := setProper_calm (o := o) (fd := fd) (t := t) (s := s) (v := .zero)
  cases t with
  | struct m => cases h
  | file => cases h
  | map k e => cases h
  | time => cases h
  | duration => cases h
  | _ =>
    unfold hiddenProper at h
    generalize setProper o fd _ s .zero = r at h hc
    obtain ⟨out, x⟩ := r
    cases out <;> first | exact hc.1 rfl | cases h

theorem hiddenValues_err {fd : Field} {t : Ty} (hz : Sized2 t) {ss : List Str} {v : Val} {e : BErr} (h : hiddenValues o fd t ss v = .err e) :
    ¬ ∃ w, Fills o fd t ss v w := by
  rintro ⟨w, hw⟩
  cases t with
  | slice el =>
    have h1 := (setValues_spec hz).2 hw
    simp only [hiddenValues, h1] at h
    cases h
  | array n el =>
    simp only [hiddenValues] at h
    cases hw with
    | one _ h2 => exact h2 _ _ rfl
    | array h1 h2 h3 =>
      rw [if_neg (by simp [h1])] at h
      cases ss with
      | nil => cases h
      | cons s ss =>
        rename_i ws
        cases ws with
        | nil => simp at h1 h2; omega
        | cons w ws => exact hiddenProper_err (t := el) hz h _ ⟨w, h3 0 s w rfl rfl⟩
  | _ =>
    cases hw with
    | one _ _ h1 => exact hiddenProper_err (s := ss.headD []) hz h _ ⟨_, h1⟩

theorem hiddenValues_fuel {fd : Field} {t : Ty} {ss : List Str} {v : Val} : hiddenValues o fd t ss v ≠ .fuel := by
  intro h
  cases t with
  | slice el =>
    have hc := setValues_calm (o := o) (fd := fd) (t := .slice el) (ss := ss) (v := v)
    simp only [hiddenValues] at h
    generalize setValues o fd _ ss v = r at h hc
    obtain ⟨out, x⟩ := r
    cases out <;> first | exact hc.1 rfl | cases h
  | array n el =>
    simp only [hiddenValues] at h
    split at h
    · cases h
    · cases ss with
      | nil => cases h
      | cons s ss => exact hiddenProper_fuel h
  | _ =>
    simp only [hiddenValues] at h
    exact hiddenProper_fuel h

theorem hiddenFile_err {key : Str} : ∀ (t : Ty) (f : Nat) (fs : List Nat) {v : Val} {e : BErr}, hiddenFile key t (f :: fs) v = .err e →
    ¬ ∃ w, FilledBy t (f :: fs) w := by
  intro t
  induction t with
  | slice el _ =>
    rintro f fs v e h ⟨w, hw⟩
    have h1 := (setByFile_spec (key := key) (.slice el) f fs v w).2 hw
    simp only [hiddenFile, h1] at h
    cases h
  | array n el ih =>
    rintro f fs v e h ⟨w, hw⟩
    cases hw with
    | array h1 h2 h3 =>
      rw [hiddenFile, if_neg (by simp [← h1])] at h
      rename_i ws
      cases ws with
      | nil => simp at h1 h2; omega
      | cons w ws => exact ih f [] h ⟨w, h3 0 f w rfl rfl⟩
  | ptr t _ => intro f fs v e h; cases h
  | struct m => intro f fs v e h; cases h
  | time => intro f fs v e h; cases h
  | file => intro f fs v e h; cases h
  | _ => rintro f fs v e h ⟨w, hw⟩; cases hw

theorem hiddenFile_fuel {key : Str} : ∀ (t : Ty) (fs : List Nat) (v : Val), hiddenFile key t fs v ≠ .fuel := by
  intro t
  induction t with
  | slice el _ =>
    intro fs v h
    have hc := setByFile_calm (key := key) (.slice el) fs v
    simp only [hiddenFile] at h
    generalize setByFile key _ fs v = r at h hc
    obtain ⟨out, x⟩ := r
    cases out <;> first | exact hc.1 rfl | cases h
  | array n el ih =>
    intro fs v h
    rw [hiddenFile] at h
    split at h
    · cases h
    · exact ih _ _ h
  | _ => intro fs v h; cases h

/-- An unexported field about which something is said: its value stays; an error means that it could not take it. -/
theorem try_hidden {fd : Field} (h : fd.tag tag ≠ b!"-") (hx : fd.exported = false) (hs : ¬ Silent src tag fd) {t : Ty} (hz : Sized2 t) (v : Val) :
    ∃ out, tryToSetValue o src tag fd t v = (out, true, v) ∧ out ≠ .fuel ∧ ∀ e, out = .err e → ¬ ∃ w, Takes o src tag fd t v w := by
  rcases try_cases (o := o) (src := src) h t v with ⟨h1, _⟩ | ⟨_, _, out, h1, ⟨f, fs, h2, h3⟩ | ⟨ss, h2, h3, h4⟩⟩ | ⟨_, _, _, h3, _⟩ | ⟨_, _, _, h3, _⟩
  · exact absurd h1 hs
  · refine ⟨out, h1, by rw [h3]; exact hiddenFile_fuel _ _ _, ?_⟩
    rintro e rfl ⟨w, hw⟩
    cases hw with
    | files ha hb => rw [h2] at ha; cases ha; exact hiddenFile_err t f fs h3.symm ⟨w, hb⟩
    | texts ha => rw [given_files h2] at ha; cases ha
  · refine ⟨out, h1, by rw [h4]; exact hiddenValues_fuel, ?_⟩
    rintro e rfl ⟨w, hw⟩
    cases hw with
    | files ha => rw [h3] at ha; cases ha
    | texts ha hb => rw [h2] at ha; cases ha; exact hiddenValues_err hz h4.symm ⟨w, hb⟩
  · rw [hx] at h3; cases h3
  · rw [hx] at h3; cases h3

theorem shown_self {fd : Field} (h : fd.exported = true) : shown fd = fd := by
  cases fd; cases h; rfl

theorem exact_shown {fd : Field} {t : Ty} {s : Str} {v w : Val} (h : Exact o fd t s v w) : Exact o (shown fd) t s v w := by
  cases h with
  | int a b => exact .int a b
  | uint a b => exact .uint a b
  | bool a => exact .bool a
  | duration a => exact .duration a
  | float a => exact .float a
  | string => exact .string
  | time a =>
    refine .time ?_
    cases a with
    | unix a b c => exact .unix a b c
    | nano a b c => exact .nano a b c
    | none a b => exact .none a b
    | parsed a b c d e f =>
      refine .parsed a b c ?_ e f
      cases d <;> constructor <;> assumption
  | json a b => exact .json a b

theorem takes_shown {fd : Field} {t : Ty} {v w : Val} (h : Takes o src tag fd t v w) : Takes o src tag (shown fd) t v w := by
  cases h with
  | files a b => exact .files a b
  | texts a b =>
    refine .texts a ?_
    cases b with
    | one a b c => exact .one a b (exact_shown c)
    | slice a b => exact .slice a (fun i s w x y => exact_shown (b i s w x y))
    | array a b c => exact .array a b (fun i s w x y => exact_shown (c i s w x y))

/-! ### the loop over the fields -/

theorem visible_iff {fd : Field} : (!fd.exported && !fd.anonymous) = true ↔ ¬ Visible fd := by
  unfold Visible
  cases fd.exported <;> cases fd.anonymous <;> simp

theorem mapLoop_spec (step : Field → Val → BOut × Bool × Val) (fds : List Field) (vs : List Val) :
    (mapLoop step fds vs).2.2.length = vs.length ∧
    (∀ (i : Nat) fd x, fds[i]? = some fd → vs[i]? = some x → ¬ Visible fd → (mapLoop step fds vs).2.2[i]? = some x) ∧
    (((mapLoop step fds vs).1 = .ok ∧
      (∀ (i : Nat) fd x, fds[i]? = some fd → vs[i]? = some x → Visible fd →
        ∃ s y, step fd x = (.ok, s, y) ∧ (mapLoop step fds vs).2.2[i]? = some y ∧ (s = true → (mapLoop step fds vs).2.1 = true)) ∧
      ((mapLoop step fds vs).2.1 = true → ∃ (i : Nat) (fd : Field) (x y : Val), fds[i]? = some fd ∧ vs[i]? = some x ∧ Visible fd ∧
        step fd x = (.ok, true, y))) ∨
    (∃ (k : Nat) (fd : Field) (x y : Val) (s : Bool), fds[k]? = some fd ∧ vs[k]? = some x ∧ Visible fd ∧
      step fd x = ((mapLoop step fds vs).1, s, y) ∧
      (mapLoop step fds vs).1 ≠ .ok ∧ (mapLoop step fds vs).2.2[k]? = some y ∧
      (∀ (i : Nat) fd x, i < k → fds[i]? = some fd → vs[i]? = some x → Visible fd →
        ∃ s y, step fd x = (.ok, s, y) ∧ (mapLoop step fds vs).2.2[i]? = some y) ∧
      (∀ i : Nat, k < i → (mapLoop step fds vs).2.2[i]? = vs[i]?))) := by
  induction fds generalizing vs with
  | nil =>
    refine ⟨by simp [mapLoop], by simp, Or.inl ⟨by simp [mapLoop], by simp, by simp [mapLoop]⟩⟩
  | cons fd fds ih =>
    cases vs with
    | nil => exact ⟨rfl, by simp, Or.inl ⟨rfl, by simp, by simp [mapLoop]⟩⟩
    | cons v vs =>
      obtain ⟨ihl, ihv, ih⟩ := ih vs
      by_cases hvis : Visible fd
      · have hb : (!fd.exported && !fd.anonymous) = false := by
          cases hb : (!fd.exported && !fd.anonymous) with
          | false => rfl
          | true => exact absurd hvis (visible_iff.1 hb)
        rcases hs : step fd v with ⟨out, ok, x⟩
        by_cases ho : out = .ok
        · subst ho
          rcases hr : mapLoop step fds vs with ⟨out', set', xs⟩
          rw [hr] at ihl ihv ih
          have e : mapLoop step (fd :: fds) (v :: vs) = (out', ok || set', x :: xs) := by
            conv => lhs; unfold mapLoop
            rw [hb, hs, hr]; rfl
          rw [e]
          refine ⟨by simpa using ihl, ?_, ?_⟩
          · intro i fd' x' hi hv hn
            cases i with
            | zero => simp at hi; subst hi; exact absurd hvis hn
            | succ i => simpa using ihv i fd' x' (by simpa using hi) (by simpa using hv) hn
          · rcases ih with ⟨h1, h2, h3⟩ | ⟨k, fd', x', y', s', h1, h2, h3, h4, h5, h6, h7, h8⟩
            · left
              refine ⟨h1, ?_, ?_⟩
              · intro i fd' x' hi hv hvs
                cases i with
                | zero =>
                  simp at hi hv; subst hi; subst hv
                  exact ⟨ok, x, hs, rfl, by intro h; simp [h]⟩
                | succ i =>
                  obtain ⟨s, y, ha, hb, hc⟩ := h2 i fd' x' (by simpa using hi) (by simpa using hv) hvs
                  exact ⟨s, y, ha, by simpa using hb, by intro h; have := hc h; simp at this; simp [this]⟩
              · intro h
                simp only [Bool.or_eq_true] at h
                rcases h with h | h
                · exact ⟨0, fd, v, x, rfl, rfl, hvis, by rw [hs, h]⟩
                · obtain ⟨i, fd', x', y', ha, hb, hc, hd⟩ := h3 h
                  exact ⟨i + 1, fd', x', y', by simpa using ha, by simpa using hb, hc, hd⟩
            · right
              refine ⟨k + 1, fd', x', y', s', by simpa using h1, by simpa using h2, h3, h4, h5, by simpa using h6, ?_, ?_⟩
              · intro i fd'' x'' hik hi hv hvs
                cases i with
                | zero => simp at hi hv; subst hi; subst hv; exact ⟨ok, x, hs, rfl⟩
                | succ i => exact h7 i fd'' x'' (by omega) (by simpa using hi) (by simpa using hv) hvs
              · intro i hik
                cases i with
                | zero => omega
                | succ i => simpa using h8 i (by omega)
        · have e : mapLoop step (fd :: fds) (v :: vs) = (out, ok, x :: vs) := by
            conv => lhs; unfold mapLoop
            rw [hb, hs]
            cases out <;> first | exact absurd rfl ho | rfl
          rw [e]
          refine ⟨rfl, ?_, Or.inr ⟨0, fd, v, x, ok, rfl, rfl, hvis, hs, ho, rfl, by intros; omega, ?_⟩⟩
          · intro i fd' x' hi hv hn
            cases i with
            | zero => simp at hi; subst hi; exact absurd hvis hn
            | succ i => simpa using hv
          · intro i hi
            cases i with
            | zero => omega
            | succ i => rfl
      · have hb : (!fd.exported && !fd.anonymous) = true := visible_iff.2 hvis
        rcases hr : mapLoop step fds vs with ⟨out', set', xs⟩
        rw [hr] at ihl ihv ih
        have e : mapLoop step (fd :: fds) (v :: vs) = (out', set', v :: xs) := by
          conv => lhs; unfold mapLoop
          rw [hb, hr]; rfl
        rw [e]
        refine ⟨by simpa using ihl, ?_, ?_⟩
        · intro i fd' x' hi hv hn
          cases i with
          | zero => simpa using hv
          | succ i => simpa using ihv i fd' x' (by simpa using hi) (by simpa using hv) hn
        · rcases ih with ⟨h1, h2, h3⟩ | ⟨k, fd', x', y', s', h1, h2, h3, h4, h5, h6, h7, h8⟩
          · left
            refine ⟨h1, ?_, ?_⟩
            · intro i fd' x' hi hv hvs
              cases i with
              | zero => simp at hi; subst hi; exact absurd hvs hvis
              | succ i => simpa using h2 i fd' x' (by simpa using hi) (by simpa using hv) hvs
            · intro h
              obtain ⟨i, fd', x', y', ha, hb, hc, hd⟩ := h3 h
              exact ⟨i + 1, fd', x', y', by simpa using ha, by simpa using hb, hc, hd⟩
          · right
            refine ⟨k + 1, fd', x', y', s', by simpa using h1, by simpa using h2, h3, h4, h5, by simpa using h6, ?_, ?_⟩
            · intro i fd'' x'' hik hi hv hvs
              cases i with
              | zero => simp at hi; subst hi; exact absurd hvs hvis
              | succ i => exact h7 i fd'' x'' (by omega) (by simpa using hi) (by simpa using hv) hvs
            · intro i hik
              cases i with
              | zero => omega
              | succ i => simpa using h8 i (by omega)

/-! ### a field through its pointers -/

/-- the fields of struct type `n`, one after the other -/
def walkAll (o : BOracle) (E : TyEnv) (src : Source) (tag : Str) (f n : Nat) (v : Val) : BOut × Bool × List Val :=
  mapLoop (fun fd x => mapping o E src tag f fd.ty fd x) (E n) (fieldVals (E n).length v)

theorem mapping_ptr {f : Nat} {t : Ty} {fd : Field} {v : Val} (h : fd.tag tag ≠ b!"-") :
    mapping o E src tag (f + 1) (.ptr t) fd v = mapPointer fd v (fun fd x => mapping o E src tag f t fd x) := by
  conv => lhs; unfold mapping
  rw [if_neg h]

theorem mapping_plain {f : Nat} {t : Ty} {fd : Field} {v : Val} (h : fd.tag tag ≠ b!"-") (ht : ∀ t', t ≠ .ptr t') :
    mapping o E src tag (f + 1) t fd v =
      match (if t.isStruct && fd.anonymous then (.ok, false, v) else tryToSetValue o src tag fd t v) with
      | (.ok, false, x) => mapStruct E (fun fd x => mapping o E src tag f fd.ty fd x) t x
      | r => r := by
  conv => lhs; unfold mapping
  rw [if_neg h]
  cases t <;> first | rfl | exact absurd rfl (ht _)

theorem mapping_skip {f : Nat} {t : Ty} {fd : Field} {v : Val} (h : fd.tag tag ≠ b!"-") (ht : ∀ t', t ≠ .ptr t')
    (hs : (t.isStruct = true ∧ fd.anonymous = true) ∨ Silent src tag fd) :
    mapping o E src tag (f + 1) t fd v = mapStruct E (fun fd x => mapping o E src tag f fd.ty fd x) t v := by
  rw [mapping_plain h ht]
  have e : (if t.isStruct && fd.anonymous then (BOut.ok, false, v) else tryToSetValue o src tag fd t v) = (.ok, false, v) := by
    rcases hs with hs | hs
    · rw [hs.1, hs.2]; rfl
    · split
      · rfl
      · rcases try_cases (o := o) (src := src) h t v with ⟨_, h1⟩ | ⟨h1, _⟩ | ⟨f, fs, h1, _⟩ | ⟨ss, h1, _⟩
        · exact h1
        · exact absurd hs h1
        · rw [hs.2] at h1; cases h1
        · rw [hs.1] at h1; cases h1
  rw [e]

theorem bare_notPtr (t t' : Ty) : bare t ≠ .ptr t' := by
  induction t with
  | ptr t ih => exact ih
  | _ => simp [bare]

theorem bare_self {t : Ty} (h : ∀ t', t ≠ .ptr t') : bare t = t := by
  cases t <;> first | rfl | exact absurd rfl (h _)

theorem under_self {v : Val} (h : ∀ w, v ≠ .ptr w) : under v = v := by
  cases v <;> first | rfl | exact absurd rfl (h _)

theorem hasTy_plain {t : Ty} {v : Val} (ht : ∀ t', t ≠ .ptr t') (h : HasTy E t v) (w : Val) : v ≠ .ptr w := by
  cases h with
  | zero => simp
  | struct => simp
  | ptr => exact absurd rfl (ht _)
  | plain _ _ h => exact h w

theorem hasTy_ptr {t : Ty} {v : Val} (h : HasTy E (.ptr t) v) : v = .zero ∨ ∃ x, v = .ptr x ∧ HasTy E t x := by
  cases h with
  | zero => exact Or.inl rfl
  | ptr h => exact Or.inr ⟨_, rfl, h⟩
  | plain _ h => exact absurd rfl (h _)

theorem hasTy_under {t : Ty} {v : Val} (h : HasTy E t v) : HasTy E (bare t) (under v) := by
  induction t generalizing v with
  | ptr t ih =>
    rcases hasTy_ptr h with rfl | ⟨x, rfl, hx⟩
    · exact .zero
    · exact ih (v := x) hx
  | _ =>
    rw [bare_self (by intro t' h; cases h), under_self (fun w => hasTy_plain (by intro t' h; cases h) h w)]
    exact h

theorem isPtr (t : Ty) : (∃ t', t = .ptr t') ∨ ∀ t', t ≠ .ptr t' := by
  cases t <;> first | exact Or.inl ⟨_, rfl⟩ | (right; intro t' h; cases h)

/-- An exported field that takes a value of its own and about which something is said. -/
theorem own_takes {fd : Field} (h : fd.tag tag ≠ b!"-") (hx : fd.exported = true) (hs : ¬ Silent src tag fd) (f : Nat) :
    ∀ {t : Ty}, (fd.anonymous = true → (bare t).isStruct = false) → Sized2 t → ∀ {v : Val}, HasTy E t v →
    (mapping o E src tag f t fd v).1 = .fuel ∨
    (∃ w y, mapping o E src tag f t fd v = (.ok, true, w) ∧ Takes o src tag fd (bare t) (under v) y ∧ under w = under y) ∨
    (∃ e s w, mapping o E src tag f t fd v = (.err e, s, w) ∧ ¬ ∃ w, Takes o src tag fd (bare t) (under v) w) := by
  induction f with
  | zero => intro t ha hz v hv; exact Or.inl rfl
  | succ f ih =>
    intro t ha hz v hv
    rcases isPtr t with ⟨t', rfl⟩ | ht
    · rw [mapping_ptr h]
      rcases hasTy_ptr hv with rfl | ⟨x, rfl, hx'⟩
      · have := ih (t := t') ha hz (v := .zero) .zero
        simp only [mapPointer, shown_self hx]
        rcases hr : mapping o E src tag f t' fd .zero with ⟨out, set, w⟩
        rw [hr] at this
        rcases this with h1 | ⟨w', y, h1, h2, h3⟩ | ⟨e, s, w', h1, h2⟩
        · dsimp only at h1; subst h1; exact Or.inl rfl
        · cases h1
          refine Or.inr (Or.inl ⟨.ptr w, y, ?_, h2, h3⟩)
          simp [hx]
        · cases h1
          exact Or.inr (Or.inr ⟨e, set, .zero, rfl, h2⟩)
      · have := ih (t := t') ha hz hx'
        simp only [mapPointer]
        rcases hr : mapping o E src tag f t' fd x with ⟨out, set, w⟩
        rw [hr] at this
        rcases this with h1 | ⟨w', y, h1, h2, h3⟩ | ⟨e, s, w', h1, h2⟩
        · dsimp only at h1; subst h1; exact Or.inl rfl
        · cases h1
          exact Or.inr (Or.inl ⟨.ptr w, y, rfl, h2, h3⟩)
        · cases h1
          exact Or.inr (Or.inr ⟨e, set, .ptr w, rfl, h2⟩)
    · rw [mapping_plain h ht]
      rw [bare_self ht] at ha ⊢
      rw [under_self (hasTy_plain ht hv)]
      have hc : (t.isStruct && fd.anonymous) = false := by
        cases hb : fd.anonymous with
        | false => simp
        | true => rw [ha hb]; rfl
      rw [hc]
      rcases try_takes (o := o) h hx hs hz v with ⟨w, h1, h2⟩ | ⟨e, w, h1, h2⟩
      · rw [if_neg (by simp), h1]
        exact Or.inr (Or.inl ⟨w, w, rfl, h2, rfl⟩)
      · rw [if_neg (by simp), h1]
        exact Or.inr (Or.inr ⟨e, true, w, rfl, h2⟩)

/-- A field that is no struct and about which nothing is said is left alone; also an embedded time or file. -/
theorem own_silent {fd : Field} (f : Nat) : ∀ (t : Ty),
    (Silent src tag fd ∨ fd.tag tag = b!"-" ∨ (fd.anonymous = true ∧ (bare t).isStruct = true)) →
    (∀ m, bare t ≠ .struct m) → ∀ {v : Val}, HasTy E t v →
    (mapping o E src tag f t fd v).2.2 = v ∧ ((mapping o E src tag f t fd v).1 = .fuel ∨ mapping o E src tag f t fd v = (.ok, false, v)) := by
  by_cases h : fd.tag tag = b!"-"
  · intro t _ _ v _
    cases f with
    | zero => exact ⟨rfl, Or.inl rfl⟩
    | succ f =>
      have : mapping o E src tag (f + 1) t fd v = (.ok, false, v) := by unfold mapping; rw [if_pos h]
      rw [this]; exact ⟨rfl, Or.inr rfl⟩
  induction f generalizing fd with
  | zero => intro t hs ha v hv; exact ⟨rfl, Or.inl rfl⟩
  | succ f ih =>
    intro t hs ha v hv
    rcases isPtr t with ⟨t', rfl⟩ | ht
    · rw [mapping_ptr h]
      rcases hasTy_ptr hv with rfl | ⟨x, rfl, hx'⟩
      · have := ih (fd := shown fd) h t' hs ha (v := .zero) .zero
        simp only [mapPointer]
        rcases hr : mapping o E src tag f t' (shown fd) .zero with ⟨out, set, w⟩
        rw [hr] at this
        obtain ⟨h0, h1 | h1⟩ := this
        · dsimp only at h1; subst h1; exact ⟨rfl, Or.inl rfl⟩
        · cases h1; exact ⟨rfl, Or.inr rfl⟩
      · have := ih (fd := fd) h t' hs ha hx'
        simp only [mapPointer]
        rcases hr : mapping o E src tag f t' fd x with ⟨out, set, w⟩
        rw [hr] at this
        obtain ⟨h0, h1 | h1⟩ := this
        · dsimp only at h0 h1; subst h0 h1; exact ⟨rfl, Or.inl rfl⟩
        · cases h1; exact ⟨rfl, Or.inr rfl⟩
    · rw [bare_self ht] at ha hs
      rw [mapping_skip h ht (by
        rcases hs with hs | hs | hs
        · exact Or.inr hs
        · exact absurd hs h
        · exact Or.inl ⟨hs.2, hs.1⟩)]
      have : mapStruct E (fun fd x => mapping o E src tag f fd.ty fd x) t v = (.ok, false, v) := by
        cases t <;> first | rfl | exact absurd rfl (ha _)
      rw [this]; exact ⟨rfl, Or.inr rfl⟩

/-- A struct that is walked through. -/
theorem through {fd : Field} (h : fd.tag tag ≠ b!"-") (hs : fd.anonymous = true ∨ Silent src tag fd) {m : Nat} (f : Nat) :
    ∀ {t : Ty}, bare t = .struct m → ∀ {v : Val}, HasTy E t v →
    ((mapping o E src tag f t fd v).1 = .fuel ∧ (mapping o E src tag f t fd v).2.2 = v) ∨
    ∃ f', f' < f ∧ ((mapping o E src tag f t fd v).1 = (walkAll o E src tag f' m (under v)).1 ∨
        ((walkAll o E src tag f' m (under v)).1 = .ok ∧ (mapping o E src tag f t fd v).1 = .panic ∧ fd.exported = false ∧
          ∃ t', t = .ptr t')) ∧
      (mapping o E src tag f t fd v).2.1 = (walkAll o E src tag f' m (under v)).2.1 ∧
      (under (mapping o E src tag f t fd v).2.2 = .struct (walkAll o E src tag f' m (under v)).2.2 ∨
        ((mapping o E src tag f t fd v).2.2 = v ∧ under v = .zero)) ∧
      ((mapping o E src tag f t fd v).1 = .ok → (mapping o E src tag f t fd v).2.1 = true →
        under (mapping o E src tag f t fd v).2.2 = .struct (walkAll o E src tag f' m (under v)).2.2) := by
  induction f generalizing fd with
  | zero => intro t ht v hv; exact Or.inl ⟨rfl, rfl⟩
  | succ f ih =>
    intro t hb v hv
    rcases isPtr t with ⟨t', rfl⟩ | ht
    · rw [mapping_ptr h]
      rcases hasTy_ptr hv with rfl | ⟨x, rfl, hx'⟩
      · have := ih (fd := shown fd) h hs (t := t') hb (v := .zero) .zero
        simp only [mapPointer]
        rcases hr : mapping o E src tag f t' (shown fd) .zero with ⟨out, set, w⟩
        rw [hr] at this
        rcases this with ⟨h1, h2⟩ | ⟨f', h0, h1, h2, h3, h4⟩
        · dsimp only at h1; subst h1; exact Or.inl ⟨rfl, rfl⟩
        · refine Or.inr ⟨f', by omega, ?_⟩
          dsimp only at h1 h2 h3 h4
          cases out with
          | ok =>
            cases set with
            | false =>
              dsimp only
              exact ⟨(by rcases h1 with h1 | ⟨_, h1, _⟩; exact Or.inl h1; cases h1), h2, Or.inr ⟨rfl, rfl⟩, by simp⟩
            | true =>
              dsimp only
              have h4 := h4 rfl rfl
              have h1 : BOut.ok = (walkAll o E src tag f' m (under .zero)).1 := by rcases h1 with h1 | ⟨_, h1, _⟩; exact h1; cases h1
              cases hx : fd.exported with
              | true => exact ⟨Or.inl h1, h2, Or.inl h4, fun _ _ => h4⟩
              | false => exact ⟨Or.inr ⟨h1.symm, rfl, rfl, t', rfl⟩, h2, Or.inr ⟨rfl, rfl⟩, by intro h; cases h⟩
          | err e =>
            exact ⟨(by rcases h1 with h1 | ⟨_, h1, _⟩; exact Or.inl h1; cases h1), h2, Or.inr ⟨rfl, rfl⟩, by intro h; cases h⟩
          | panic =>
            exact ⟨(by rcases h1 with h1 | ⟨_, _, h3, _⟩; exact Or.inl h1; cases h3), h2, Or.inr ⟨rfl, rfl⟩, by intro h; cases h⟩
          | fuel =>
            exact ⟨(by rcases h1 with h1 | ⟨_, h1, _⟩; exact Or.inl h1; cases h1), h2, Or.inr ⟨rfl, rfl⟩, by intro h; cases h⟩
      · have := ih h hs (t := t') hb hx'
        simp only [mapPointer]
        rcases hr : mapping o E src tag f t' fd x with ⟨out, set, w⟩
        rw [hr] at this
        rcases this with ⟨h1, h2⟩ | ⟨f', h0, h1, h2, h3, h4⟩
        · dsimp only at h1 h2; subst h1 h2; exact Or.inl ⟨rfl, rfl⟩
        · refine Or.inr ⟨f', by omega, ?_, h2, ?_, h4⟩
          · rcases h1 with h1 | ⟨a, b, c, _⟩
            · exact Or.inl h1
            · exact Or.inr ⟨a, b, c, t', rfl⟩
          · rcases h3 with h3 | ⟨h3, h3'⟩
            · exact Or.inl h3
            · exact Or.inr ⟨by dsimp only at h3; rw [h3], h3'⟩
    · rw [bare_self ht] at hb
      subst hb
      have hvn := hasTy_plain ht hv
      rw [under_self hvn, mapping_skip h ht (by rcases hs with hs | hs; exact Or.inl ⟨rfl, hs⟩; exact Or.inr hs)]
      exact Or.inr ⟨f, by omega, Or.inl rfl, rfl, Or.inl rfl, fun _ _ => rfl⟩

/-! ### paths -/

theorem under_idem (v : Val) (w : Val) : under v ≠ .ptr w := by
  cases v with
  | ptr v => exact under_idem v w
  | _ => simp [under]

theorem reach_under {x : Val} {p : List Nat} (hp : p ≠ []) : reach (under x) p = reach x p := by
  cases p with
  | nil => exact absurd rfl hp
  | cons i p => simp only [reach, under_self (under_idem x)]

theorem reach_zero (p : List Nat) : reach .zero p = .zero := by
  cases p <;> rfl

theorem reach_at {vs : List Val} {i : Nat} {x : Val} (h : vs[i]? = some x) (p : List Nat) : reach (.struct vs) (i :: p) = reach x p := by
  simp [reach, under, h]

theorem reach_field {n i : Nat} {v x : Val} (hv : HasTy E (.struct n) v) (h : (fieldVals (E n).length v)[i]? = some x) (p : List Nat) :
    reach v (i :: p) = reach x p := by
  cases hv with
  | zero =>
    have : x = .zero := List.eq_of_mem_replicate (List.mem_of_getElem? h)
    rw [this, reach_zero, reach_zero]
  | struct => exact reach_at h p
  | plain h => exact absurd rfl (h n)

theorem reaches_path {n : Nat} {v : Val} {p : List Nat} {fd : Field} {x : Val} (h : Reaches E src tag n v p fd x) : p ≠ [] := by
  cases h <;> simp

theorem reaches_tag {n : Nat} {v : Val} {p : List Nat} {fd : Field} {x : Val} (h : Reaches E src tag n v p fd x) :
    fd.tag tag ≠ b!"-" ∧ Visible fd := by
  induction h with
  | here _ _ h1 h2 => exact ⟨h2, h1⟩
  | inside _ _ _ _ _ _ _ ih => exact ih

theorem reaches_mem {n : Nat} {v : Val} {p : List Nat} {fd : Field} {x : Val} (h : Reaches E src tag n v p fd x) : ∃ m, fd ∈ E m := by
  induction h with
  | here h1 => exact ⟨_, List.mem_of_getElem? h1⟩
  | inside _ _ _ _ _ _ _ ih => exact ih

theorem hasTy_inside {fd : Field} {x : Val} {m : Nat} (h : HasTy E fd.ty x) (hb : bare fd.ty = .struct m) : HasTy E (.struct m) (under x) := by
  rw [← hb]; exact hasTy_under h

theorem reaches_hasTy {n : Nat} {v : Val} {p : List Nat} {fd : Field} {x : Val} (h : Reaches E src tag n v p fd x)
    (hv : HasTy E (.struct n) v) : HasTy E fd.ty x := by
  induction h with
  | here h1 h2 => exact hasTy_field hv h1 h2
  | inside h1 h2 _ _ hb _ _ ih => exact ih (hasTy_inside (hasTy_field hv h1 h2) hb)

theorem reaches_reach {n : Nat} {v : Val} {p : List Nat} {fd : Field} {x : Val} (h : Reaches E src tag n v p fd x)
    (hv : HasTy E (.struct n) v) : reach v p = x := by
  induction h with
  | here h1 h2 => rw [reach_field hv h2]; rfl
  | inside h1 h2 _ _ hb _ hr ih =>
    rw [reach_field hv h2, ← reach_under (reaches_path hr)]
    exact ih (hasTy_inside (hasTy_field hv h1 h2) hb)

theorem reaches_append {n : Nat} {v : Val} {p : List Nat} {fd : Field} {x : Val} (h : Reaches E src tag n v p fd x)
    {m : Nat} (hb : bare fd.ty = .struct m) (hs : fd.anonymous = true ∨ Silent src tag fd) {q : List Nat} {fd' : Field} {z : Val}
    (hq : Reaches E src tag m (under x) q fd' z) : Reaches E src tag n v (p ++ q) fd' z := by
  induction h with
  | here h1 h2 h3 h4 => exact .inside h1 h2 h3 h4 hb hs hq
  | inside h1 h2 h3 h4 h5 h6 _ ih => exact .inside h1 h2 h3 h4 h5 h6 (ih hb hs hq)

/-! ### what becomes of a field -/

theorem at_step {step : Field → Val → BOut × Bool × Val} {fds : List Field} {vs : List Val} {i : Nat} {fd : Field} {x : Val}
    (h1 : fds[i]? = some fd) (h2 : vs[i]? = some x) (h3 : Visible fd) :
    ((mapLoop step fds vs).1 = .ok → (step fd x).1 = .ok ∧ (mapLoop step fds vs).2.2[i]? = some (step fd x).2.2 ∧
      ((step fd x).2.1 = true → (mapLoop step fds vs).2.1 = true)) ∧
    ((mapLoop step fds vs).2.2[i]? = some x ∨ (mapLoop step fds vs).2.2[i]? = some (step fd x).2.2) := by
  obtain ⟨_, _, h | ⟨k, fd', x', y', s', a1, a2, a3, a4, a5, a6, a7, a8⟩⟩ := mapLoop_spec step fds vs
  · obtain ⟨s, y, b1, b2, b3⟩ := h.2.1 i fd x h1 h2 h3
    rw [b1]
    exact ⟨fun _ => ⟨rfl, b2, b3⟩, Or.inr b2⟩
  · refine ⟨fun h => absurd h a5, ?_⟩
    rcases Nat.lt_trichotomy i k with hik | hik | hik
    · obtain ⟨s, y, b1, b2⟩ := a7 i fd x hik h1 h2 h3
      rw [b1]; exact Or.inr b2
    · subst hik
      rw [h1] at a1; cases a1
      rw [h2] at a2; cases a2
      rw [a4]; exact Or.inr a6
    · left; rw [a8 i hik, h2]

/-- What becomes of a reached field inside field `i`, in terms of mapping it alone. -/
theorem fate_at {n : Nat} {v : Val} {p : List Nat} {fd : Field} {x : Val} (h : Reaches E src tag n v p fd x) (hv : HasTy E (.struct n) v) :
    ∃ (i : Nat) (p' : List Nat) (fd₀ : Field) (x₀ : Val), p = i :: p' ∧ (E n)[i]? = some fd₀ ∧ (fieldVals (E n).length v)[i]? = some x₀ ∧
      Visible fd₀ ∧ reach x₀ p' = x ∧ ∀ f, ∃ f', f' ≤ f ∧
      ((mapping o E src tag f fd₀.ty fd₀ x₀).1 = .ok → (mapping o E src tag f' fd.ty fd x).1 = .ok ∧
        ((mapping o E src tag f' fd.ty fd x).2.1 = true → (mapping o E src tag f fd₀.ty fd₀ x₀).2.1 = true)) ∧
      (reach (mapping o E src tag f fd₀.ty fd₀ x₀).2.2 p' = x ∨
        reach (mapping o E src tag f fd₀.ty fd₀ x₀).2.2 p' = (mapping o E src tag f' fd.ty fd x).2.2) ∧
      ((mapping o E src tag f fd₀.ty fd₀ x₀).1 = .ok → (mapping o E src tag f' fd.ty fd x).2.1 = true →
        reach (mapping o E src tag f fd₀.ty fd₀ x₀).2.2 p' = (mapping o E src tag f' fd.ty fd x).2.2) := by
  induction h with
  | @here n v i fd x h1 h2 h3 h4 =>
    exact ⟨i, [], fd, x, rfl, h1, h2, h3, rfl, fun f => ⟨f, Nat.le_refl f, fun h => ⟨h, id⟩, Or.inr rfl, fun _ _ => rfl⟩⟩
  | @inside n v i fd₀ x₀ m p fd z h1 h2 h3 h4 h5 h6 h7 ih =>
    have hty := hasTy_inside (hasTy_field hv h1 h2) h5
    have hr0 : reach x₀ p = z := by rw [← reach_under (reaches_path h7)]; exact reaches_reach h7 hty
    refine ⟨i, p, fd₀, x₀, rfl, h1, h2, h3, hr0, ?_⟩
    intro f
    obtain ⟨j, p', fd₁, x₁, e1, e2, e3, e4, e5, e6⟩ := ih hty
    rcases through (o := o) (E := E) h4 h6 f h5 (hasTy_field hv h1 h2) with ⟨t1, t2⟩ | ⟨g, t0, t1, t2, t3, t4⟩
    · refine ⟨f, Nat.le_refl f, ?_, ?_, ?_⟩
      · rw [t1]; intro h; cases h
      · left; rw [t2, hr0]
      · rw [t1]; intro h; cases h
    · obtain ⟨f', g1, g2, g3, g4⟩ := e6 g
      obtain ⟨s1, s2⟩ := at_step (step := fun fd x => mapping o E src tag g fd.ty fd x) e2 e3 e4
      refine ⟨f', by omega, ?_, ?_, ?_⟩
      · intro hok
        have hw : (walkAll o E src tag g m (under x₀)).1 = .ok := by
          rcases t1 with t1 | ⟨t1, _⟩
          · rw [← t1, hok]
          · exact t1
        obtain ⟨a1, a2, a3⟩ := s1 hw
        obtain ⟨b1, b2⟩ := g2 a1
        exact ⟨b1, fun h => by rw [t2]; exact a3 (b2 h)⟩
      · rcases t3 with t3 | ⟨t3, _⟩
        · rw [← reach_under (reaches_path h7), t3, e1]
          rcases s2 with s2 | s2
          · left
            unfold walkAll; rw [reach_at s2, e5]
          · unfold walkAll; rw [reach_at s2]; exact g3
        · left; rw [t3, hr0]
      · intro hok hset
        have hw : (walkAll o E src tag g m (under x₀)).1 = .ok := by
          rcases t1 with t1 | ⟨t1, _⟩
          · rw [← t1, hok]
          · exact t1
        obtain ⟨a1, a2, a3⟩ := s1 hw
        obtain ⟨b1, b2⟩ := g2 a1
        have hs : (mapping o E src tag f fd₀.ty fd₀ x₀).2.1 = true := by rw [t2]; exact a3 (b2 hset)
        rw [← reach_under (reaches_path h7), t4 hok hs, e1]
        unfold walkAll; rw [reach_at a2]; exact g4 a1 hset

theorem fate2 {n : Nat} {v : Val} {p : List Nat} {fd : Field} {x : Val} (h : Reaches E src tag n v p fd x) (hv : HasTy E (.struct n) v) (f : Nat) :
    ∃ f', f' ≤ f ∧ ((walkAll o E src tag f n v).1 = .ok → (mapping o E src tag f' fd.ty fd x).1 = .ok ∧
        ((mapping o E src tag f' fd.ty fd x).2.1 = true → reach (.struct (walkAll o E src tag f n v).2.2) p = (mapping o E src tag f' fd.ty fd x).2.2)) ∧
      (reach (.struct (walkAll o E src tag f n v).2.2) p = x ∨
        reach (.struct (walkAll o E src tag f n v).2.2) p = (mapping o E src tag f' fd.ty fd x).2.2) := by
  obtain ⟨i, p', fd₀, x₀, e1, e2, e3, e4, e5, e6⟩ := fate_at (o := o) h hv
  obtain ⟨f', g0, g2, g3, g4⟩ := e6 f
  obtain ⟨s1, s2⟩ := at_step (step := fun fd x => mapping o E src tag f fd.ty fd x) e2 e3 e4
  subst e1
  refine ⟨f', g0, ?_, ?_⟩
  · intro hok
    obtain ⟨a1, a2, a3⟩ := s1 hok
    obtain ⟨b1, b2⟩ := g2 a1
    refine ⟨b1, fun hset => ?_⟩
    unfold walkAll; rw [reach_at a2]; exact g4 a1 hset
  · unfold walkAll
    rcases s2 with s2 | s2
    · left; rw [reach_at s2, e5]
    · rw [reach_at s2]; exact g3

/-- a nil pointer is replaced only if something was set behind it -/
theorem nil_kept {f : Nat} {t : Ty} {fd : Field} (h : (mapping o E src tag f (.ptr t) fd .zero).1 = .ok →
    (mapping o E src tag f (.ptr t) fd .zero).2.1 = false) : (mapping o E src tag f (.ptr t) fd .zero).2.2 = .zero := by
  cases f with
  | zero => rfl
  | succ f =>
    by_cases hd : fd.tag tag = b!"-"
    · unfold mapping; rw [if_pos hd]
    · rw [mapping_ptr hd] at h ⊢
      simp only [mapPointer] at h ⊢
      rcases hr : mapping o E src tag f t (shown fd) .zero with ⟨out, set, w⟩
      rw [hr] at h
      cases out with
      | ok =>
        cases set with
        | false => rfl
        | true =>
          cases hx : fd.exported with
          | false => rfl
          | true => rw [hx] at h; simp at h
      | err e => rfl
      | panic => rfl
      | fuel => rfl

/-- If something was set, something was said. -/
theorem set_reason (f : Nat) : ∀ (t : Ty) (fd : Field) (v : Val), HasTy E t v → fd.tag tag ≠ b!"-" →
    (mapping o E src tag f t fd v).1 = .ok → (mapping o E src tag f t fd v).2.1 = true →
    (¬ Silent src tag fd ∧ ¬ (fd.anonymous = true ∧ (bare t).isStruct = true)) ∨
    ∃ m q fd' z, bare t = .struct m ∧ (fd.anonymous = true ∨ Silent src tag fd) ∧
      Reaches E src tag m (under v) q fd' z ∧ ¬ Silent src tag fd' ∧ ¬ (fd'.anonymous = true ∧ (bare fd'.ty).isStruct = true) := by
  induction f using Nat.strongRecOn with
  | _ f ih =>
    intro t fd v hv hd hok hset
    by_cases hs : Silent src tag fd ∨ (fd.anonymous = true ∧ (bare t).isStruct = true)
    · right
      have hs' : fd.anonymous = true ∨ Silent src tag fd := by
        rcases hs with hs | hs
        · exact Or.inr hs
        · exact Or.inl hs.1
      by_cases hb : ∃ m, bare t = .struct m
      · obtain ⟨m, hb⟩ := hb
        rcases through (o := o) hd hs' f hb hv with ⟨t1, _⟩ | ⟨g, t0, t1, t2, _, _⟩
        · rw [hok] at t1; cases t1
        · rw [hset] at t2
          have hw : (walkAll o E src tag g m (under v)).1 = .ok := by
            rcases t1 with t1 | ⟨t1, _⟩
            · rw [← t1, hok]
            · exact t1
          obtain ⟨_, _, h | ⟨k, fd', x', y', s', a1, a2, a3, a4, a5, _⟩⟩ :=
            mapLoop_spec (fun fd x => mapping o E src tag g fd.ty fd x) (E m) (fieldVals (E m).length (under v))
          · obtain ⟨i, fd', x', y', b1, b2, b3, b4⟩ := h.2.2 t2.symm
            have hd' : fd'.tag tag ≠ b!"-" := by
              intro e
              cases g with
              | zero => cases b4
              | succ g => unfold mapping at b4; rw [if_pos e] at b4; cases b4
            have hty := hasTy_field (hasTy_inside (fd := { fd with ty := t }) hv hb) b1 b2
            have hh : Reaches E src tag m (under v) [i] fd' x' := .here b1 b2 b3 hd'
            rcases ih g t0 fd'.ty fd' x' hty hd' (by rw [b4]) (by rw [b4]) with c1 | ⟨m', q, fd'', z, c1, c2, c3, c4⟩
            · exact ⟨m, [i], fd', x', hb, hs', hh, c1⟩
            · exact ⟨m, [i] ++ q, fd'', z, hb, hs', reaches_append hh c1 c2 c3, c4⟩
          · exact absurd hw a5
      · have := (own_silent (o := o) f t (by rcases hs with hs | hs; exact Or.inl hs; exact Or.inr (Or.inr hs)) (fun m e => hb ⟨m, e⟩) hv).2
        rcases this with h | h
        · rw [hok] at h; cases h
        · rw [h] at hset; cases hset
    · exact Or.inl ⟨fun h => hs (Or.inl h), fun h => hs (Or.inr h)⟩

/-! ### failures -/

/-- An unexported embedded field that takes a value of its own and about which something is said. -/
theorem unexported_out {fd : Field} (h : fd.tag tag ≠ b!"-") (hx : fd.exported = false) (hs : ¬ Silent src tag fd) (f : Nat) :
    ∀ {t : Ty}, (fd.anonymous = true → (bare t).isStruct = false) → Sized2 t → ∀ {v : Val}, HasTy E t v →
    (mapping o E src tag f t fd v).1 = .fuel ∨ (mapping o E src tag f t fd v).1 = .ok ∨ (mapping o E src tag f t fd v).1 = .panic ∨
    ∃ e, (mapping o E src tag f t fd v).1 = .err e ∧ ¬ ∃ w, Takes o src tag fd (bare t) (under v) w := by
  induction f with
  | zero => intro t ha hz v hv; exact Or.inl rfl
  | succ f ih =>
    intro t ha hz v hv
    rcases isPtr t with ⟨t', rfl⟩ | ht
    · rw [mapping_ptr h]
      rcases hasTy_ptr hv with rfl | ⟨x, rfl, hx'⟩
      · simp only [mapPointer]
        rcases own_takes (o := o) (E := E) (fd := shown fd) h rfl hs f (t := t') ha hz (v := .zero) .zero with h1 | ⟨w, y, h1, _⟩ | ⟨e, s, w, h1, h2⟩
        · generalize mapping o E src tag f t' (shown fd) .zero = r at h1
          obtain ⟨out, set, w⟩ := r
          dsimp only at h1
          subst h1
          exact Or.inl rfl
        · rw [h1]
          simp [hx]
        · rw [h1]
          exact Or.inr (Or.inr (Or.inr ⟨e, rfl, fun ⟨w, hw⟩ => h2 ⟨w, takes_shown hw⟩⟩))
      · have := ih (t := t') ha hz hx'
        simp only [mapPointer]
        rcases hr : mapping o E src tag f t' fd x with ⟨out, set, w⟩
        rw [hr] at this
        exact this
    · rw [mapping_plain h ht]
      rw [bare_self ht] at ha ⊢
      rw [under_self (hasTy_plain ht hv)]
      have hc : (t.isStruct && fd.anonymous) = false := by
        cases hb : fd.anonymous with
        | false => simp
        | true => rw [ha hb]; rfl
      rw [hc, if_neg (by simp)]
      obtain ⟨out, h1, h2, h3⟩ := try_hidden (o := o) (src := src) h hx hs hz v
      rw [h1]
      cases out with
      | ok => exact Or.inr (Or.inl rfl)
      | panic => exact Or.inr (Or.inr (Or.inl rfl))
      | err e => exact Or.inr (Or.inr (Or.inr ⟨e, rfl, h3 e rfl⟩))
      | fuel => exact absurd rfl h2

/-- An unexported embedded field that is no struct keeps its value. -/
theorem unexported_kept {fd : Field} (h : fd.tag tag ≠ b!"-") (hx : fd.exported = false) (f : Nat) :
    ∀ {t : Ty}, (bare t).isStruct = false → Sized2 t → ∀ {v : Val}, HasTy E t v → (mapping o E src tag f t fd v).2.2 = v := by
  induction f with
  | zero => intro t ha hz v hv; rfl
  | succ f ih =>
    intro t ha hz v hv
    by_cases hs : Silent src tag fd
    · exact (own_silent (o := o) (f + 1) t (Or.inl hs) (by intro m e; rw [e] at ha; cases ha) hv).1
    rcases isPtr t with ⟨t', rfl⟩ | ht
    · rw [mapping_ptr h]
      rcases hasTy_ptr hv with rfl | ⟨x, rfl, hx'⟩
      · simp only [mapPointer, hx]
        generalize mapping o E src tag f t' (shown fd) .zero = r
        obtain ⟨out, set, w⟩ := r
        cases out <;> cases set <;> rfl
      · have := ih (t := t') ha hz hx'
        simp only [mapPointer]
        rcases hr : mapping o E src tag f t' fd x with ⟨out, set, w⟩
        rw [hr] at this
        dsimp only at this ⊢
        rw [this]
    · rw [mapping_plain h ht]
      rw [bare_self ht] at ha
      rw [ha, Bool.false_and, if_neg (by simp)]
      obtain ⟨out, h1, h2, h3⟩ := try_hidden (o := o) (src := src) h hx hs hz v
      rw [h1]
      cases out <;> rfl

/-- The case a failed field is in. -/
theorem bad_field {f : Nat} {fd : Field} {x : Val} (hv : HasTy E fd.ty x) (hvis : Visible fd) (hz : Sized2 fd.ty)
    (hne : (mapping o E src tag f fd.ty fd x).1 ≠ .ok) (hnf : (mapping o E src tag f fd.ty fd x).1 ≠ .fuel) :
    fd.tag tag ≠ b!"-" ∧
    ((∃ m, bare fd.ty = .struct m ∧ (fd.anonymous = true ∨ Silent src tag fd)) ∨
     (Valued fd ∧ ¬ Silent src tag fd ∧ (¬ ∃ w, Takes o src tag fd (bare fd.ty) (under x) w) ∧ ∃ e, (mapping o E src tag f fd.ty fd x).1 = .err e) ∨
     (fd.exported = false ∧ (∀ m, bare fd.ty ≠ .struct m) ∧ (mapping o E src tag f fd.ty fd x).1 = .panic)) := by
  have hd : fd.tag tag ≠ b!"-" := by
    intro e
    cases f with
    | zero => exact hnf rfl
    | succ f => apply hne; unfold mapping; rw [if_pos e]
  refine ⟨hd, ?_⟩
  by_cases hs : Silent src tag fd ∨ (fd.anonymous = true ∧ (bare fd.ty).isStruct = true)
  · left
    by_cases hb : ∃ m, bare fd.ty = .struct m
    · obtain ⟨m, hb⟩ := hb
      refine ⟨m, hb, ?_⟩
      rcases hs with hs | hs
      · exact Or.inr hs
      · exact Or.inl hs.1
    · have := (own_silent (o := o) f fd.ty (by rcases hs with hs | hs; exact Or.inl hs; exact Or.inr (Or.inr hs)) (fun m e => hb ⟨m, e⟩) hv).2
      rcases this with h | h
      · exact absurd h hnf
      · rw [h] at hne; exact absurd rfl hne
  · have hsil : ¬ Silent src tag fd := fun h => hs (Or.inl h)
    have hst : fd.anonymous = true → (bare fd.ty).isStruct = false := by
      intro ha
      cases hb : (bare fd.ty).isStruct with
      | false => rfl
      | true => exact absurd (Or.inr ⟨ha, hb⟩) hs
    right
    cases hx : fd.exported with
    | true =>
      left
      rcases own_takes (o := o) hd hx hsil f hst hz hv with h | ⟨w, y, h, _⟩ | ⟨e, s, w, h, h'⟩
      · exact absurd h hnf
      · rw [h] at hne; exact absurd rfl hne
      · exact ⟨hst, hsil, h', e, by rw [h]⟩
    | false =>
      rcases unexported_out (o := o) hd hx hsil f hst hz hv with h | h | h | ⟨e, h, h'⟩
      · exact absurd h hnf
      · exact absurd h hne
      rotate_left
      · exact Or.inl ⟨hst, hsil, h', e, h⟩
      right
      refine ⟨rfl, fun m e => ?_, h⟩
      have ha : fd.anonymous = true := by
        rcases hvis with h | h
        · rw [hx] at h; cases h
        · exact h
      have := hst ha
      rw [e] at this; cases this

/-- The first field that cannot be set. -/
theorem first_bad2 (hz : ∀ n, ∀ fd ∈ E n, Sized2 fd.ty) (f : Nat) : ∀ {n : Nat} {v : Val} {e : BErr}, HasTy E (.struct n) v →
    (walkAll o E src tag f n v).1 = .err e →
    ∃ q fd x, Reaches E src tag n v q fd x ∧ Valued fd ∧ ¬ Silent src tag fd ∧ (¬ ∃ w, Takes o src tag fd (bare fd.ty) (under x) w) ∧
      (∀ p fd' x', Reaches E src tag n v p fd' x' → Sooner p q → Own fd' → ¬ Silent src tag fd' →
        ∃ w, Takes o src tag fd' (bare fd'.ty) (under x') w) ∧
      (∀ p fd' x', Reaches E src tag n v p fd' x' → Sooner q p → reach (.struct (walkAll o E src tag f n v).2.2) p = x') := by
  induction f using Nat.strongRecOn with
  | _ f ih =>
    intro n v e hv herr
    obtain ⟨_, _, h | ⟨k, fd, x, y, s, a1, a2, a3, a4, a5, a6, a7, a8⟩⟩ :=
      mapLoop_spec (fun fd x => mapping o E src tag f fd.ty fd x) (E n) (fieldVals (E n).length v)
    · have := h.1; unfold walkAll at herr; rw [herr] at this; cases this
    · have hty := hasTy_field hv a1 a2
      have hm : (mapping o E src tag f fd.ty fd x).1 = .err e := by rw [a4]; exact herr
      -- a field before the failed one
      have before : ∀ i p fd' x', i < k → Reaches E src tag n v (i :: p) fd' x' → Own fd' → ¬ Silent src tag fd' →
          ∃ w, Takes o src tag fd' (bare fd'.ty) (under x') w := by
        intro i p fd' x' hik hr how hsil
        obtain ⟨i', p', fd₀, x₀, e1, e2, e3, e4, e5, e6⟩ := fate_at (o := o) hr hv
        cases e1
        obtain ⟨s', y', c1, c2⟩ := a7 i fd₀ x₀ hik e2 e3 e4
        obtain ⟨f', g0, g2, _, _⟩ := e6 f
        have hok := (g2 (by rw [c1])).1
        have hz' : Sized2 fd'.ty := by
          obtain ⟨n', h'⟩ := reaches_mem hr
          exact hz n' fd' h'
        rcases own_takes (o := o) (reaches_tag hr).1 how.1 hsil f' how.2 hz' (reaches_hasTy hr hv) with h | ⟨w, y, h, h', _⟩ | ⟨e, s, w, h, h'⟩
        · rw [hok] at h; cases h
        · exact ⟨_, h'⟩
        · rw [h] at hok; cases hok
      have after : ∀ i p fd' x', k < i → Reaches E src tag n v (i :: p) fd' x' →
          reach (.struct (walkAll o E src tag f n v).2.2) (i :: p) = x' := by
        intro i p fd' x' hik hr
        obtain ⟨i', p', fd₀, x₀, e1, e2, e3, e4, e5, _⟩ := fate_at (o := o) hr hv
        cases e1
        have := a8 i hik
        rw [e3] at this
        unfold walkAll; rw [reach_at this, e5]
      obtain ⟨hd, hc | ⟨c1, c2, c3, _⟩ | ⟨_, _, c2⟩⟩ := bad_field hty a3 (hz n fd (List.mem_of_getElem? a1)) (by rw [hm]; simp) (by rw [hm]; simp)
      · obtain ⟨m, hb, hs⟩ := hc
        rcases through (o := o) hd hs f hb hty with ⟨t1, _⟩ | ⟨g, t0, t1, t2, t3, _⟩
        · rw [hm] at t1; cases t1
        · have hw : (walkAll o E src tag g m (under x)).1 = .err e := by
            rcases t1 with t1 | ⟨_, t1, _⟩
            · rw [← t1, hm]
            · rw [hm] at t1; cases t1
          obtain ⟨q, fd', x', b1, b2, b3, b4, b5, b6⟩ := ih g t0 (hasTy_inside hty hb) hw
          have inv : ∀ p fd' x', p ≠ [] → Reaches E src tag n v (k :: p) fd' x' → Reaches E src tag m (under x) p fd' x' := by
            intro p fd' x' hp hr
            cases hr with
            | here => exact absurd rfl hp
            | inside h1 h2 h3 h4 h5 h6 h7 =>
              rw [a1] at h1; cases h1
              rw [a2] at h2; cases h2
              rw [hb] at h5; cases h5
              exact h7
          refine ⟨k :: q, fd', x', .inside a1 a2 a3 hd hb hs b1, b2, b3, b4, ?_, ?_⟩
          · intro p fd'' x'' hr hso how hsil
            cases p with
            | nil => exact absurd rfl (reaches_path hr)
            | cons i p =>
              rcases precedes_cons_iff.1 hso with hik | ⟨rfl, hso'⟩
              · exact before i p fd'' x'' hik hr how hsil
              · have hp : p ≠ [] := by rintro rfl; obtain ⟨c, _, _, _, _, h, _⟩ := hso'; simp at h
                exact b5 p fd'' x'' (inv p fd'' x'' hp hr) hso' how hsil
          · intro p fd'' x'' hr hso
            cases p with
            | nil => exact absurd rfl (reaches_path hr)
            | cons i p =>
              rcases precedes_cons_iff.1 hso with hik | ⟨rfl, hso'⟩
              · exact after i p fd'' x'' hik hr
              · have hp : p ≠ [] := by rintro rfl; obtain ⟨c, _, _, _, _, _, h, _⟩ := hso'; simp at h
                have hin := inv p fd'' x'' hp hr
                unfold walkAll
                rw [reach_at a6]
                have ey : y = (mapping o E src tag f fd.ty fd x).2.2 := by rw [a4]
                rw [ey]
                rcases t3 with t3 | ⟨t3, _⟩
                · rw [← reach_under hp, t3]; exact b6 p fd'' x'' hin hso'
                · rw [t3, ← reach_under hp]; exact reaches_reach hin (hasTy_inside hty hb)
      · refine ⟨[k], fd, x, .here a1 a2 a3 hd, c1, c2, c3, ?_, ?_⟩
        · intro p fd'' x'' hr hso how hsil
          cases p with
          | nil => exact absurd rfl (reaches_path hr)
          | cons i p =>
            rcases precedes_cons_iff.1 hso with hik | ⟨rfl, c, _, _, _, _, _, h, _⟩
            · exact before i p fd'' x'' hik hr how hsil
            · simp at h
        · intro p fd'' x'' hr hso
          cases p with
          | nil => exact absurd rfl (reaches_path hr)
          | cons i p =>
            rcases precedes_cons_iff.1 hso with hik | ⟨rfl, c, _, _, _, _, h, _⟩
            · exact after i p fd'' x'' hik hr
            · simp at h
      · rw [hm] at c2; cases c2

/-- The mapper panics only at an unexported embedded field that is a pointer or no struct. -/
theorem panic_reason (hz : ∀ n, ∀ fd ∈ E n, Sized2 fd.ty) (f : Nat) : ∀ {n : Nat} {v : Val}, HasTy E (.struct n) v →
    (walkAll o E src tag f n v).1 = .panic →
    ∃ q fd x, Reaches E src tag n v q fd x ∧ fd.exported = false ∧ ((∃ t, fd.ty = .ptr t) ∨ ∀ m, fd.ty ≠ .struct m) := by
  induction f using Nat.strongRecOn with
  | _ f ih =>
    intro n v hv hp
    obtain ⟨_, _, h | ⟨k, fd, x, y, s, a1, a2, a3, a4, a5, a6, a7, a8⟩⟩ :=
      mapLoop_spec (fun fd x => mapping o E src tag f fd.ty fd x) (E n) (fieldVals (E n).length v)
    · have := h.1; unfold walkAll at hp; rw [hp] at this; cases this
    · have hty := hasTy_field hv a1 a2
      have hm : (mapping o E src tag f fd.ty fd x).1 = .panic := by rw [a4]; exact hp
      obtain ⟨hd, hc | ⟨_, _, _, e, c3⟩ | ⟨c1, c2, _⟩⟩ := bad_field hty a3 (hz n fd (List.mem_of_getElem? a1)) (by rw [hm]; simp) (by rw [hm]; simp)
      · obtain ⟨m, hb, hs⟩ := hc
        rcases through (o := o) hd hs f hb hty with ⟨t1, _⟩ | ⟨g, t0, t1, t2, t3, _⟩
        · rw [hm] at t1; cases t1
        · rcases t1 with t1 | ⟨_, _, t1, t', ht⟩
          · obtain ⟨q, fd', x', b1, b2⟩ := ih g t0 (hasTy_inside hty hb) (by rw [← t1, hm])
            exact ⟨k :: q, fd', x', .inside a1 a2 a3 hd hb hs b1, b2⟩
          · exact ⟨[k], fd, x, .here a1 a2 a3 hd, t1, Or.inl ⟨t', ht⟩⟩
      · rw [hm] at c3; cases c3
      · exact ⟨[k], fd, x, .here a1 a2 a3 hd, c1, Or.inr (fun m e => c2 m (by rw [e]; rfl))⟩

/-! ### termination -/

theorem try_fuel {fd : Field} (h : fd.tag tag ≠ b!"-") {t : Ty} {v : Val} : (tryToSetValue o src tag fd t v).1 ≠ .fuel := by
  rcases try_cases (o := o) (src := src) h t v with ⟨_, h1⟩ | ⟨_, _, _, h1, ⟨_, _, _, rfl⟩ | ⟨_, _, _, rfl⟩⟩ | ⟨f, fs, _, _, h1⟩ | ⟨ss, _, _, _, h1⟩
  · rw [h1]; simp
  · rw [h1]; exact hiddenFile_fuel _ _ _
  · rw [h1]; exact hiddenValues_fuel
  · rw [h1]; exact (setByFile_calm _ _ _).1
  · rw [h1]; exact setValues_calm.1

theorem field_enough (fd : Field) : ∀ (t : Ty), (∀ m, bare t = .struct m → fd.tag tag ≠ b!"-" → (fd.anonymous = true ∨ Silent src tag fd) →
      ∃ F, ∀ f, F ≤ f → ∀ v, (walkAll o E src tag f m v).1 ≠ .fuel) →
    ∃ F, ∀ f, F ≤ f → ∀ v, (mapping o E src tag f t fd v).1 ≠ .fuel := by
  intro t
  by_cases hd : fd.tag tag = b!"-"
  · intro _
    refine ⟨1, fun f hf v => ?_⟩
    cases f with
    | zero => omega
    | succ f => unfold mapping; rw [if_pos hd]; simp
  induction t generalizing fd with
  | ptr t ih =>
    intro h
    obtain ⟨F, hF⟩ := ih fd hd h
    obtain ⟨F', hF'⟩ := ih (shown fd) hd h
    refine ⟨F + F' + 1, fun f hf v => ?_⟩
    cases f with
    | zero => omega
    | succ f =>
      rw [mapping_ptr hd]
      have hz := hF' f (by omega) .zero
      have hx := hF f (by omega)
      cases v with
      | ptr x =>
        simp only [mapPointer]
        have := hx x
        rcases hr : mapping o E src tag f t fd x with ⟨out, set, w⟩
        rw [hr] at this
        exact this
      | _ =>
        simp only [mapPointer]
        rcases hr : mapping o E src tag f t (shown fd) .zero with ⟨out, set, w⟩
        rw [hr] at hz
        cases out with
        | ok => cases set <;> (dsimp only; try split) <;> simp
        | err e => simp
        | panic => simp
        | fuel => exact absurd rfl hz
  | struct m =>
    intro h
    by_cases hs : fd.anonymous = true ∨ Silent src tag fd
    case neg =>
      refine ⟨1, fun f hf v => ?_⟩
      cases f with
      | zero => omega
      | succ f =>
        rw [mapping_plain hd (by intro t' e; cases e)]
        have ha : fd.anonymous = false := by
          cases h : fd.anonymous with
          | true => exact absurd (Or.inl h) hs
          | false => rfl
        have ht := try_fuel (o := o) (src := src) hd (t := .struct m) (v := v)
        have hset : (tryToSetValue o src tag fd (.struct m) v).2.1 = true := by
          rcases try_cases (o := o) (src := src) hd (.struct m) v with ⟨h1, _⟩ | ⟨_, _, _, h1, _⟩ | ⟨f, fs, _, _, h1⟩ | ⟨ss, _, _, _, h1⟩
          · exact absurd (Or.inr h1) hs
          · rw [h1]
          · rw [h1]
          · rw [h1]
        simp only [ha, Bool.and_false, Bool.false_eq_true, if_false]
        generalize tryToSetValue o src tag fd (.struct m) v = r at ht hset
        obtain ⟨out, set, w⟩ := r
        dsimp only at hset
        subst hset
        cases out <;> first | exact absurd rfl ht | simp
    case pos =>
    obtain ⟨F, hF⟩ := h m rfl hd hs
    refine ⟨F + 1, fun f hf v => ?_⟩
    cases f with
    | zero => omega
    | succ f =>
      rw [mapping_plain hd (by intro t' e; cases e)]
      have hw := hF f (by omega)
      have ht : (if (Ty.struct m).isStruct && fd.anonymous then (BOut.ok, false, v) else tryToSetValue o src tag fd (.struct m) v).1 ≠ .fuel := by
        split
        · simp
        · exact try_fuel hd
      generalize (if (Ty.struct m).isStruct && fd.anonymous then (BOut.ok, false, v) else tryToSetValue o src tag fd (.struct m) v) = r at ht ⊢
      obtain ⟨out, set, w⟩ := r
      cases out with
      | ok =>
        cases set with
        | false => exact hw w
        | true => simp
      | err e => simp
      | panic => simp
      | fuel => exact absurd rfl ht
  | _ =>
    intro h
    refine ⟨1, fun f hf v => ?_⟩
    cases f with
    | zero => omega
    | succ f =>
      rw [mapping_plain hd (by intro t' e; cases e)]
      generalize hr : (if Ty.isStruct _ && fd.anonymous then (BOut.ok, false, v) else tryToSetValue o src tag fd _ v) = r
      have ht : r.1 ≠ .fuel := by
        rw [← hr]
        split
        · simp
        · exact try_fuel hd
      obtain ⟨out, set, w⟩ := r
      cases out with
      | ok =>
        cases set with
        | false => simp [mapStruct]
        | true => simp
      | err e => simp
      | panic => simp
      | fuel => exact absurd rfl ht

theorem loop_enough {P : Field → Val → Nat → BOut × Bool × Val} (fds : List Field)
    (h : ∀ fd ∈ fds, Visible fd → ∃ F, ∀ f, F ≤ f → ∀ v, (P fd v f).1 ≠ .fuel) :
    ∃ F, ∀ f, F ≤ f → ∀ vs, (mapLoop (fun fd v => P fd v f) fds vs).1 ≠ .fuel := by
  have : ∃ F, ∀ fd ∈ fds, Visible fd → ∀ f, F ≤ f → ∀ v, (P fd v f).1 ≠ .fuel := by
    induction fds with
    | nil => exact ⟨0, by simp⟩
    | cons fd fds ih =>
      obtain ⟨F2, h2⟩ := ih (fun fd' hm => h fd' (by simp [hm]))
      by_cases hv : Visible fd
      · obtain ⟨F1, h1⟩ := h fd (by simp) hv
        refine ⟨max F1 F2, fun fd' hm hv' f hf v => ?_⟩
        rcases List.mem_cons.1 hm with rfl | hm
        · exact h1 f (by omega) v
        · exact h2 fd' hm hv' f (by omega) v
      · refine ⟨F2, fun fd' hm hv' f hf v => ?_⟩
        rcases List.mem_cons.1 hm with rfl | hm
        · exact absurd hv' hv
        · exact h2 fd' hm hv' f hf v
  obtain ⟨F, hF⟩ := this
  refine ⟨F, fun f hf vs => ?_⟩
  obtain ⟨_, _, h | ⟨k, fd, x, y, s, a1, a2, a3, a4, a5, _⟩⟩ := mapLoop_spec (fun fd v => P fd v f) fds vs
  · rw [h.1]; simp
  · have := hF fd (List.mem_of_getElem? a1) a3 f hf x
    rw [a4] at this; exact this

theorem enough2 (rank : Nat → Nat) (hr : ∀ n, ∀ fd ∈ E n, ∀ m, bare fd.ty = .struct m → rank m < rank n) :
    ∀ (k n : Nat), rank n < k → ∃ F, ∀ f, F ≤ f → ∀ v, (walkAll o E src tag f n v).1 ≠ .fuel := by
  intro k
  induction k with
  | zero => intro n h; omega
  | succ k ih =>
    intro n hn
    obtain ⟨F, hF⟩ := loop_enough (P := fun fd v f => mapping o E src tag f fd.ty fd v) (E n)
      (fun fd hm _ => field_enough fd fd.ty (fun m hb _ _ => ih m (by have := hr n fd hm m hb; omega)))
    exact ⟨F, fun f hf v => hF f hf _⟩

/-! ### the whole -/

theorem emptyField_silent : Silent src tag emptyField ∧ emptyField.tag tag ≠ b!"-" := by
  have h : emptyField.tag tag ≠ b!"-" := by simp [emptyField]
  have hk : oldKey emptyField tag = [] := by simp [oldKey, emptyField, head_eq]
  have hf : givenFiles src tag emptyField = none := by rw [givenFiles_eq h, if_pos hk]
  exact ⟨⟨by rw [given_eq h hf, if_pos hk], hf⟩, h⟩

theorem mapping_top (f n : Nat) (v : Val) : mapping o E src tag (f + 2) (.ptr (.struct n)) emptyField (.ptr v) =
    ((walkAll o E src tag f n v).1, (walkAll o E src tag f n v).2.1, .ptr (.struct (walkAll o E src tag f n v).2.2)) := by
  rw [mapping_ptr (emptyField_silent (src := src)).2]
  simp only [mapPointer]
  rw [mapping_skip (emptyField_silent (src := src)).2 (by intro t e; cases e) (Or.inr emptyField_silent.1)]
  rfl

theorem bind2_eq (check : Val → Option Nat) (f n : Nat) (v : Val) :
    (bind2 o E (f + 2) check src tag n v).2 = .struct (walkAll o E src tag f n v).2.2 ∧
    (bind2 o E (f + 2) check src tag n v).1 =
      (if (walkAll o E src tag f n v).1 = .ok then
        (match check (.struct (walkAll o E src tag f n v).2.2) with | some e => .err (.invalid e) | none => .ok)
       else (walkAll o E src tag f n v).1) := by
  unfold bind2
  rw [mapping_top]
  simp only [pointee]
  rcases walkAll o E src tag f n v with ⟨out, set, ws⟩
  cases out <;> simp
  cases check (.struct ws) <;> rfl

theorem bind2_low {check : Val → Option Nat} {fuel n : Nat} {v : Val} (h : fuel < 2) : bind2 o E fuel check src tag n v = (.fuel, v) := by
  match fuel, h with
  | 0, _ => rfl
  | 1, _ =>
    unfold bind2
    rw [mapping_ptr (emptyField_silent (src := src)).2]
    rfl

end Water
