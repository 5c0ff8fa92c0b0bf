import Verif.Lemmas.HeaderBind
import Verif.Props.Binding
import Verif.Props.Mapping
/-
C143: the fields of a struct get the values that were sent under the names in their tags, in whatever spelling.
-/
namespace Water
open Spec
variable {o : BOracle} {E E' : TyEnv} {fuel : Nat}

/-- C143: under the canonical name the header map holds the values sent under any spelling of it, in order; nothing if there were none. -/
theorem C143_lines {n : Str} {lines : List (Str × Str)} {vs : List Str} (h : SentAs n lines vs) :
    (readHeader lines).at (canonKey n) = if vs = [] then none else some vs := readHeader_at h

/-- C143: the spelling of the names in the request does not matter to `Bind` and `Bind2`. -/
theorem C143_request {check : Target → Option Nat} {check2 : Val → Option Nat} {obj : Target} {lines lines' : List (Str × Str)} {n : Nat} {v : Val}
    (h : SameLines lines lines') : headerBind o E fuel check obj lines = headerBind o E fuel check obj lines' ∧
    headerBind2 o E fuel check2 lines n v = headerBind2 o E fuel check2 lines' n v := by
  unfold headerBind headerBind2
  rw [readHeader_same h]
  exact ⟨rfl, rfl⟩

/-- C143: the spelling of the names in the tags does not matter to `Bind`, for structs of any depth: not to what is stored, and not to the
error. -/
theorem C143_tags {check : Target → Option Nat} {obj : Target} {lines : List (Str × Str)} (h : ∀ n, RespelledAll (E n) (E' n)) :
    headerBind o E' fuel check obj lines = headerBind o E fuel check obj lines := by
  unfold headerBind bindForm MapForm
  simp only [respelled_map h]

/-- C143: nor to `Bind2`. -/
theorem C143_tags2 {check : Val → Option Nat} {lines : List (Str × Str)} {n : Nat} {v : Val} (h : ∀ n, RespelledAll (E n) (E' n)) :
    headerBind2 o E' fuel check lines n v = headerBind2 o E fuel check lines n v := by
  have he : Respelled emptyField emptyField :=
    ⟨rfl, rfl, rfl, rfl, fun _ _ => rfl, [], [], [], by simp, .inl rfl, .inl rfl, rfl, rfl⟩
  unfold headerBind2 bind2
  rw [respelled_mapping h _ _ _ _ _ _ he]

/-- C143: after a successful `Bind` a string field holds the first value sent under the name in its tag, in any spelling; if there is none,
its default; if it has none, what it held before. -/
theorem C143_string {check : Target → Option Nat} {lines : List (Str × Str)} {n : Nat} {v v' : Val} {p : List Nat} {fd : Field} {x : Val}
    {name : Str} {vs : List Str} (hv : ∀ w, v ≠ .ptr w) (ho : Occurs E (Quiet (readHeader lines) [] b!"header") n v p fd x) (hp : Scalar fd)
    (hty : fd.ty = .string) (hn : NamesHeader fd name) (hs : SentAs name lines vs)
    (h : headerBind o E fuel check (.struct n v) lines = (.ok, .struct n v')) :
    (∀ s ss, vs = s :: ss → get v' p = .string s) ∧
    (vs = [] → ∀ d, bindDefault fd b!"header" = some d → get v' p = .string d) ∧
    (vs = [] → bindDefault fd b!"header" = none → get v' p = x) := by
  obtain ⟨h1, h2, h3⟩ := C60_default hv ho hp hty (bindName_header hn) h
  rw [readHeader_at hs] at h1 h2 h3
  refine ⟨?_, ?_, ?_⟩
  · intro s ss e
    exact h1 s ss (by rw [e]; rfl)
  · intro e d hd
    exact h2 d (if_pos e) hd
  · intro e hd
    exact h3 (if_pos e) hd rfl

/-- C143: and a slice of strings holds all of them, in order. -/
theorem C143_strings {check : Target → Option Nat} {lines : List (Str × Str)} {n : Nat} {v v' : Val} {p : List Nat} {fd : Field} {x : Val}
    {name : Str} {vs : List Str} (hv : ∀ w, v ≠ .ptr w) (ho : Occurs E (Quiet (readHeader lines) [] b!"header") n v p fd x) (hp : Scalar fd)
    (hty : fd.ty = .slice .string) (hn : NamesHeader fd name) (hs : SentAs name lines vs) (hne : vs ≠ [])
    (h : headerBind o E fuel check (.struct n v) lines = (.ok, .struct n v')) : get v' p = .slice (vs.map .string) := by
  refine C62_strings hv ho hp hty ?_ h
  unfold input
  rw [bindName_header hn]
  simp [readHeader_at hs, hne]

/-- C143: the same of `Bind2`, which also follows pointers. -/
theorem C143_string2 {check : Val → Option Nat} {lines : List (Str × Str)} {n : Nat} {v v' : Val} {p : List Nat} {fd : Field} {x : Val}
    {name : Str} {vs : List Str} (hv : HasTy E (.struct n) v) (ho : Reaches E ⟨readHeader lines, [], true⟩ b!"header" n v p fd x) (how : Own fd)
    (hty : bare fd.ty = .string) (hn : NamesHeader fd name) (hs : SentAs name lines vs)
    (h : headerBind2 o E fuel check lines n v = (.ok, v')) :
    (∀ s ss, vs = s :: ss → under (reach v' p) = .string s) ∧
    (vs = [] → ∀ d, bindDefault fd b!"header" = some d → under (reach v' p) = .string d) ∧
    (vs = [] → bindDefault fd b!"header" = none → reach v' p = x) := by
  have hl : Spec.lookupName fd b!"header" = some name := lookupName_header hn (tagged_dash hn)
  have hgf : givenFiles ⟨readHeader lines, [], true⟩ b!"header" fd = none := by
    unfold givenFiles
    rw [hl]; rfl
  have hg : given ⟨readHeader lines, [], true⟩ b!"header" fd =
      if vs = [] then (bindDefault fd b!"header").map (fun d => [d]) else some vs := by
    unfold given
    rw [hgf, hl]
    simp only [ne_eq, not_true, if_false, Option.bind_some, if_pos, readHeader_at hs]
    by_cases e : vs = [] <;> simp [e]
  refine ⟨?_, ?_, ?_⟩
  · intro s ss e
    have := C69_string h hv ho how hty (ss := vs) (by rw [hg, e]; rfl)
    rw [this, e]; rfl
  · intro e d hd
    have := C69_string h hv ho how hty (ss := [d]) (by rw [hg, if_pos e, hd]; rfl)
    rw [this]; rfl
  · intro e hd
    have := C70_frame (o := o) (fuel := fuel) (check := check) hv ho ⟨by rw [hg, if_pos e, hd]; rfl, hgf⟩
      (by intro m hm; rw [hty] at hm; cases hm)
    unfold headerBind2 at h
    rw [h] at this
    exact this

/-- C143: `Bind` leaves a field without a header tag alone, whatever was sent. -/
theorem C143_untagged_partial {check : Target → Option Nat} {lines : List (Str × Str)} {n : Nat} {v v' : Val} {out : BOut} {p : List Nat} {fd : Field}
    {x : Val} (hv : ∀ w, v ≠ .ptr w) (ho : Occurs E (Quiet (readHeader lines) [] b!"header") n v p fd x) (hp : Scalar fd)
    (ht : fd.tag b!"header" = []) (h : headerBind o E fuel check (.struct n v) lines = (out, .struct n v')) : get v' p = x := by
  have hb : bindName fd b!"header" = none := by
    unfold bindName tagParts
    rw [ht]
    rfl
  refine C60_frame_partial hv ho hp ⟨?_, ?_⟩ h
  · unfold input; rw [hb]; rfl
  · intro m hm; rw [hb] at hm; cases hm

/-- C143 for `Bind2`, the part on fields without a tag: they are left alone. -/
def C143_claim : Prop :=
  ∀ (E : TyEnv) (lines : List (Str × Str)) (i : Nat) (fd : Field), (E 0)[i]? = some fd → fd.exported = true → fd.ty = .bool → fd.tag b!"header" = [] →
    ∀ v', headerBind2 Demo.bindO E 10 (fun _ => none) lines 0 .zero = (.ok, v') → truth (get v' [i]) = false

namespace Demo

/-- a field with a header tag -/
def hfld (name header : Str) (ty : Ty) : Field :=
  { name := name, exported := true, anonymous := false, tag := fun k => if k = b!"header" then header else [], ty := ty }

/-- `type T struct { Token string; Langs []string; From string; Admin bool }`, where `Admin` is for the program to set -/
def headEnv : TyEnv := fun n => if n = 0 then
  [hfld b!"Token" b!"x-token" .string, hfld b!"Langs" b!"accept-language" (.slice .string), hfld b!"From" b!"FROM,default=nobody" .string, hfld b!"Admin" [] .bool] else []

/-- the same type, with the names spelled as they usually are -/
def headEnv' : TyEnv := fun n => if n = 0 then
  [hfld b!"Token" b!"X-Token" .string, hfld b!"Langs" b!"Accept-Language" (.slice .string), hfld b!"From" b!"From,default=nobody" .string, hfld b!"Admin" [] .bool] else []

/-- what a client sends -/
def headLines : List (Str × Str) :=
  [(b!"X-TOKEN", b!"t1"), (b!"accept-language", b!"de"), (b!"x-token", b!"t2"), (b!"Accept-Language", b!"fr"), (b!"admin", b!"true")]

theorem headEnv_respelled : ∀ n, RespelledAll (headEnv n) (headEnv' n) := by
  have one : ∀ {name a b rest ty}, 44 ∉ a → canonKey a = canonKey b → (rest = [] ∨ rest.head? = some 44) →
      Respelled (hfld name (a ++ rest) ty) (hfld name (b ++ rest) ty) := by
    intro name a b rest ty h1 h2 h3
    refine ⟨rfl, rfl, rfl, rfl, ?_, a, b, rest, h1, canonKey_eq.1 h2, h3, rfl, rfl⟩
    intro t ht
    show (if t = b!"header" then _ else _) = (if t = b!"header" then _ else _)
    rw [if_neg ht, if_neg ht]
  intro n
  unfold headEnv headEnv'
  by_cases hn : n = 0
  · rw [if_pos hn, if_pos hn]
    refine .cons ?_ (.cons ?_ (.cons ?_ (.cons ?_ .nil)))
    · exact one (a := b!"x-token") (b := b!"X-Token") (rest := []) (by decide) (by decide +kernel) (.inl rfl)
    · exact one (a := b!"accept-language") (b := b!"Accept-Language") (rest := []) (by decide) (by decide +kernel) (.inl rfl)
    · exact one (a := b!"FROM") (b := b!"From") (rest := b!",default=nobody") (by decide) (by decide +kernel) (.inr rfl)
    · exact one (a := []) (b := []) (rest := []) (by decide) rfl (.inl rfl)
  · rw [if_neg hn, if_neg hn]
    exact .nil

/-- Beside the theorems: both programs get the same struct, by `Bind` as by `Bind2`; but `Bind2` lets the client be an administrator. -/
theorem C143_demo :
    headerBind bindO headEnv' 10 (fun _ => none) (.struct 0 .zero) headLines = headerBind bindO headEnv 10 (fun _ => none) (.struct 0 .zero) headLines ∧
    (headerBind bindO headEnv 10 (fun _ => none) (.struct 0 .zero) headLines).1 = .ok ∧
    (match (headerBind bindO headEnv 10 (fun _ => none) (.struct 0 .zero) headLines).2 with
      | .struct _ v => same v (.struct [.string b!"t1", .slice [.string b!"de", .string b!"fr"], .string b!"nobody", .zero])
      | _ => false) = true ∧
    (headerBind2 bindO headEnv 10 (fun _ => none) headLines 0 .zero).1 = .ok ∧
    same (headerBind2 bindO headEnv 10 (fun _ => none) headLines 0 .zero).2
      (.struct [.string b!"t1", .slice [.string b!"de", .string b!"fr"], .string b!"nobody", .bool true]) = true :=
  ⟨C143_tags headEnv_respelled, by decide +kernel, by decide +kernel, by decide +kernel, by decide +kernel⟩

/-- the hypotheses of `C143_string` -/
example : NamesHeader (hfld b!"From" b!"FROM,default=nobody" .string) b!"FROM" ∧ SentAs b!"FROM" headLines [] ∧
    SentAs b!"x-token" headLines [b!"t1", b!"t2"] := by
  have n1 : ∀ {a b}, canonKey a ≠ canonKey b → ¬ SameHeader a b := fun h e => h (canonKey_eq.2 e)
  refine ⟨⟨⟨by decide, b!",default=nobody", rfl, .inr rfl⟩, by decide, by decide⟩, ?_, ?_⟩
  · exact .other (n1 (by decide +kernel)) (.other (n1 (by decide +kernel)) (.other (n1 (by decide +kernel)) (.other (n1 (by decide +kernel))
      (.other (n1 (by decide +kernel)) .nil))))
  · exact .same (canonKey_eq.1 (by decide +kernel)) (.other (n1 (by decide +kernel)) (.same (.inl rfl) (.other (n1 (by decide +kernel))
      (.other (n1 (by decide +kernel)) .nil))))

end Demo

/-- C143, as stated, is false of `Bind2`: a client that sends `Admin: true` sets a field `Admin` that has no tag. -/
theorem C143_refuted : ¬ C143_claim := by
  intro h
  have := h Demo.headEnv Demo.headLines 3 _ rfl rfl rfl rfl _ (Prod.ext (by decide +kernel : (headerBind2 Demo.bindO Demo.headEnv 10 (fun _ => none)
    Demo.headLines 0 .zero).1 = .ok) rfl)
  exact absurd this (by decide +kernel)

end Water
