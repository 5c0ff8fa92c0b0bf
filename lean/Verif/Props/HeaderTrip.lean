import Verif.Lemmas.HeaderTrip
import Verif.Props.RoundTrip
import Verif.Props.RoundTripOld
/-
C147: a struct that is sent in header lines and read with binding.Header is the same.
-/
namespace Water
open Spec

/-- C147: a value arrives as it was if and only if a header line can hold it. -/
theorem C147_text (t : Str) : fieldText t = t ↔ FieldSafe t :=
  ⟨fun h => h ▸ fieldText_safe t, fieldText_id⟩

/-- C147: the header lines are read to their end, and under each canonical name the header holds the texts that were sent under any spelling
of it, in order; nothing if there were none. -/
theorem C147_arrives (lines : List (Str × Str)) (ht : TokenNames lines) (rest : Str) :
    ∃ h, readMIMEHeader (wireHeader lines ++ rest) = .ok h rest ∧
      ∀ n vs, SentAs n lines vs → h (canonKey n) = if vs = [] then none else some (vs.map fieldText) := by
  refine ⟨_, wire_read lines ht rest, fun n vs hs => ?_⟩
  rw [addLines_at n hs]
  rfl

/-- C147: what net/http does with the header afterwards changes only the reserved fields. -/
theorem C147_kept (h : Header) {k : Str} (hk : k ∉ reservedFields) : serverHeader h k = h k := serverHeader_other h hk

theorem sentAs_around {n : Str} {before ls after : List (Str × Str)} {vs : List Str} (hb : ∀ l ∈ before, ¬ SameHeader l.1 n)
    (ha : ∀ l ∈ after, ¬ SameHeader l.1 n) (h : SentAs n ls vs) : SentAs n (before ++ ls ++ after) vs := by
  have ha' : SentAs n after [] := by
    clear h hb
    induction after with
    | nil => exact .nil
    | cons l as ih => exact .other (ha l (by simp)) (ih (fun x hx => ha x (by simp [hx])))
  have hm : SentAs n (ls ++ after) vs := by
    induction h with
    | nil => exact ha'
    | same h1 _ ih => exact .same h1 ih
    | other h1 _ ih => exact .other h1 ih
  clear h
  rw [List.append_assoc]
  induction before with
  | nil => exact hm
  | cons l bs ih => exact .other (hb l (by simp)) (ih (fun x hx => hb x (by simp [hx])))

/-- the values of the form, for the names of a struct -/
theorem trip_values {sent ls before after : List (Str × Str)} (hl : SameLines sent ls) (hcs : ∀ p ∈ sent, canonKey p.1 = p.1)
    (hsafe : ∀ l ∈ sent, FieldSafe l.2) {k : Str} (hk : canonKey k = k) (hr : k ∉ reservedFields)
    (hb : ∀ l ∈ before, ¬ SameHeader l.1 k) (ha : ∀ l ∈ after, ¬ SameHeader l.1 k) {F : Form}
    (hF : ListsHeader (serverHeader (addLines Map.empty (before ++ ls ++ after))) F) : values F k = valuesIn sent k := by
  obtain ⟨vs, hs⟩ := sentAs_exists k ls
  have hvs := wire_values hl hcs hk hs
  have hmap : vs.map fieldText = vs := by
    rw [hvs]
    have : (valuesIn sent k).map fieldText = (valuesIn sent k).map id := by
      apply List.map_congr_left
      intro v hv
      unfold valuesIn at hv
      obtain ⟨p, hp, rfl⟩ := List.mem_map.1 hv
      exact fieldText_id (hsafe p ((List.mem_filter.1 hp).1))
    rw [this, List.map_id]
  have hat := addLines_at k (sentAs_around hb ha hs) Map.empty
  rw [hk, hmap] at hat
  rw [← form_at_values hF.distinct, hF.same, serverHeader_other _ hr, hat, ← hvs]
  by_cases e : vs = []
  · rw [if_pos e, e]; rfl
  · rw [if_neg e]; rfl

/-- **C147 (partial).** A client sends a struct in the header lines of a request: the names in any spelling, among any other lines. `Bind`
gives the same struct. Missing: fields that net/http takes for itself (`C147_refuted_host`) and texts that a header line cannot hold
(`C147_refuted`). -/
theorem C147_bind_partial (o : BOracle) (E : TyEnv) {f g n : Nat} (hg : f ≤ g) {v : Val} (hs : Sendable E b!"header" f n v)
    (hnd : (namesOf E b!"header" f n).Nodup) {ls before after : List (Str × Str)} (hl : SameLines (send E b!"header" f n v) ls)
    (ho : ∀ l ∈ before ++ after, ∀ k ∈ namesOf E b!"header" f n, ¬ SameHeader l.1 k) (ht : TokenNames (before ++ ls ++ after))
    (hsafe : ∀ l ∈ send E b!"header" f n v, FieldSafe l.2) (hres : ∀ k ∈ namesOf E b!"header" f n, k ∉ reservedFields) (rest : Str)
    (check : Target → Option Nat) (hc : ∀ t, check t = none) :
    ∃ h, readMIMEHeader (wireHeader (before ++ ls ++ after) ++ rest) = .ok h rest ∧ ∀ F, ListsHeader (serverHeader h) F →
      ∃ w, bindForm o E g check (.struct n .zero) F [] b!"header" = (.ok, .struct n w) ∧ SameVal E (.struct n) v w := by
  refine ⟨_, wire_read _ ht rest, fun F hF => ?_⟩
  refine C90_form o E b!"header" hg hs hnd hF.distinct hF.filled (fun k hk => ?_) check hc
  exact trip_values hl (send_canon E f n v) hsafe (names_canon E f n k hk) (hres k hk) (fun l h => ho l (by simp [h]) k hk)
    (fun l h => ho l (by simp [h]) k hk) hF

/-- **C147 (partial), `Bind2`**: the same, and pointers that were nil are nil. -/
theorem C147_bind2_partial (o : BOracle) (E : TyEnv) {f g n : Nat} (hg : f ≤ g) {v : Val}
    (hs : SendableOld E true b!"header" f (.struct n) emptyField v) (hnd : (namesOld E true b!"header" f (.struct n) emptyField).Nodup)
    {ls before after : List (Str × Str)} (hl : SameLines (sendOld E true b!"header" f (.struct n) emptyField v) ls)
    (ho : ∀ l ∈ before ++ after, ∀ k ∈ namesOld E true b!"header" f (.struct n) emptyField, ¬ SameHeader l.1 k)
    (ht : TokenNames (before ++ ls ++ after)) (hsafe : ∀ l ∈ sendOld E true b!"header" f (.struct n) emptyField v, FieldSafe l.2)
    (hres : ∀ k ∈ namesOld E true b!"header" f (.struct n) emptyField, k ∉ reservedFields) (rest : Str)
    (check : Val → Option Nat) (hc : ∀ t, check t = none) :
    ∃ h, readMIMEHeader (wireHeader (before ++ ls ++ after) ++ rest) = .ok h rest ∧ ∀ F, ListsHeader (serverHeader h) F →
      ∃ w, bind2 o E (g + 1) check ⟨F, [], true⟩ b!"header" n .zero = (.ok, w) ∧ SameVal E (.struct n) v w := by
  refine ⟨_, wire_read _ ht rest, fun F hF => ?_⟩
  refine C98_source o E b!"header" (src := ⟨F, [], true⟩) rfl hg hs hnd hF.distinct hF.filled (fun k hk => ?_) check hc
  exact trip_values hl (sendOld_canon E _ f _ _ v) hsafe (namesOld_canon E _ f _ _ k hk) (hres k hk) (fun l h => ho l (by simp [h]) k hk)
    (fun l h => ho l (by simp [h]) k hk) hF

/-! ### every header can be listed -/

theorem lists_empty : ListsHeader Map.empty [] := ⟨List.nodup_nil, by simp, fun _ => rfl⟩

theorem lists_drop {h : Header} {F : Form} (hF : ListsHeader h F) (k : Str) : ListsHeader (h.drop k) (F.filter (fun e => e.1 ≠ k)) := by
  refine ⟨?_, fun e he => hF.filled e ((List.mem_filter.1 he).1), fun j => ?_⟩
  · exact hF.distinct.sublist ((List.filter_sublist).map _)
  · show _ = if j = k then none else h j
    rw [← hF.same j]
    unfold Form.at
    by_cases e : j = k
    · rw [if_pos e, Option.map_eq_none_iff, List.find?_eq_none]
      intro x hx
      have := (List.mem_filter.1 hx).2
      subst e
      simpa using this
    · rw [if_neg e, List.find?_filter]
      congr 1
      congr 1
      funext x
      by_cases hx : x.1 = j
      · simp [hx, e]
      · simp [hx]

theorem lists_set {h : Header} {F : Form} (hF : ListsHeader h F) (k : Str) {vs : List Str} (hv : vs ≠ []) : ∃ F', ListsHeader (Map.set h k vs) F' := by
  have hd := lists_drop hF k
  refine ⟨(k, vs) :: F.filter (fun e => e.1 ≠ k), ?_, ?_, ?_⟩
  · rw [List.map_cons, List.nodup_cons]
    refine ⟨?_, hd.distinct⟩
    intro hm
    obtain ⟨e, he, hk⟩ := List.mem_map.1 hm
    have := (List.mem_filter.1 he).2
    simp [hk] at this
  · intro e he
    rcases List.mem_cons.1 he with rfl | he
    · exact hv
    · exact hd.filled e he
  · intro j
    by_cases e : j = k
    · subst e
      rw [Map.set_same]
      simp [Form.at]
    · rw [Map.set_other _ _ e]
      have := hd.same j
      rw [show (h.drop k) j = h j from if_neg e] at this
      rw [← this]
      unfold Form.at
      rw [List.find?_cons, show ((k, vs).1 == j) = false by simpa using fun h => e h.symm]

/-- C147: every header that is read has a list of its names and values: the hypothesis of the theorems is met. -/
theorem C147_listed (lines : List (Str × Str)) (ht : TokenNames lines) (rest : Str) :
    ∃ h F, readMIMEHeader (wireHeader lines ++ rest) = .ok h rest ∧ ListsHeader (serverHeader h) F := by
  have hadd : ∀ (ls : List (Str × Str)) (h : Header) (F : Form), ListsHeader h F → ∃ F', ListsHeader (addLines h ls) F' := by
    intro ls
    induction ls with
    | nil => exact fun h F hF => ⟨F, hF⟩
    | cons l ls ih =>
      intro h F hF
      obtain ⟨F', hF'⟩ := lists_set hF (canonKey l.1) (vs := (h (canonKey l.1)).getD [] ++ [fieldText l.2]) (by simp)
      exact ih _ F' hF'
  obtain ⟨F, hF⟩ := hadd lines Map.empty [] lists_empty
  have h1 := lists_drop hF b!"Host"
  have h2 : ∃ F2, ListsHeader (if ((Header.drop (addLines Map.empty lines) b!"Host") b!"Pragma").bind List.head? = some b!"no-cache" ∧
      (Header.drop (addLines Map.empty lines) b!"Host") b!"Cache-Control" = none
      then Map.set (Header.drop (addLines Map.empty lines) b!"Host") b!"Cache-Control" [b!"no-cache"] else Header.drop (addLines Map.empty lines) b!"Host") F2 := by
    split
    · exact lists_set h1 _ (by simp)
    · exact ⟨_, h1⟩
  obtain ⟨F2, h2⟩ := h2
  exact ⟨_, _, wire_read lines ht rest, lists_drop (lists_drop h2 b!"Transfer-Encoding") b!"Trailer"⟩

namespace Demo

/-- a field with a header tag -/
def tripFld (name tag : Str) (ty : Ty) : Field :=
  { name := name, exported := true, anonymous := false, tag := fun k => if k = b!"header" then tag else [], ty := ty }

/-- `type Page struct { Limit int16 `header:"x-limit"`; Tags []string `header:"X-TAG"`; Note string `header:"X-Note"` }` -/
def pageEnv : TyEnv := fun _ => [tripFld b!"Limit" b!"x-limit" (.int 16), tripFld b!"Tags" b!"X-TAG" (.slice .string), tripFld b!"Note" b!"X-Note" .string]

/-- a page -/
def pageVal : Val := .struct [.int (-30), .slice [.string b!"a b", .string []], .string b!"x: y"]

theorem page_sendable : Sendable pageEnv b!"header" 1 0 pageVal := by
  refine ⟨trivial, rfl, ?_⟩
  intro i fd x h1 h2
  have hi : i = 0 ∨ i = 1 ∨ i = 2 := by
    have : i < 3 := (List.getElem?_eq_some_iff.1 h1).1
    omega
  rcases hi with rfl | rfl | rfl <;> cases h1 <;> cases h2
  · exact .inr ⟨rfl, rfl, by decide +kernel, ⟨by decide, by decide⟩, trivial, ⟨by decide, by decide⟩⟩
  · exact .inr ⟨rfl, rfl, by decide +kernel, by decide +kernel, trivial, by
      intro a ha
      have : a = .string b!"a b" ∨ a = .string [] := by simpa [elemsIn] using ha
      rcases this with rfl | rfl <;> exact ⟨trivial, trivial, trivial⟩⟩
  · exact .inr ⟨rfl, rfl, by decide +kernel, trivial, trivial, trivial⟩

/-- the header lines of a request for it -/
def pageLines : List (Str × Str) := [(b!"X-LIMIT", b!"-30"), (b!"x-tag", b!"a b"), (b!"x-tag", []), (b!"X-Note", b!"x: y")]

theorem page_send : send pageEnv b!"header" 1 0 pageVal = [(b!"X-Limit", b!"-30"), (b!"X-Tag", b!"a b"), (b!"X-Tag", []), (b!"X-Note", b!"x: y")] := by
  decide +kernel

/-- lines that are the same but for the spelling -/
theorem sameLines_check {ls ls' : List (Str × Str)} (h : ls.map (fun l => (canonKey l.1, l.2)) = ls'.map (fun l => (canonKey l.1, l.2))) : SameLines ls ls' := by
  induction ls generalizing ls' with
  | nil =>
    cases ls' with
    | nil => exact .nil
    | cons => cases h
  | cons l ls ih =>
    cases ls' with
    | nil => cases h
    | cons l' ls' =>
      obtain ⟨k, v⟩ := l
      obtain ⟨k', v'⟩ := l'
      simp only [List.map_cons, List.cons.injEq, Prod.mk.injEq] at h
      obtain ⟨⟨h1, rfl⟩, h2⟩ := h
      exact .cons (canonKey_eq.1 h1) (ih h2)

/-- Beside the theorems: the lines of a request for a page, with others around them, and the struct that comes back. -/
theorem C147_demo :
    wireHeader ([(b!"Host", b!"a.b")] ++ pageLines ++ [(b!"Accept", b!"*/*")]) =
      b!"Host: a.b\r\nX-LIMIT: -30\r\nx-tag: a b\r\nx-tag: \r\nX-Note: x: y\r\nAccept: */*\r\n\r\n" ∧
    ∃ h F w, readMIMEHeader (wireHeader ([(b!"Host", b!"a.b")] ++ pageLines ++ [(b!"Accept", b!"*/*")]) ++ b!"body") = .ok h b!"body" ∧
      ListsHeader (serverHeader h) F ∧
      bindForm bindO pageEnv 1 (fun _ => none) (.struct 0 .zero) F [] b!"header" = (.ok, .struct 0 w) ∧ SameVal pageEnv (.struct 0) pageVal w := by
  refine ⟨by decide +kernel, ?_⟩
  have ht : TokenNames ([(b!"Host", b!"a.b")] ++ pageLines ++ [(b!"Accept", b!"*/*")]) := by
    have : ∀ l ∈ [(b!"Host", b!"a.b")] ++ pageLines ++ [(b!"Accept", b!"*/*")], l.1 ≠ [] ∧ ∀ c ∈ l.1, c ∈ tokenBytes := by decide +kernel
    exact this
  obtain ⟨h, hh, hF⟩ := C147_bind_partial bindO pageEnv (Nat.le_refl 1) page_sendable (by decide +kernel) (ls := pageLines)
    (before := [(b!"Host", b!"a.b")]) (after := [(b!"Accept", b!"*/*")]) (sameLines_check (by decide +kernel))
    (by
      intro l hl k hk hsame
      have : ∀ l ∈ [(b!"Host", b!"a.b")] ++ [(b!"Accept", b!"*/*")], ∀ k ∈ namesOf pageEnv b!"header" 1 0, canonKey l.1 ≠ canonKey k := by decide +kernel
      exact this l hl k hk (canonKey_eq.2 hsame))
    ht
    (by
      intro l hl
      rw [← C147_text]
      have : ∀ l ∈ send pageEnv b!"header" 1 0 pageVal, fieldText l.2 = l.2 := by decide +kernel
      exact this l hl)
    (by decide +kernel) b!"body" (fun _ => none) (fun _ => rfl)
  obtain ⟨h', F, hh', hF'⟩ := C147_listed _ ht b!"body"
  rw [hh] at hh'
  cases hh'
  obtain ⟨w, hw⟩ := hF F hF'
  exact ⟨h, F, w, hh, hF', hw⟩

/-- `type Note struct { T string `header:"X-Note"` }` -/
def lineEnv : TyEnv := fun _ => [tripFld b!"T" b!"X-Note" .string]

/-- `type Site struct { T string `header:"Host"` }` -/
def siteEnv : TyEnv := fun _ => [tripFld b!"T" b!"Host" .string]

theorem oneField_sendable {E : TyEnv} {fd : Field} (he : E 0 = [fd]) (h1 : fd.exported = true) (h2 : fd.anonymous = false) (h3 : fd.ty = .string)
    (h4 : bindName fd b!"header" ≠ none) (s : Str) : Sendable E b!"header" 1 0 (.struct [.string s]) := by
  refine ⟨trivial, by rw [he]; rfl, ?_⟩
  intro i f x e1 e2
  rw [he] at e1 e2
  have hi : i = 0 := by
    have : i < 1 := (List.getElem?_eq_some_iff.1 e1).1
    omega
  subst hi
  cases e1
  cases e2
  refine .inr ⟨h1, ?_⟩
  rw [h3]
  exact ⟨h2, h4, trivial, trivial, trivial⟩

end Demo

open Demo

theorem string_struct_differs {E : TyEnv} {fd : Field} (he : E 0 = [fd]) (h3 : fd.ty = .string) {s t : Str} (hne : s ≠ t) :
    ¬ SameVal E (.struct 0) (.struct [.string s]) (.struct [.string t]) := by
  intro h
  cases h with
  | refl => exact hne rfl
  | struct _ _ _ _ h =>
    have := h 0 fd (.string s) (.string t) (by rw [he]; rfl) (by rw [he]; rfl) (by rw [he]; rfl)
    rw [h3] at this
    cases this with
    | refl => exact hne rfl
    | string _ _ e => exact hne e

theorem serverHeader_none {h : Header} {k : Str} (hp : h b!"Pragma" = none) (hk : k = b!"Host" ∨ h k = none) : serverHeader h k = none := by
  have hn : ¬ ((Header.drop h b!"Host" b!"Pragma").bind List.head? = some b!"no-cache" ∧ Header.drop h b!"Host" b!"Cache-Control" = none) := by
    intro hc
    have : Header.drop h b!"Host" b!"Pragma" = none := by
      show (if _ then none else _) = none
      rw [hp]
      split <;> rfl
    rw [this] at hc
    exact absurd hc.1 (by simp)
  have hd : Header.drop h b!"Host" k = none := by
    show (if k = b!"Host" then none else h k) = none
    rcases hk with e | e
    · exact if_pos e
    · rw [e]; split <;> rfl
  unfold serverHeader
  show (if k = b!"Trailer" then none else if k = b!"Transfer-Encoding" then none else _) = none
  rw [if_neg hn, hd]
  split
  · rfl
  · split <;> rfl

/-- C147 without the condition on the texts is false: the blank at the start of a string is lost. -/
theorem C147_refuted : Sendable lineEnv b!"header" 1 0 (.struct [.string b!" a"]) ∧
    ∃ h F, readMIMEHeader (wireHeader (send lineEnv b!"header" 1 0 (.struct [.string b!" a"]))) = .ok h [] ∧ ListsHeader (serverHeader h) F ∧
      bindForm bindO lineEnv 1 (fun _ => none) (.struct 0 .zero) F [] b!"header" = (.ok, .struct 0 (.struct [.string b!"a"])) ∧
      ¬ SameVal lineEnv (.struct 0) (.struct [.string b!" a"]) (.struct [.string b!"a"]) := by
  refine ⟨oneField_sendable rfl rfl rfl rfl (by decide +kernel) _, addLines Map.empty [(b!"X-Note", b!" a")], [(b!"X-Note", [b!"a"])], ?_, ?_, rfl,
    string_struct_differs rfl rfl (by decide)⟩
  · have e : send lineEnv b!"header" 1 0 (.struct [.string b!" a"]) = [(b!"X-Note", b!" a")] := by decide +kernel
    have := wire_read [(b!"X-Note", b!" a")] (by unfold TokenNames; decide +kernel) []
    rw [List.append_nil] at this
    rw [e, this]
  · refine ⟨by decide, by decide, fun k => ?_⟩
    by_cases hk : k = b!"X-Note"
    · subst hk; decide +kernel
    · have : serverHeader (addLines Map.empty [(b!"X-Note", b!" a")]) k = none := by
        refine serverHeader_none (by decide +kernel) (.inr ?_)
        unfold addLines
        exact Map.set_other _ _ hk
      rw [this]
      simp [Form.at, Ne.symm hk]

/-- C147 without the condition on the names is false: `Host` is not left in the header. -/
theorem C147_refuted_host : Sendable siteEnv b!"header" 1 0 (.struct [.string b!"a.b"]) ∧
    ∃ h, readMIMEHeader (wireHeader (send siteEnv b!"header" 1 0 (.struct [.string b!"a.b"]))) = .ok h [] ∧ ListsHeader (serverHeader h) [] ∧
      bindForm bindO siteEnv 1 (fun _ => none) (.struct 0 .zero) [] [] b!"header" = (.ok, .struct 0 (.struct [.zero])) ∧
      ¬ SameVal siteEnv (.struct 0) (.struct [.string b!"a.b"]) (.struct [.zero]) := by
  refine ⟨oneField_sendable rfl rfl rfl rfl (by decide +kernel) _, addLines Map.empty [(b!"Host", b!"a.b")], ?_, ?_, rfl, ?_⟩
  · have e : send siteEnv b!"header" 1 0 (.struct [.string b!"a.b"]) = [(b!"Host", b!"a.b")] := by decide +kernel
    have := wire_read [(b!"Host", b!"a.b")] (by unfold TokenNames; decide +kernel) []
    rw [List.append_nil] at this
    rw [e, this]
  · refine ⟨by decide, by decide, fun k => ?_⟩
    show none = _
    refine (serverHeader_none (by decide +kernel) ?_).symm
    by_cases hk : k = b!"Host"
    · exact .inl hk
    · refine .inr ?_
      unfold addLines
      exact Map.set_other _ _ hk
  · intro h
    cases h with
    | struct _ _ _ _ h =>
      have := h 0 (tripFld b!"T" b!"Host" .string) (.string b!"a.b") .zero rfl rfl rfl
      cases this with
      | string _ _ e => exact absurd e (by decide)

end Water
