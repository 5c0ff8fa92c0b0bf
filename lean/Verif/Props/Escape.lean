import Verif.Model.Escape
import Verif.Spec.Escape
/-
C113: `CookieEscape`.
-/
namespace Water
open Spec

/-! ### the loop -/

theorem htmlOf_none {c : UInt8} : htmlOf c = none ↔ c ∉ markup := by
  unfold htmlOf markup
  repeat' split
  all_goals simp_all

/-- what is written for a byte -/
def shownByte (c : UInt8) : Str := (htmlOf c).getD [c]

theorem shownByte_plain {c : UInt8} (h : c ∉ markup) : shownByte c = [c] := by
  unfold shownByte; rw [htmlOf_none.2 h]; rfl

theorem plain_bytes : ∀ (m : Str), (∀ c ∈ m, htmlOf c = none) → m.flatMap shownByte = m
  | [], _ => rfl
  | c :: m, h => by
    rw [List.flatMap_cons, plain_bytes m (fun c' hc => h c' (by simp [hc])), shownByte, h c (by simp)]
    rfl

theorem htmlLoop_eq (rest : Str) : ∀ (done mid : Str), (∀ c ∈ mid, htmlOf c = none) →
    htmlLoop (done ++ mid ++ rest) done.length (done.length + mid.length) rest = (mid ++ rest).flatMap shownByte := by
  induction rest with
  | nil =>
    intro done mid h
    simp only [htmlLoop, List.append_nil, List.drop_left]
    exact (plain_bytes mid h).symm
  | cons c rest ih =>
    intro done mid h
    unfold htmlLoop
    cases hc : htmlOf c with
    | none =>
      have := ih done (mid ++ [c]) (by
        intro c' h'
        rcases List.mem_append.1 h' with h' | h'
        · exact h c' h'
        · rw [List.mem_singleton.1 h']; exact hc)
      simp only [List.append_assoc, List.length_append, List.length_singleton, List.singleton_append, Nat.add_assoc] at this
      simp only [List.append_assoc, Nat.add_assoc]
      exact this
    | some html =>
      have := ih (done ++ mid ++ [c]) [] (by simp)
      simp only [List.append_assoc, List.length_append, List.length_singleton, List.singleton_append, List.length_nil, Nat.add_zero,
        List.nil_append, ← Nat.add_assoc] at this
      have e : ((done ++ (mid ++ c :: rest)).take (done.length + mid.length)).drop done.length = mid := by
        rw [← List.append_assoc, ← List.length_append, List.take_left, List.drop_left]
      simp only [List.append_assoc, List.flatMap_append, List.flatMap_cons, plain_bytes mid h]
      rw [e, this]
      have : shownByte c = html := by unfold shownByte; rw [hc]; rfl
      rw [this]

theorem htmlEscape_eq (s : Str) : htmlEscapeString s = s.flatMap shownByte := by
  unfold htmlEscapeString
  split
  · exact htmlLoop_eq s [] [] (by simp)
  · rename_i h
    refine (plain_bytes s (fun c hc => htmlOf_none.2 (fun hm => h ?_))).symm
    rw [List.any_eq_true]
    refine ⟨c, hc, ?_⟩
    simp only [markup, List.mem_cons, List.not_mem_nil, or_false] at hm
    rcases hm with rfl | rfl | rfl | rfl | rfl | rfl <;> decide

/-! ### the values of cookies -/

theorem parseCookieValue_bytes {raw v : Str} (h : parseCookieValue raw = some v) : ∀ c ∈ v, cookieValueByte c = true := by
  unfold parseCookieValue at h
  dsimp only at h
  generalize (if raw.length > 1 ∧ raw.head? = some 34 ∧ raw.getLast? = some 34 then (raw.drop 1).dropLast else raw) = r at h
  split at h
  · rename_i ha
    cases h
    exact List.all_eq_true.1 ha
  · cases h

theorem cookiePart_bytes {part : Str} {p : Str × Str} (h : cookiePart part = some p) : ∀ c ∈ p.2, cookieValueByte c = true := by
  have fin : ∀ q : Str × Str, (if (!cookieNameValid q.1) = true then none else (parseCookieValue q.2).map (fun v => (q.1, v))) = some p →
      ∀ c ∈ p.2, cookieValueByte c = true := by
    intro q h
    split at h
    · cases h
    · cases hv : parseCookieValue q.2 with
      | none => rw [hv] at h; cases h
      | some v => rw [hv] at h; cases h; exact parseCookieValue_bytes hv
  unfold cookiePart at h
  dsimp only at h
  split at h
  · cases h
  · exact fin _ h

theorem cookieLine_bytes : ∀ (f : Nat) (line : Str) (p : Str × Str), p ∈ cookieLine f line → ∀ c ∈ p.2, cookieValueByte c = true := by
  intro f
  induction f with
  | zero => intro line p h; cases h
  | succ f ih =>
    intro line p h
    have fin : ∀ q : Str × Str, p ∈ (cookiePart q.1).toList ++ cookieLine f q.2 → ∀ c ∈ p.2, cookieValueByte c = true := by
      intro q h
      rcases List.mem_append.1 h with h | h
      · cases hp : cookiePart q.1 with
        | none => rw [hp] at h; cases h
        | some r =>
          rw [hp] at h
          simp at h
          subst h
          exact cookiePart_bytes hp
      · exact ih q.2 p h
    cases line with
    | nil => cases h
    | cons a line =>
      rw [cookieLine.eq_def] at h
      dsimp only at h
      exact fin _ h

theorem cookieOf_bytes (h : Header) (name : Str) : ∀ c ∈ cookieOf h name, cookieValueByte c = true := by
  unfold cookieOf cookie
  cases hf : (readCookies h).find? (fun e => name = [] || e.1 == name) with
  | none => intro c hc; cases hc
  | some p =>
    have hm := List.mem_of_find?_eq_some hf
    unfold readCookies at hm
    obtain ⟨line, _, hl⟩ := List.mem_flatMap.1 hm
    exact cookieLine_bytes _ _ p hl

/-! ### C113 -/

/-- C113: a reader of HTML takes the escaped text for the text itself, whatever it is; only NUL is shown as U+FFFD. -/
theorem C113_escape (s : Str) : Means (htmlEscapeString s) (s.flatMap (fun c => if c = 0 then [0xEF, 0xBF, 0xBD] else [c])) := by
  rw [htmlEscape_eq]
  induction s with
  | nil => exact .nil
  | cons c s ih =>
    rw [List.flatMap_cons, List.flatMap_cons]
    by_cases h0 : c = 0
    · subst h0
      exact .plain (by decide) (.plain (by decide) (.plain (by decide) ih))
    · rw [if_neg h0]
      by_cases hm : c ∈ markup
      · have href : (shownByte c, c) ∈ references := by
          simp only [markup, List.mem_cons, List.not_mem_nil, or_false] at hm
          rcases hm with rfl | rfl | rfl | rfl | rfl | rfl <;> first | exact absurd rfl h0 | decide
        exact .reference href ih
      · rw [shownByte_plain hm]
        exact .plain hm ih

/-- C113: what `CookieEscape` returns means the value of the cookie, for every request. -/
theorem C113_means (h : Header) (name : Str) : Means (cookieEscape h name) (cookieOf h name) := by
  have hz : ∀ c ∈ cookieOf h name, c ≠ 0 := by
    rintro c hc rfl
    exact absurd (cookieOf_bytes h name 0 hc) (by decide)
  have := C113_escape (cookieOf h name)
  have e : ∀ (s : Str), (∀ c ∈ s, c ≠ 0) → s.flatMap (fun c => if c = 0 then [0xEF, 0xBF, 0xBD] else [c]) = s := by
    intro s
    induction s with
    | nil => intro _; rfl
    | cons c s ih =>
      intro hs
      rw [List.flatMap_cons, if_neg (hs c (by simp)), ih (fun c' h' => hs c' (by simp [h']))]
      rfl
  rw [e _ hz] at this
  exact this

/-- C113: it holds no byte that could start or end a tag or an attribute, -/
theorem C113_inert (h : Header) (name : Str) : ∀ c ∈ cookieEscape h name, c ≠ 60 ∧ c ≠ 62 ∧ c ≠ 34 ∧ c ≠ 39 ∧ c ≠ 0 := by
  have key : ∀ {t s : Str}, Means t s → ∀ c ∈ t, c ≠ 60 ∧ c ≠ 62 ∧ c ≠ 34 ∧ c ≠ 39 ∧ c ≠ 0 := by
    intro t s hm
    induction hm with
    | nil => intro c hc; cases hc
    | @plain a t s ha _ ih =>
      intro c hc
      rcases List.mem_cons.1 hc with rfl | hc
      · simp only [markup, List.mem_cons, List.not_mem_nil, or_false, not_or] at ha
        exact ⟨ha.2.2.2.2.1, ha.2.2.2.2.2, ha.2.1, ha.2.2.2.1, ha.1⟩
      · exact ih c hc
    | @reference e a t s he _ ih =>
      intro c hc
      rcases List.mem_append.1 hc with hc | hc
      · have : ∀ p ∈ references, ∀ c ∈ p.1, c ≠ 60 ∧ c ≠ 62 ∧ c ≠ 34 ∧ c ≠ 39 ∧ c ≠ 0 := by decide
        exact this _ he c hc
      · exact ih c hc
  exact key (C113_means h name)

/-- C113: a text has at most one meaning; -/
theorem C113_reader {t s s' : Str} (h : Means t s) (h' : Means t s') : s = s' := by
  induction h generalizing s' with
  | nil =>
    generalize ht : ([] : Str) = t at h'
    cases h' with
    | nil => rfl
    | plain => cases ht
    | reference he =>
      simp only [references, List.mem_cons, Prod.mk.injEq, List.not_mem_nil, or_false] at he
      rcases he with ⟨rfl, _⟩ | ⟨rfl, _⟩ | ⟨rfl, _⟩ | ⟨rfl, _⟩ | ⟨rfl, _⟩ <;> cases ht
  | @plain c t s hc _ ih =>
    generalize ht : c :: t = u at h'
    cases h' with
    | nil => cases ht
    | plain _ hm => cases ht; rw [ih hm]
    | reference he =>
      exfalso
      simp only [references, List.mem_cons, Prod.mk.injEq, List.not_mem_nil, or_false] at he
      rcases he with ⟨rfl, _⟩ | ⟨rfl, _⟩ | ⟨rfl, _⟩ | ⟨rfl, _⟩ | ⟨rfl, _⟩ <;> (cases ht; exact hc (by decide))
  | @reference e c t s he _ ih =>
    generalize ht : e ++ t = u at h'
    cases h' with
    | nil =>
      exfalso
      simp only [references, List.mem_cons, Prod.mk.injEq, List.not_mem_nil, or_false] at he
      rcases he with ⟨rfl, _⟩ | ⟨rfl, _⟩ | ⟨rfl, _⟩ | ⟨rfl, _⟩ | ⟨rfl, _⟩ <;> cases ht
    | plain hc' _ =>
      exfalso
      simp only [references, List.mem_cons, Prod.mk.injEq, List.not_mem_nil, or_false] at he
      rcases he with ⟨rfl, _⟩ | ⟨rfl, _⟩ | ⟨rfl, _⟩ | ⟨rfl, _⟩ | ⟨rfl, _⟩ <;> (cases ht; exact hc' (by decide))
    | @reference e' c' t' s' he' hm =>
      simp only [references, List.mem_cons, Prod.mk.injEq, List.not_mem_nil, or_false] at he he'
      rcases he with ⟨rfl, rfl⟩ | ⟨rfl, rfl⟩ | ⟨rfl, rfl⟩ | ⟨rfl, rfl⟩ | ⟨rfl, rfl⟩ <;>
      rcases he' with ⟨rfl, rfl⟩ | ⟨rfl, rfl⟩ | ⟨rfl, rfl⟩ | ⟨rfl, rfl⟩ | ⟨rfl, rfl⟩ <;>
      first | (have ht := List.append_cancel_left ht; subst ht; rw [ih hm]) | (injections; contradiction) | (exfalso; simp at ht)

/-- C113: so that cookies shown alike are alike. -/
theorem C113_faithful {h h' : Header} {name name' : Str} (e : cookieEscape h name = cookieEscape h' name') : cookieOf h name = cookieOf h' name' :=
  C113_reader (C113_means h name) (e ▸ C113_means h' name')

/-- C113: a value without markup is returned as it is, any other is changed. -/
theorem C113_same (h : Header) (name : Str) : cookieEscape h name = cookieOf h name ↔ ∀ c ∈ cookieOf h name, c ∉ markup := by
  have hm := C113_means h name
  constructor
  · intro e c hc hk
    have hi := C113_inert h name c (e ▸ hc)
    simp only [markup, List.mem_cons, List.not_mem_nil, or_false] at hk
    rcases hk with rfl | rfl | rfl | rfl | rfl | rfl <;> try simp at hi
    -- an ampersand makes the text longer
    have key : ∀ {t s : Str}, Means t s → s.length ≤ t.length ∧ (38 ∈ s → s.length < t.length) := by
      intro t s h
      induction h with
      | nil => simp
      | @plain c t s hc _ ih =>
        refine ⟨by simpa using ih.1, fun h => ?_⟩
        rcases List.mem_cons.1 h with rfl | h
        · exact absurd (by decide) hc
        · simpa using ih.2 h
      | @reference e c t s he _ ih =>
        have : 4 ≤ e.length := by
          simp only [references, List.mem_cons, Prod.mk.injEq, List.not_mem_nil, or_false] at he
          rcases he with ⟨rfl, _⟩ | ⟨rfl, _⟩ | ⟨rfl, _⟩ | ⟨rfl, _⟩ | ⟨rfl, _⟩ <;> decide
        simp only [List.length_cons, List.length_append]
        omega
    have := (key hm).2 hc
    rw [e] at this
    exact absurd this (Nat.lt_irrefl _)
  · intro hp
    unfold cookieEscape
    rw [htmlEscape_eq]
    exact plain_bytes _ (fun c hc => htmlOf_none.2 (hp c hc))

namespace Demo

/-- a cookie that would be a script -/
def scriptCookie : Header := Map.set Map.empty b!"Cookie" [b!"n=1; c=<script>alert('a&b')</script>"]

example : cookieOf scriptCookie b!"c" = b!"<script>alert('a&b')</script>" ∧
    cookieEscape scriptCookie b!"c" = b!"&lt;script&gt;alert(&#39;a&amp;b&#39;)&lt;/script&gt;" ∧
    cookieEscape scriptCookie b!"n" = b!"1" := by decide +kernel

example : htmlEscapeString ([0] ++ b!"\"") = [0xEF, 0xBF, 0xBD] ++ b!"&#34;" := by decide +kernel

end Demo

end Water
