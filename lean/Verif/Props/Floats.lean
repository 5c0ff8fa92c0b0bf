import Verif.Props.Cookie
/-
C114: the floating point accessors. What `strconv.ParseFloat` makes of a text is a parameter; the theorems say which text it is given.
-/
namespace Water
open Spec
variable {pf : Str → UInt64 × Option NumErr}

/-- C114, parameters: the text is the stored one, untouched; the error is the one of `ParseFloat`, and `MustFloat64` drops it. A name
that is not stored panics. -/
theorem C114_param (p : Params) (k : Str) :
    (∀ t, p k = some t → p.float64 pf k = .ok (pf t) ∧ p.mustFloat64 pf k = .ok (pf t).1) ∧
    (p k = none → (∃ e, p.float64 pf k = .error e) ∧ ∃ e, p.mustFloat64 pf k = .error e) := by
  refine ⟨?_, ?_⟩
  · intro t h
    simp [Params.mustFloat64, Params.float64, Params.str, h, Except.map]
  · intro h
    simp [Params.mustFloat64, Params.float64, Params.str, h, Except.map]

/-- C114, form: the text is the first value of the name without the white space around it; if there is none it is the empty text, or
the default as it is. -/
theorem C114_query {f : Form} (hd : (f.map Prod.fst).Nodup) (k dflt : Str) :
    (values f k = [] → f.queryFloat64 pf k = (pf []).1 ∧ f.defaultQueryFloat64 pf k dflt = (pf dflt).1) ∧
    (∀ v vs t, values f k = v :: vs → Trimmed v t → f.queryFloat64 pf k = (pf t).1 ∧ f.defaultQueryFloat64 pf k dflt = (pf t).1) := by
  obtain ⟨h1, h2⟩ := C41_query hd k dflt
  refine ⟨?_, ?_⟩
  · intro hv
    obtain ⟨h3, h4⟩ := h1 hv
    simp [Form.queryFloat64, Form.defaultQueryFloat64, h3, h4]
  · intro v vs t hv ht
    obtain ⟨h3, h4⟩ := h2 v vs hv
    rw [trimmed_unique h3] at h4
    rw [trimmed_unique ht]
    simp [Form.queryFloat64, Form.defaultQueryFloat64, trimmed_unique h3, h4]

/-- C114, cookies: the text is the value of the first cookie of the name that the client sent. -/
theorem C114_cookie {h : Header} {cs : List (Str × Str)} (hn : ∀ c ∈ cs, Token c.1) (hv : ∀ c ∈ cs, ∀ x ∈ c.2, ValueByte x)
    (hh : h b!"Cookie" = some [join b!"; " (cs.map (fun c => c.1 ++ [61] ++ wire c.2))]) {name t : Str} (hne : name ≠ [])
    (hl : cs.lookup name = some t) : cookieFloat64 pf (readCookies h) name = (pf t).1 := by
  obtain ⟨_, hc⟩ := C54_round_trip hn hv hh
  have ht : cookie (readCookies h) name = t := hc name _ hne hl
  rw [cookieFloat64, ht]

/-- C114, round trip: if `fmt` writes a number so that `ParseFloat` reads it back, with no white space around it, then a number written
so into a parameter, into a form value with any white space around it, or into a cookie, is read as that number. -/
theorem C114_round_trip {fmt : UInt64 → Str} (x : UInt64) (hp : pf (fmt x) = (x, none)) (hs : ∀ e ∈ spaces, ¬ e <+: fmt x ∧ ¬ e <:+ fmt x) (k : Str) :
    (∀ p : Params, p k = some (fmt x) → p.float64 pf k = .ok (x, none) ∧ p.mustFloat64 pf k = .ok x) ∧
    (∀ (f : Form) a b vs, (f.map Prod.fst).Nodup → Blanks a → Blanks b → values f k = (a ++ fmt x ++ b) :: vs →
      f.queryFloat64 pf k = x ∧ ∀ d, f.defaultQueryFloat64 pf k d = x) ∧
    (∀ cs, cookie cs k = fmt x → cookieFloat64 pf cs k = x) := by
  refine ⟨?_, ?_, ?_⟩
  · intro p h
    obtain ⟨h1, h2⟩ := (C114_param (pf := pf) p k).1 _ h
    rw [h1, h2, hp]; exact ⟨rfl, rfl⟩
  · intro f a b vs hd ha hb hv
    have ht : Trimmed (a ++ fmt x ++ b) (fmt x) := ⟨a, b, ha, hb, rfl, hs⟩
    have := fun d => (C114_query (pf := pf) hd k d).2 _ _ _ hv ht
    rw [hp] at this
    exact ⟨(this []).1, fun d => (this d).2⟩
  · intro cs h
    simp [cookieFloat64, h, hp]

/-- C114 for whole paths, as `C38_path`: the text read is the segment of the path at the position of the parameter. -/
theorem C114_path {α : Type} {rx : Regex} {nf : List α} {rs : List (Route α)} {e : Engine α}
    (h : mkEngine rx false nf rs = .ok e) {m path : Str} {n : EndNode α} (hr : routeOf rx e m path = some n) :
    ∃ v ∈ rs, v.method = m ∧ v.uri = n.uri ∧ RouteAccepts rx v path ∧ ∃ ps, paramsOf rx e m path = some ps ∧
      ∀ c p d, routeSegs v.uri = c ++ p :: d → kind p = .name → nameText p ≠ underscore →
        ((bindings rx 0 (routeSegs v.uri) (pathSegs path)).map Prod.fst).Nodup →
        ¬ InnerRegexName (routeSegs v.uri) (nameText p) →
        ∀ t, (pathSegs path)[c.length]? = some t → ps.float64 pf (nameText p) = .ok (pf t) ∧ ps.mustFloat64 pf (nameText p) = .ok (pf t).1 := by
  obtain ⟨v, hv, hm, hu, ha, ps, hps, hb⟩ := C06_param_values_partial h hr
  refine ⟨v, hv, hm, hu, ha, ps, hps, ?_⟩
  intro c p d hs hk hn hd hi t ht
  refine (C114_param ps _).1 t (hb hd _ _ ?_ (fun h => absurd h hi))
  rw [hs]; exact bindings_name hk hn d t c 0 _ ht

namespace Demo
/-- a `ParseFloat` that knows 1.5 -/
def pf15 (s : Str) : UInt64 × Option NumErr := if s = b!"1.5" then (0x3FF8000000000000, none) else (0, some .syntax)

/-- the form value is trimmed, the parameter is not -/
example : Form.queryFloat64 pf15 [(b!"x", [b!" 1.5\n", b!"2"])] b!"x" = 0x3FF8000000000000 ∧
    Form.defaultQueryFloat64 pf15 [(b!"x", [])] b!"x" b!"1.5" = 0x3FF8000000000000 ∧
    Form.defaultQueryFloat64 pf15 [] b!"x" b!" 1.5" = 0 ∧
    Params.mustFloat64 pf15 (Map.set Map.empty b!"x" b!" 1.5") b!"x" = .ok 0 ∧
    cookieFloat64 pf15 [(b!"y", b!"7"), (b!"x", b!"1.5"), (b!"x", b!"2")] b!"x" = 0x3FF8000000000000 := by
  refine ⟨by decide +kernel, by decide +kernel, by decide +kernel, rfl, by decide +kernel⟩

example : ∀ e ∈ spaces, ¬ e <+: b!"1.5" ∧ ¬ e <:+ b!"1.5" := by decide +kernel
end Demo

end Water
