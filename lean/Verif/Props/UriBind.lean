import Verif.Model.UriBind
import Verif.Spec.UriBind
import Verif.Props.Link
import Verif.Props.RoundTrip
import Verif.Props.RoundTripOld
/-
C146: a struct in a link.
-/
namespace Water
open Spec Demo
variable {α : Type}

theorem params_values {ps : Map Str Str} {F : Form} (h : ParamsForm ps F) {k v : Str} (hk : ps k = some v) : values F k = [v] := by
  have hm := h.each k v hk
  have hd := h.distinct
  clear h hk
  unfold values
  induction F with
  | nil => cases hm
  | cons e F ih =>
    rw [List.map_cons, List.nodup_cons] at hd
    rcases List.mem_cons.1 hm with rfl | hm
    · have : F.filter (fun e => e.1 == k) = [] := by
        rw [List.filter_eq_nil_iff]
        intro x hx he
        exact hd.1 (List.mem_map.2 ⟨x, hx, by simpa using he⟩)
      simp [this]
    · have hne : (e.1 == k) = false := by
        rw [Bool.eq_false_iff]
        intro he
        exact hd.1 (List.mem_map.2 ⟨_, hm, (by simpa using he : e.1 = k).symm⟩)
      rw [List.filter_cons, hne]
      exact ih hm hd.2

theorem params_filled {ps : Map Str Str} {F : Form} (h : ParamsForm ps F) : ∀ e ∈ F, e.2 ≠ [] := by
  intro e he
  obtain ⟨v, _, h2⟩ := h.only e he
  rw [h2]
  simp

theorem says_param {p : LinkPattern} {env : Str → Str} {tail : List Str} {ps : Map Str Str} (h1 : ∀ x ∈ holesOf p.parts, ps x = some (env x))
    (h2 : ∀ x, p.rest = some x → ps (restKey x) = some (join [slash] tail)) {k t : Str} (h : LinkSays p env tail k t) : ps k = some t := by
  rcases h with ⟨hk, rfl⟩ | ⟨x, hx, rfl, rfl⟩
  · exact h1 k hk
  · exact h2 x hx

section
variable {rx : Regex} {nf : List α} {rs : List (Route α)} {e : Engine α} {v : Route α} {p : LinkPattern} {env : Str → Str} {tail : List Str} {path : Str}

/-- C146: a struct is written into a link, each of its texts in the place that has its name. Then the request for the link is served by the route of
the pattern, and `binding.Uri.Bind` makes the struct of the parameters again. -/
theorem C146_bind (h : mkEngine rx false nf rs = .ok e) (hv : v ∈ rs)
    (hinj : rs.Pairwise (fun a b => a.method = v.method → b.method = v.method → routeSegs a.uri ≠ routeSegs b.uri))
    (hs : p.Sound) (hw : v.uri = p.written) (hf : p.Fits env tail) (hp : unescape (p.link env tail) = some path)
    (hwin : ∀ w ∈ rs, w.method = v.method → RouteAccepts rx w path → w = v ∨
      Wins (tableFor v.method rs) (p.filled env tail).length (routeSegs v.uri) (routeSegs w.uri))
    (b : BOracle) (E : TyEnv) {f g n : Nat} (hg : f ≤ g) {x : Val} (hsend : Sendable E b!"uri" f n x) (hnd : (namesOf E b!"uri" f n).Nodup)
    (hone : ∀ k ∈ namesOf E b!"uri" f n, ∃ t, LinkSays p env tail k t ∧ valuesIn (send E b!"uri" f n x) k = [t])
    (check : Target → Option Nat) (hc : ∀ t, check t = none) :
    (routeOf rx e v.method path).map (fun n => (n.handlers, n.uri)) = some (v.handlers, v.uri) ∧
    ∃ ps, paramsOf rx e v.method path = some ps ∧ ∀ F, ParamsForm ps F →
      ∃ w, uriBind b E g check (.struct n .zero) F = (.ok, .struct n w) ∧ SameVal E (.struct n) x w := by
  obtain ⟨k1, k2⟩ := C124_link_partial h hv hinj hs hw hf hp
  obtain ⟨ps, hps, g1, g2⟩ := k2 hwin
  refine ⟨k1.2 hwin, ps, hps, fun F hF => ?_⟩
  refine C90_form b E b!"uri" hg hsend hnd hF.distinct (params_filled hF) (fun k hk => ?_) check hc
  obtain ⟨t, ht, hval⟩ := hone k hk
  rw [hval]
  exact params_values hF (says_param g1 g2 ht)

/-- C146: and so does `binding.Uri.Bind2`. -/
theorem C146_bind2 (h : mkEngine rx false nf rs = .ok e) (hv : v ∈ rs)
    (hinj : rs.Pairwise (fun a b => a.method = v.method → b.method = v.method → routeSegs a.uri ≠ routeSegs b.uri))
    (hs : p.Sound) (hw : v.uri = p.written) (hf : p.Fits env tail) (hp : unescape (p.link env tail) = some path)
    (hwin : ∀ w ∈ rs, w.method = v.method → RouteAccepts rx w path → w = v ∨
      Wins (tableFor v.method rs) (p.filled env tail).length (routeSegs v.uri) (routeSegs w.uri))
    (b : BOracle) (E : TyEnv) {f g n : Nat} (hg : f ≤ g) {x : Val} (hsend : SendableOld E false b!"uri" f (.struct n) emptyField x)
    (hnd : (namesOld E false b!"uri" f (.struct n) emptyField).Nodup)
    (hone : ∀ k ∈ namesOld E false b!"uri" f (.struct n) emptyField,
      ∃ t, LinkSays p env tail k t ∧ valuesIn (sendOld E false b!"uri" f (.struct n) emptyField x) k = [t])
    (check : Val → Option Nat) (hc : ∀ t, check t = none) :
    (routeOf rx e v.method path).map (fun n => (n.handlers, n.uri)) = some (v.handlers, v.uri) ∧
    ∃ ps, paramsOf rx e v.method path = some ps ∧ ∀ F, ParamsForm ps F →
      ∃ w, uriBind2 b E (g + 1) check F n .zero = (.ok, w) ∧ SameVal E (.struct n) x w := by
  obtain ⟨k1, k2⟩ := C124_link_partial h hv hinj hs hw hf hp
  obtain ⟨ps, hps, g1, g2⟩ := k2 hwin
  refine ⟨k1.2 hwin, ps, hps, fun F hF => ?_⟩
  refine C98_source b E b!"uri" (src := ⟨F, [], false⟩) rfl hg hsend hnd hF.distinct (params_filled hF) (fun k hk => ?_) check hc
  obtain ⟨t, ht, hval⟩ := hone k hk
  rw [hval]
  exact params_values hF (says_param g1 g2 ht)

end

theorem form_of_list (ps : Map Str Str) (L : List Str) : ∃ F : Form, (F.map Prod.fst).Nodup ∧ (∀ k ∈ L, ∀ v, ps k = some v → (k, [v]) ∈ F) ∧
    (∀ e ∈ F, e.1 ∈ L ∧ ∃ v, ps e.1 = some v ∧ e.2 = [v]) := by
  induction L with
  | nil => exact ⟨[], List.nodup_nil, by simp, by simp⟩
  | cons k L ih =>
    obtain ⟨F, h1, h2, h3⟩ := ih
    by_cases hk : k ∈ L
    · refine ⟨F, h1, fun x hx => ?_, fun e he => ⟨List.mem_cons_of_mem _ (h3 e he).1, (h3 e he).2⟩⟩
      rcases List.mem_cons.1 hx with rfl | hx
      · exact h2 _ hk
      · exact h2 _ hx
    · cases hp : ps k with
      | none =>
        refine ⟨F, h1, fun x hx v hv => ?_, fun e he => ⟨List.mem_cons_of_mem _ (h3 e he).1, (h3 e he).2⟩⟩
        rcases List.mem_cons.1 hx with rfl | hx
        · rw [hp] at hv; cases hv
        · exact h2 _ hx v hv
      | some v =>
        refine ⟨(k, [v]) :: F, ?_, fun x hx u hu => ?_, fun e he => ?_⟩
        · rw [List.map_cons, List.nodup_cons]
          refine ⟨fun hm => ?_, h1⟩
          obtain ⟨e, he, hek⟩ := List.mem_map.1 hm
          have hek : e.1 = k := hek
          exact hk (hek ▸ (h3 e he).1)
        · rcases List.mem_cons.1 hx with rfl | hx
          · rw [hp] at hu; cases hu; exact List.mem_cons_self ..
          · exact List.mem_cons_of_mem _ (h2 _ hx u hu)
        · rcases List.mem_cons.1 he with rfl | he
          · exact ⟨List.mem_cons_self .., v, hp, rfl⟩
          · exact ⟨List.mem_cons_of_mem _ (h3 e he).1, (h3 e he).2⟩

/-- C146: the parameters of a request that is routed can always be written as such a map. -/
theorem C146_map {rx : Regex} {nf : List α} {rs : List (Route α)} {e : Engine α} (h : mkEngine rx false nf rs = .ok e) {m path : Str} {n : EndNode α}
    (hr : routeOf rx e m path = some n) {ps : Params} (hps : paramsOf rx e m path = some ps) : ∃ F, ParamsForm ps F := by
  obtain ⟨v, hv, _, _, _, ps', h1, h2⟩ := C07_no_other_params_partial h hr
  rw [hps] at h1
  cases h1
  obtain ⟨F, f1, f2, f3⟩ := form_of_list ps (declared 0 (routeSegs v.uri) ++ rs.flatMap (fun w => (routeSegs w.uri).flatMap regexNames))
  refine ⟨F, f1, fun k x hx => f2 k ?_ x hx, fun e he => (f3 e he).2⟩
  rcases h2 k (by rw [hx]; simp) with hd | ⟨w, hw, _, c, p, q, rest, hsegs, _, hk⟩
  · exact List.mem_append_left _ hd
  · exact List.mem_append_right _ (List.mem_flatMap.2 ⟨w, hw, List.mem_flatMap.2 ⟨p, by rw [hsegs]; simp, hk⟩⟩)

namespace Demo

/-- a field with a uri tag -/
def ufld (name uri : Str) (ty : Ty) : Field :=
  { name := name, exported := true, anonymous := false, tag := fun k => if k = b!"uri" then uri else [], ty := ty }

/-- `type Item struct { Cat string `uri:"cat"`; ID int16 `uri:"item-id"`; File string `uri:"file"` }` -/
def itemEnv : TyEnv := fun _ => [ufld b!"Cat" b!"cat" .string, ufld b!"ID" b!"item-id" (.int 16), ufld b!"File" b!"file" .string]

/-- an item with awkward texts -/
def itemVal : Val := .struct [.string b!"50% off?", .int (-300), .string b!"a b//c"]

/-- its texts in a link -/
def itemTexts : Str → Str := fun x => if x = b!"cat" then b!"50% off?" else if x = b!"item-id" then b!"-300" else []

theorem itemTexts_fit : shopLink.Fits itemTexts [b!"a b", [], b!"c"] where
  value := by
    intro x hx
    simp only [shopLink, holesOf, List.mem_cons, List.not_mem_nil, or_false] at hx
    rcases hx with rfl | rfl <;> decide +kernel
  tail := fun _ => by decide +kernel

theorem item_sendable : Sendable itemEnv b!"uri" 1 0 itemVal := by
  refine ⟨trivial, rfl, ?_⟩
  intro i fd x h1 h2
  have hi : i = 0 ∨ i = 1 ∨ i = 2 := by
    have : i < 3 := (List.getElem?_eq_some_iff.1 h1).1
    omega
  rcases hi with rfl | rfl | rfl <;> cases h1 <;> cases h2
  · exact .inr ⟨rfl, rfl, by decide +kernel, trivial, trivial, trivial⟩
  · exact .inr ⟨rfl, rfl, by decide +kernel, ⟨by decide, by decide⟩, trivial, ⟨by decide, by decide⟩⟩
  · exact .inr ⟨rfl, rfl, by decide +kernel, trivial, trivial, trivial⟩

/-- Beside the theorems: the link, and the struct that comes back from it. -/
theorem C146_demo : shopLink.link itemTexts [b!"a b", [], b!"c"] = b!"/shop/50%25%20off%3F/-300/a%20b//c" ∧
    ∃ e ps, mkEngine rx false [] [get shopLink.written [2]] = .ok e ∧ paramsOf rx e mGET b!"/shop/50% off?/-300/a b//c" = some ps ∧
      ∀ F, ParamsForm ps F → ∃ w, uriBind bindO itemEnv 1 (fun _ => none) (.struct 0 .zero) F = (.ok, .struct 0 w) ∧ SameVal itemEnv (.struct 0) itemVal w := by
  refine ⟨by decide +kernel, ?_⟩
  obtain ⟨e, he, _⟩ := withEngine_spec (st := false) (rs := [get shopLink.written [2]]) (p := fun _ => true) (by decide +kernel)
  obtain ⟨_, ps, hps, hF⟩ := C146_bind he (v := get shopLink.written [2]) (List.mem_cons_self ..) (List.pairwise_singleton ..) shopLink_sound rfl
    itemTexts_fit (path := b!"/shop/50% off?/-300/a b//c") (by decide +kernel) (fun w hw _ _ => .inl (List.mem_singleton.1 hw))
    bindO itemEnv (Nat.le_refl 1) item_sendable (by decide +kernel)
    (by
      have hn : namesOf itemEnv b!"uri" 1 0 = [b!"cat", b!"item-id", b!"file"] := by decide +kernel
      intro k hk
      rw [hn] at hk
      simp only [List.mem_cons, List.not_mem_nil, or_false] at hk
      rcases hk with rfl | rfl | rfl
      · exact ⟨b!"50% off?", .inl ⟨by decide +kernel, by decide +kernel⟩, by decide +kernel⟩
      · exact ⟨b!"-300", .inl ⟨by decide +kernel, by decide +kernel⟩, by decide +kernel⟩
      · exact ⟨b!"a b//c", .inr ⟨b!"file", rfl, by decide +kernel, by decide +kernel⟩, by decide +kernel⟩)
    (fun _ => none) (fun _ => rfl)
  exact ⟨e, ps, he, hps, hF⟩

end Demo
end Water
