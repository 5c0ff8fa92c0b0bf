import Verif.Lemmas.Order
import Verif.Props.Routing
/-
C86: a request is served by the single best registration, and by no other. C87: adding a registration changes nothing for the paths
it does not accept, if it is the last.
-/
namespace Water
open Spec Demo
variable {α : Type}

/-! ## C86 -/

/-- **C86 (the order).** Being the better of two patterns is a strict order, and total on the registered patterns that accept a path:
there are no cycles and no ties, however the patterns overlap. -/
theorem C86_order (tbl : List (Entry α)) (k : Nat) :
    (∀ r, ¬ Wins tbl k r r) ∧ (∀ r1 r2 r3, Wins tbl k r1 r2 → Wins tbl k r2 r3 → Wins tbl k r1 r3) ∧
    ∀ (rx : Regex) (ss : List Str), ss.length = k → ∀ x ∈ tbl, ∀ y ∈ tbl, Accepts rx x.segs ss → Accepts rx y.segs ss →
      x.segs = y.segs ∨ Wins tbl k x.segs y.segs ∨ Wins tbl k y.segs x.segs := by
  refine ⟨fun r h => wins_asymm h h, fun _ _ _ => wins_trans, ?_⟩
  rintro rx ss rfl x hx y hy ha hb
  by_cases h : x.segs = y.segs
  · exact .inl h
  · exact .inr (wins_total ⟨x, hx, rfl⟩ ⟨y, hy, rfl⟩ ha hb h)

theorem best_exists {rx : Regex} {tbl : List (Entry α)} {ss : List Str} (l : List (Entry α)) (hl : ∀ x ∈ l, x ∈ tbl)
    (h : ∃ x ∈ l, Accepts rx x.segs ss) : ∃ z ∈ l, Accepts rx z.segs ss ∧
      ∀ x ∈ l, Accepts rx x.segs ss → x.segs = z.segs ∨ Wins tbl ss.length z.segs x.segs := by
  induction l with
  | nil => simp at h
  | cons y l ih =>
    by_cases hex : ∃ x ∈ l, Accepts rx x.segs ss
    · obtain ⟨z, hz, hza, hzb⟩ := ih (fun x hx => hl x (by simp [hx])) hex
      by_cases hy : Accepts rx y.segs ss
      · by_cases he : y.segs = z.segs
        · refine ⟨z, by simp [hz], hza, ?_⟩
          intro x hx hxa
          rcases List.mem_cons.1 hx with rfl | hx
          · exact .inl he
          · exact hzb x hx hxa
        · rcases wins_total ⟨y, hl y (by simp), rfl⟩ ⟨z, hl z (by simp [hz]), rfl⟩ hy hza he with hw | hw
          · refine ⟨y, by simp, hy, ?_⟩
            intro x hx hxa
            rcases List.mem_cons.1 hx with rfl | hx
            · exact .inl rfl
            · rcases hzb x hx hxa with e | hw'
              · rw [e]; exact .inr hw
              · exact .inr (wins_trans hw hw')
          · refine ⟨z, by simp [hz], hza, ?_⟩
            intro x hx hxa
            rcases List.mem_cons.1 hx with rfl | hx
            · exact .inr hw
            · exact hzb x hx hxa
      · refine ⟨z, by simp [hz], hza, ?_⟩
        intro x hx hxa
        rcases List.mem_cons.1 hx with rfl | hx
        · exact absurd hxa hy
        · exact hzb x hx hxa
    · obtain ⟨x, hx, hxa⟩ := h
      rcases List.mem_cons.1 hx with rfl | hx
      · refine ⟨x, by simp, hxa, ?_⟩
        intro w hw hwa
        rcases List.mem_cons.1 hw with rfl | hw
        · exact .inl rfl
        · exact absurd ⟨w, hw, hwa⟩ hex
      · exact absurd ⟨x, hx, hxa⟩ hex

/-- **C86 (one best).** If any registered pattern accepts a path, exactly one is the best. -/
theorem C86_unique {rx : Regex} {tbl : List (Entry α)} {ss : List Str} (h : ∃ x ∈ tbl, Accepts rx x.segs ss) :
    ∃ r, Best rx tbl ss r ∧ ∀ r', Best rx tbl ss r' → r' = r := by
  obtain ⟨z, hz, hza, hzb⟩ := best_exists tbl (fun _ h => h) h
  have hb : Best rx tbl ss z.segs := ⟨⟨z, hz, rfl⟩, hza, hzb⟩
  exact ⟨z.segs, hb, fun r' h' => best_unique h' hb⟩

theorem chosen_unique {rx : Regex} {tbl : List (Entry α)} {ss : List Str} {h h' : List α} {u u' : Str} (h1 : Chosen rx tbl ss h u)
    (h2 : Chosen rx tbl ss h' u') : h = h' ∧ u = u' := by
  obtain ⟨r, b1, f1, l1⟩ := h1
  obtain ⟨r', b2, f2, l2⟩ := h2
  obtain rfl := best_unique b1 b2
  exact ⟨firstHandlers_unique f1 f2, lastUri_unique l1 l2⟩

/-- **C86.** The tree serves a request exactly like the table: with the handlers `h` and the full path `u` if and only if they belong to
the best of the registered patterns that accept the path. -/
theorem C86_served {rx : Regex} {nf : List α} {rs : List (Route α)} {e : Engine α} (h : mkEngine rx false nf rs = .ok e) (m path : Str)
    (hs : List α) (u : Str) :
    (routeOf rx e m path).map (fun n => (n.handlers, n.uri)) = some (hs, u) ↔ Chosen rx (tableFor m rs) (pathSegs path) hs u := by
  have hsound : ∀ n, routeOf rx e m path = some n → Chosen rx (tableFor m rs) (pathSegs path) n.handlers n.uri := by
    intro n hn
    obtain ⟨r, ps, _, h2, h3, h4, h5, _⟩ := dispatch_spec h hn
    exact ⟨r, ⟨firstHandlers_entry h3, h2, h5⟩, h3, h4⟩
  constructor
  · intro hr
    cases hn : routeOf rx e m path with
    | none => rw [hn] at hr; cases hr
    | some n =>
      rw [hn] at hr
      simp only [Option.map_some, Option.some.injEq, Prod.mk.injEq] at hr
      rw [← hr.1, ← hr.2]
      exact hsound n hn
  · intro hc
    have hc' := hc
    obtain ⟨r, ⟨⟨x, hx, hxr⟩, ha, _⟩, _, _⟩ := hc'
    obtain ⟨v, hv, hvm, rfl⟩ := mem_tableFor.1 hx
    obtain ⟨n, hn⟩ := C02_dispatch_complete h hv (path := path) (by unfold RouteAccepts; rw [show routeSegs v.uri = r from hxr]; exact ha)
    rw [hvm] at hn
    obtain ⟨e1, e2⟩ := chosen_unique hc (hsound n hn)
    rw [hn, e1, e2]
    rfl

/-- the catch-all registered last wins on deep paths only, where it ties; on `/a/b` the literal and then the regexp are better -/
example : withEngine false [get b!"/<x>/b" [1], get b!"/a/<y ~ (b.)>" [2], get b!"/a/*r" [3], get b!"/*" [4], get b!"/a/b" [5]] (fun e =>
    run e mGET b!"/a/b" == some [5] && run e mGET b!"/a/b1" == some [2] && run e mGET b!"/a/c" == some [3] &&
    run e mGET b!"/a/c/d" == some [3] && run e mGET b!"/c/b" == some [1] && run e mGET b!"/c/d" == some [4]) = true := by
  decide +kernel

/-! ## C87 -/

theorem firstHandlers_append {tbl l : List (Entry α)} {r : List Str} {h : List α} (hf : FirstHandlers tbl r h) :
    FirstHandlers (tbl ++ l) r h := by
  obtain ⟨a, x, b, e, h1, h2, h3⟩ := hf
  exact ⟨a, x, b ++ l, by rw [e]; simp, h1, h2, h3⟩

theorem lastUri_append {tbl l : List (Entry α)} {r : List Str} {u : Str} (hf : LastUri tbl r u) (hl : ∀ x ∈ l, x.segs ≠ r) :
    LastUri (tbl ++ l) r u := by
  obtain ⟨a, x, b, e, h1, h2, h3⟩ := hf
  refine ⟨a, x, b ++ l, by rw [e]; simp, h1, h2, ?_⟩
  intro y hy
  rcases List.mem_append.1 hy with hy | hy
  · exact h3 y hy
  · exact hl y hy

/-- a pattern that was already registered and is the best after an addition was the best before -/
theorem best_before {rx : Regex} {tbl l : List (Entry α)} {ss r : List Str} (hr : ∃ x ∈ tbl, x.segs = r) (hb : Best rx (tbl ++ l) ss r) :
    Best rx tbl ss r := by
  obtain ⟨-, ha, hw⟩ := hb
  refine ⟨hr, ha, ?_⟩
  intro x hx hxa
  by_cases he : x.segs = r
  · exact .inl he
  · rcases hw x (by simp [hx]) hxa with e | hw
    · exact .inl e
    · rcases wins_total hr ⟨x, hx, rfl⟩ ha hxa (fun e => he e.symm) with h | h
      · exact .inr h
      · exact absurd (wins_append l h) (wins_asymm hw)

/-- what is chosen does not change if what is added does not accept the path -/
theorem chosen_append {rx : Regex} {tbl l : List (Entry α)} {ss : List Str} (hl : ∀ x ∈ l, ¬ Accepts rx x.segs ss) {h : List α} {u : Str} :
    Chosen rx tbl ss h u ↔ Chosen rx (tbl ++ l) ss h u := by
  have hmp : ∀ {h u}, Chosen rx tbl ss h u → Chosen rx (tbl ++ l) ss h u := by
    rintro h u ⟨r, ⟨⟨x, hx, hxr⟩, ha, hw⟩, hf, hu⟩
    refine ⟨r, ⟨⟨x, by simp [hx], hxr⟩, ha, ?_⟩, firstHandlers_append hf, lastUri_append hu ?_⟩
    · intro y hy hya
      rcases List.mem_append.1 hy with hy | hy
      · rcases hw y hy hya with e | hw
        · exact .inl e
        · exact .inr (wins_append l hw)
      · exact absurd hya (hl y hy)
    · intro y hy he
      exact hl y hy (he ▸ ha)
  refine ⟨hmp, ?_⟩
  rintro ⟨r, ⟨⟨x, hx, hxr⟩, ha, hw⟩, hf, hu⟩
  have hx' : x ∈ tbl := by
    rcases List.mem_append.1 hx with h | h
    · exact h
    · exact absurd (hxr ▸ ha) (hl x h)
  have hb := best_before ⟨x, hx', hxr⟩ ⟨⟨x, hx, hxr⟩, ha, hw⟩
  have hfx : ∃ h', FirstHandlers tbl r h' := by
    obtain ⟨a, z, b, e, h1, h2, h3⟩ := hf
    rcases List.append_eq_append_iff.1 e with ⟨d, e1, e2⟩ | ⟨d, e1, e2⟩
    · exact absurd hxr (h3 x (by rw [e1]; simp [hx']))
    · cases d with
      | nil =>
        simp at e1 e2
        exact absurd hxr (h3 x (by rw [← e1]; exact hx'))
      | cons y d =>
        simp at e2
        obtain ⟨rfl, -⟩ := e2
        exact ⟨_, a, z, d, e1, h1, rfl, h3⟩
  have hux : ∃ u', LastUri tbl r u' := by
    obtain ⟨a, z, b, e, h1, h2, h3⟩ := hu
    have hz : z ∉ l := fun hz => hl z hz (h1 ▸ ha)
    rcases List.append_eq_append_iff.1 e with ⟨d, e1, e2⟩ | ⟨d, e1, e2⟩
    · exact absurd (by rw [e2]; simp) hz
    · cases d with
      | nil => simp at e2; exact absurd (by rw [← e2]; simp) hz
      | cons y d =>
        simp at e2
        obtain ⟨rfl, e2⟩ := e2
        exact ⟨_, a, z, d, e1, h1, rfl, fun w hw => h3 w (by rw [e2]; simp [hw])⟩
  obtain ⟨h', hf'⟩ := hfx
  obtain ⟨u', hu'⟩ := hux
  have hc : Chosen rx tbl ss h' u' := ⟨r, hb, hf', hu'⟩
  obtain ⟨e1, e2⟩ := chosen_unique (hmp hc) ⟨r, ⟨⟨x, hx, hxr⟩, ha, hw⟩, hf, hu⟩
  rw [← e1, ← e2]
  exact hc

/-- **C87 (partial).** Registering more routes after the others leaves every request alone that none of the new ones accepts: the same
handlers, the same full path. What is missing (see `C87_refuted`): a route registered before others may change which of them answers,
and a new route may leave parameters behind (C07). -/
theorem C87_others_partial {rx : Regex} {nf nf' : List α} {rs vs : List (Route α)} {e e' : Engine α}
    (h : mkEngine rx false nf rs = .ok e) (h' : mkEngine rx false nf' (rs ++ vs) = .ok e') {m path : Str}
    (hv : ∀ v ∈ vs, v.method = m → ¬ RouteAccepts rx v path) :
    (routeOf rx e' m path).map (fun n => (n.handlers, n.uri)) = (routeOf rx e m path).map (fun n => (n.handlers, n.uri)) := by
  apply Option.ext
  rintro ⟨hs, u⟩
  rw [C86_served h, C86_served h', tableFor_append]
  refine (chosen_append ?_).symm
  intro x hx
  obtain ⟨v, hv', hm, rfl⟩ := mem_tableFor.1 hx
  exact hv v hv' hm

/-- **C87 (old or new).** After registering one more route, each request is served by what served it before or by the new route. -/
theorem C87_old_or_new {rx : Regex} {nf nf' : List α} {rs : List (Route α)} {v : Route α} {e e' : Engine α}
    (h : mkEngine rx false nf rs = .ok e) (h' : mkEngine rx false nf' (rs ++ [v]) = .ok e') {m path : Str} {n' : EndNode α}
    (hn : routeOf rx e' m path = some n') :
    (∃ n, routeOf rx e m path = some n ∧ n'.handlers = n.handlers ∧ (n'.uri = n.uri ∨ n'.uri = v.uri)) ∨
    (v.method = m ∧ RouteAccepts rx v path ∧ n'.handlers = v.handlers ∧ n'.uri = v.uri) := by
  by_cases hm : v.method = m
  · have hc := (C86_served h' m path n'.handlers n'.uri).1 (by rw [hn]; rfl)
    rw [tableFor_append, show tableFor m [v] = [⟨routeSegs v.uri, v.handlers, v.uri⟩] by simp [tableFor, hm]] at hc
    obtain ⟨r, hb, hf, hu⟩ := hc
    by_cases hr : ∃ x ∈ tableFor m rs, x.segs = r
    · left
      have hb' := best_before hr hb
      obtain ⟨x, hx, hxr⟩ := hr
      obtain ⟨w, hw, hwm, rfl⟩ := mem_tableFor.1 hx
      obtain ⟨n, hn0⟩ := C02_dispatch_complete h hw (path := path) (by
        unfold RouteAccepts; rw [show routeSegs w.uri = r from hxr]; exact hb.2.1)
      rw [hwm] at hn0
      obtain ⟨r0, hb0, hf0, hu0⟩ := (C86_served h m path n.handlers n.uri).1 (by rw [hn0]; rfl)
      obtain rfl := best_unique hb0 hb'
      refine ⟨n, hn0, firstHandlers_unique hf (firstHandlers_append hf0), ?_⟩
      by_cases hv : routeSegs v.uri = r0
      · right
        exact lastUri_unique hu ⟨_, ⟨routeSegs v.uri, v.handlers, v.uri⟩, [], rfl, hv, rfl, by simp⟩
      · left
        exact lastUri_unique hu (lastUri_append hu0 (by simpa using hv))
    · right
      obtain ⟨⟨x, hx, hxr⟩, ha, -⟩ := hb
      have hvr : routeSegs v.uri = r := by
        rcases List.mem_append.1 hx with hx | hx
        · exact absurd ⟨x, hx, hxr⟩ hr
        · rw [List.mem_singleton.1 hx] at hxr; exact hxr
      have hno : ∀ y ∈ tableFor m rs, y.segs ≠ r := fun y hy he => hr ⟨y, hy, he⟩
      refine ⟨hm, by unfold RouteAccepts; rw [hvr]; exact ha, ?_, ?_⟩
      · exact firstHandlers_unique hf ⟨tableFor m rs, ⟨routeSegs v.uri, v.handlers, v.uri⟩, [], rfl, hvr, rfl, hno⟩
      · exact lastUri_unique hu ⟨_, ⟨routeSegs v.uri, v.handlers, v.uri⟩, [], rfl, hvr, rfl, by simp⟩
  · left
    have he := C87_others_partial h h' (m := m) (path := path) (by
      intro w hw hwm
      rw [List.mem_singleton.1 hw] at hwm
      exact absurd hwm hm)
    rw [hn] at he
    cases hn0 : routeOf rx e m path with
    | none => rw [hn0] at he; cases he
    | some n =>
      rw [hn0] at he
      simp at he
      exact ⟨n, rfl, he.1, .inl he.2⟩

/-- the hypotheses of `C87_others_partial`: the new route does not accept `/1/2`, and does accept `/z/2` -/
example : withEngine false [get b!"/<y>/<v>" [1], get b!"/<x>/<w>" [2]] (fun e => run e mGET b!"/1/2" == some [1] &&
      run e mGET b!"/z/2" == some [1]) = true ∧
    withEngine false [get b!"/<y>/<v>" [1], get b!"/<x>/<w>" [2], get b!"/z/<q>" [3]] (fun e => run e mGET b!"/1/2" == some [1] &&
      run e mGET b!"/z/2" == some [3]) = true ∧ ¬ RouteAccepts rx (get b!"/z/<q>" [3]) b!"/1/2" := by
  refine ⟨by decide +kernel, by decide +kernel, ?_⟩
  unfold RouteAccepts
  rw [show routeSegs (get b!"/z/<q>" [3]).uri = [b!"z", b!"<q>"] by decide +kernel, show pathSegs b!"/1/2" = [b!"1", b!"2"] by decide +kernel]
  intro h
  cases h with
  | cons h1 _ => exact absurd h1 (by unfold acceptsSeg; rw [show kind b!"z" = .literal by decide +kernel]; decide +kernel)

/-- C87 as stated is false: `/<x>/q` does not accept `/1/2`, but registered before `/<y>/<v>` and `/<x>/<w>` it decides which of the two
answers it, because it brings the segment `<x>` before `<y>`. -/
theorem C87_refuted : ¬ ∀ (rx : Regex) (rs rs' : List (Route Nat)) (v : Route Nat) (e e' : Engine Nat),
    mkEngine rx false [] (rs ++ rs') = .ok e → mkEngine rx false [] (rs ++ v :: rs') = .ok e' → ∀ m path : Str,
    ¬ RouteAccepts rx v path → (routeOf rx e' m path).map (·.handlers) = (routeOf rx e m path).map (·.handlers) := by
  intro hall
  have h1 : withEngine false ([] ++ [get b!"/<y>/<v>" [1], get b!"/<x>/<w>" [2]]) (fun e => run e mGET b!"/1/2" == some [1]) = true := by
    decide +kernel
  have h2 : withEngine false ([] ++ get b!"/<x>/q" [0] :: [get b!"/<y>/<v>" [1], get b!"/<x>/<w>" [2]]) (fun e =>
      run e mGET b!"/1/2" == some [2]) = true := by decide +kernel
  obtain ⟨e, he, hr⟩ := withEngine_spec h1
  obtain ⟨e', he', hr'⟩ := withEngine_spec h2
  have := hall _ _ _ _ e e' he he' mGET b!"/1/2" (by
    unfold RouteAccepts
    rw [show routeSegs (get b!"/<x>/q" [0]).uri = [b!"<x>", b!"q"] by decide +kernel, show pathSegs b!"/1/2" = [b!"1", b!"2"] by decide +kernel]
    intro h
    cases h with
    | cons _ h1 =>
      cases h1 with
      | last h1 => exact absurd h1 (by unfold acceptsSeg; rw [show kind b!"q" = .literal by decide +kernel]; decide +kernel))
  unfold run at hr hr'
  rw [this, eq_of_beq hr] at hr'
  exact absurd hr' (by decide)

end Water
