import Verif.Props.Choice
/-
C87 for registrations added anywhere among the others, not only behind them: what changes for a path the new ones do not accept, and
why.
-/
namespace Water
open Spec Demo
variable {α : Type}

/-- the table of the routes that were there before, as part of the new one -/
theorem tableFor_ind {m : Str} {keep : Route α → Bool} {M : List (Entry α) → List (Entry α) → Prop} (h0 : M [] [])
    (hk : ∀ (v : Route α) s b, keep v = true → v.method = m → M s b →
      M (⟨routeSegs v.uri, v.handlers, v.uri⟩ :: s) (⟨routeSegs v.uri, v.handlers, v.uri⟩ :: b)) :
    ∀ (rs : List (Route α)), (∀ v ∈ rs, keep v = false → v.method = m → ∀ s b, M s b → M s (⟨routeSegs v.uri, v.handlers, v.uri⟩ :: b)) →
      M (tableFor m (rs.filter keep)) (tableFor m rs) := by
  intro rs
  induction rs with
  | nil => intro _; exact h0
  | cons v rs ih =>
    intro hn
    have ih' := ih (fun w hw => hn w (by simp [hw]))
    by_cases hm : v.method = m
    · by_cases hkv : keep v = true
      · have := hk v _ _ hkv hm ih'
        simpa [tableFor, hkv, hm] using this
      · have hkv : keep v = false := by simpa using hkv
        have := hn v (by simp) hkv hm _ _ ih'
        simpa [tableFor, hkv, hm] using this
    · by_cases hkv : keep v = true
      · simpa [tableFor, hkv, hm] using ih'
      · have hkv : keep v = false := by simpa using hkv
        simpa [tableFor, hkv, hm] using ih'

/-- what comes first still comes first if what is added is not the other -/
theorem before_insert {m : Str} {keep : Route α → Bool} {P Q : Entry α → Prop} {rs : List (Route α)}
    (hq : ∀ v ∈ rs, keep v = false → v.method = m → ¬ Q ⟨routeSegs v.uri, v.handlers, v.uri⟩) :
    Before P Q (tableFor m (rs.filter keep)) → Before P Q (tableFor m rs) := by
  refine tableFor_ind (M := fun s b => Before P Q s → Before P Q b) (fun h => h) ?_ rs ?_
  · rintro v s b _ _ ih ⟨l1, x, l2, e, hp, hnq, hl⟩
    cases l1 with
    | nil =>
      simp at e
      exact ⟨[], x, b, by rw [e.1]; rfl, hp, hnq, by simp⟩
    | cons y l1 =>
      simp at e
      obtain ⟨k1, z, k2, e', hp', hnq', hk⟩ := ih ⟨l1, x, l2, e.2, hp, hnq, fun w hw => hl w (by simp [hw])⟩
      refine ⟨y :: k1, z, k2, by rw [e', e.1]; rfl, hp', hnq', ?_⟩
      intro w hw
      rcases List.mem_cons.1 hw with rfl | hw
      · exact hl w (by simp)
      · exact hk w hw
  · intro v hv hkv hm s b ih h
    obtain ⟨k1, z, k2, e', hp', hnq', hk⟩ := ih h
    refine ⟨_ :: k1, z, k2, by rw [e']; rfl, hp', hnq', ?_⟩
    intro w hw
    rcases List.mem_cons.1 hw with rfl | hw
    · exact hq v hv hkv hm
    · exact hk w hw

theorem firstHandlers_insert {m : Str} {keep : Route α → Bool} {r : List Str} {h : List α} {rs : List (Route α)}
    (hq : ∀ v ∈ rs, keep v = false → v.method = m → routeSegs v.uri ≠ r) :
    FirstHandlers (tableFor m (rs.filter keep)) r h → FirstHandlers (tableFor m rs) r h := by
  refine tableFor_ind (M := fun s b => FirstHandlers s r h → FirstHandlers b r h) (fun h => h) ?_ rs ?_
  · rintro v s b _ _ ih ⟨l1, x, l2, e, hp, hnq, hl⟩
    cases l1 with
    | nil =>
      simp at e
      exact ⟨[], x, b, by rw [e.1]; rfl, hp, hnq, by simp⟩
    | cons y l1 =>
      simp at e
      obtain ⟨k1, z, k2, e', hp', hnq', hk⟩ := ih ⟨l1, x, l2, e.2, hp, hnq, fun w hw => hl w (by simp [hw])⟩
      refine ⟨y :: k1, z, k2, by rw [e', e.1]; rfl, hp', hnq', ?_⟩
      intro w hw
      rcases List.mem_cons.1 hw with rfl | hw
      · exact hl w (by simp)
      · exact hk w hw
  · intro v hv hkv hm s b ih h
    obtain ⟨k1, z, k2, e', hp', hnq', hk⟩ := ih h
    refine ⟨_ :: k1, z, k2, by rw [e']; rfl, hp', hnq', ?_⟩
    intro w hw
    rcases List.mem_cons.1 hw with rfl | hw
    · exact hq v hv hkv hm
    · exact hk w hw

theorem lastUri_insert {m : Str} {keep : Route α → Bool} {r : List Str} {u : Str} {rs : List (Route α)}
    (hq : ∀ v ∈ rs, keep v = false → v.method = m → routeSegs v.uri ≠ r) :
    LastUri (tableFor m (rs.filter keep)) r u → LastUri (tableFor m rs) r u := by
  have key : (LastUri (tableFor m (rs.filter keep)) r u → LastUri (tableFor m rs) r u) ∧
      ((∀ y ∈ tableFor m (rs.filter keep), y.segs ≠ r) → ∀ y ∈ tableFor m rs, y.segs ≠ r) := by
    refine tableFor_ind (M := fun s b => (LastUri s r u → LastUri b r u) ∧ ((∀ y ∈ s, y.segs ≠ r) → ∀ y ∈ b, y.segs ≠ r))
      ⟨fun h => h, fun h => h⟩ ?_ rs ?_
    · rintro v s b _ _ ⟨ih1, ih2⟩
      refine ⟨?_, ?_⟩
      · rintro ⟨l1, x, l2, e, hp, hnq, hl⟩
        cases l1 with
        | nil =>
          simp at e
          refine ⟨[], x, b, by rw [e.1]; rfl, hp, hnq, ih2 ?_⟩
          rw [e.2]
          exact hl
        | cons y l1 =>
          simp at e
          obtain ⟨k1, z, k2, e', hp', hnq', hk⟩ := ih1 ⟨l1, x, l2, e.2, hp, hnq, hl⟩
          exact ⟨y :: k1, z, k2, by rw [e', e.1]; rfl, hp', hnq', hk⟩
      · intro h y hy
        rcases List.mem_cons.1 hy with rfl | hy
        · exact h _ (by simp)
        · exact ih2 (fun w hw => h w (by simp [hw])) y hy
    · rintro v hv hkv hm s b ⟨ih1, ih2⟩
      refine ⟨?_, ?_⟩
      · intro h
        obtain ⟨k1, z, k2, e', hp', hnq', hk⟩ := ih1 h
        exact ⟨_ :: k1, z, k2, by rw [e']; rfl, hp', hnq', hk⟩
      · intro h y hy
        rcases List.mem_cons.1 hy with rfl | hy
        · exact hq v hv hkv hm
        · exact ih2 h y hy
  exact key.1

/-- the pattern of what is chosen -/
theorem lastUri_segs {m : Str} {rs : List (Route α)} {r : List Str} {u : Str} (h : LastUri (tableFor m rs) r u) : routeSegs u = r := by
  obtain ⟨a, x, b, e, h1, h2, _⟩ := h
  obtain ⟨v, _, _, rfl⟩ := mem_tableFor.1 (show x ∈ tableFor m rs by rw [e]; simp)
  rw [← h2]; exact h1

/-- **C87 (anywhere, partial).** Routes may be added anywhere among the others (`keep` says which were there before). If none of the
new ones accepts a path, it is served as before, with the same handlers and full path, unless a tie was reversed: the pattern that
served it and the one that serves it now first differ in two segments of one kind, neither of them last; the beginning with the first
segment was registered before that with the second, and now it is the other way round, because a new route has that second beginning.
What is missing is the case of such ties (`C87_refuted`), and parameters left behind (C07). -/
theorem C87_anywhere_partial {rx : Regex} {nf nf' : List α} {rs : List (Route α)} {keep : Route α → Bool} {e e' : Engine α}
    (h : mkEngine rx false nf (rs.filter keep) = .ok e) (h' : mkEngine rx false nf' rs = .ok e') {m path : Str}
    (hv : ∀ v ∈ rs, keep v = false → v.method = m → ¬ RouteAccepts rx v path) :
    (routeOf rx e' m path).map (fun n => (n.handlers, n.uri)) = (routeOf rx e m path).map (fun n => (n.handlers, n.uri)) ∨
    ∃ n n' c a ra b rb, routeOf rx e m path = some n ∧ routeOf rx e' m path = some n' ∧
      routeSegs n.uri = c ++ a :: ra ∧ routeSegs n'.uri = c ++ b :: rb ∧ a ≠ b ∧ (kind a).rank = (kind b).rank ∧ ra ≠ [] ∧ rb ≠ [] ∧
      Before (Through (c ++ [a])) (Through (c ++ [b])) (tableFor m (rs.filter keep)) ∧
      Before (Through (c ++ [b])) (Through (c ++ [a])) (tableFor m rs) ∧
      ∃ v ∈ rs, keep v = false ∧ v.method = m ∧ ∃ q t, routeSegs v.uri = c ++ b :: q :: t := by
  cases hn : routeOf rx e m path with
  | none =>
    cases hn' : routeOf rx e' m path with
    | none => exact .inl rfl
    | some n' =>
      exfalso
      obtain ⟨r, ⟨⟨x, hx, hxr⟩, ha, _⟩, _, _⟩ := (C86_served h' m path n'.handlers n'.uri).1 (by rw [hn']; rfl)
      obtain ⟨v, hvm, hm, rfl⟩ := mem_tableFor.1 hx
      have hacc : RouteAccepts rx v path := by unfold RouteAccepts; rw [show routeSegs v.uri = r from hxr]; exact ha
      have hk : keep v = true := by
        cases hk : keep v with
        | true => rfl
        | false => exact absurd hacc (hv v hvm hk hm)
      obtain ⟨n, hn0⟩ := C02_dispatch_complete h (v := v) (List.mem_filter.2 ⟨hvm, hk⟩) hacc
      rw [hm, hn] at hn0
      cases hn0
  | some n =>
    obtain ⟨r, ⟨⟨x, hx, hxr⟩, ha, hw⟩, hf, hu⟩ := (C86_served h m path n.handlers n.uri).1 (by rw [hn]; rfl)
    obtain ⟨v, hvm, hm, rfl⟩ := mem_tableFor.1 hx
    have hvm' := List.mem_filter.1 hvm
    have hacc : RouteAccepts rx v path := by unfold RouteAccepts; rw [show routeSegs v.uri = r from hxr]; exact ha
    obtain ⟨n', hn'⟩ := C02_dispatch_complete h' hvm'.1 hacc
    rw [hm] at hn'
    obtain ⟨r', ⟨⟨x', hx', hxr'⟩, ha', hw'⟩, hf', hu'⟩ := (C86_served h' m path n'.handlers n'.uri).1 (by rw [hn']; rfl)
    obtain ⟨v', hvm2, hm2, rfl⟩ := mem_tableFor.1 hx'
    have hacc' : RouteAccepts rx v' path := by unfold RouteAccepts; rw [show routeSegs v'.uri = r' from hxr']; exact ha'
    have hk' : keep v' = true := by
      cases hk : keep v' with
      | true => rfl
      | false => exact absurd hacc' (hv v' hvm2 hk hm2)
    have hno : ∀ {q : List Str}, Accepts rx q (pathSegs path) → ∀ w ∈ rs, keep w = false → w.method = m → routeSegs w.uri ≠ q :=
      fun hq w hw1 hw2 hw3 he => hv w hw1 hw2 hw3 (by unfold RouteAccepts; rw [he]; exact hq)
    by_cases hrr : r' = r
    · subst hrr
      left
      rw [hn']
      simp only [Option.map_some, Option.some.injEq, Prod.mk.injEq]
      exact ⟨firstHandlers_unique hf' (firstHandlers_insert (hno ha) hf), lastUri_unique hu' (lastUri_insert (hno ha) hu)⟩
    · right
      have hold : Wins (tableFor m (rs.filter keep)) (pathSegs path).length r r' := by
        rcases hw _ (mem_tableFor.2 ⟨v', List.mem_filter.2 ⟨hvm2, hk'⟩, hm2, rfl⟩) (show Accepts rx (routeSegs v'.uri) _ from hacc') with e1 | hw1
        · exact absurd (hxr'.symm.trans e1) hrr
        · rw [show routeSegs v'.uri = r' from hxr'] at hw1; exact hw1
      have hnew : Wins (tableFor m rs) (pathSegs path).length r' r := by
        rcases hw' _ (mem_tableFor.2 ⟨v, hvm'.1, hm, rfl⟩) (show Accepts rx (routeSegs v.uri) _ from hacc) with e1 | hw1
        · exact absurd (e1.symm.trans hxr) hrr
        · rw [show routeSegs v.uri = r from hxr] at hw1; exact hw1
      have hasym := wins_asymm hnew
      obtain ⟨c, a, ra, b, rb, hd, hcase⟩ := hold
      have hd' := hd
      obtain ⟨d1, d2, d3⟩ := hd'
      rcases hcase with ⟨h1, h2, h3⟩ | ⟨h1, h2, h3, h4⟩ | ⟨h1, h2, h3, h4⟩ | ⟨h1, h2, h3, h4, h5, h6⟩
      · rcases h3 with h3 | ⟨h3, h4⟩
        · exact absurd ⟨c, a, ra, b, rb, hd, .inl ⟨h1, h2, .inl h3⟩⟩ hasym
        · have hab : a ≠ b := by
            rcases d3 with h | ⟨h, _⟩ | ⟨_, h⟩
            · exact h
            · exact absurd h h1
            · exact absurd h h2
          have hb : Before (Through (c ++ [b])) (Through (c ++ [a])) (tableFor m rs) := by
            obtain ⟨c', b', rb', a', ra', hd2, hc2⟩ := hnew
            obtain ⟨rfl, rfl, rfl, rfl, rfl⟩ := differ_unique hd (differ_symm hd2)
            rcases hc2 with ⟨g1, g2, g3⟩ | ⟨g1, g2, g3, g4⟩ | ⟨g1, g2, g3, g4⟩ | ⟨g1, g2, g3, g4, g5, g6⟩
            · rcases g3 with g3 | ⟨_, g4⟩
              · omega
              · exact g4
            · exact absurd g2 h1
            · exact absurd g2 h1
            · exact absurd g2 h1
          refine ⟨n, n', c, a, ra, b, rb, rfl, hn', (lastUri_segs hu).trans d1, (lastUri_segs hu').trans d2, hab, h3, h1, h2, h4, hb, ?_⟩
          apply Classical.byContradiction
          intro hex
          refine hasym ⟨c, a, ra, b, rb, hd, .inl ⟨h1, h2, .inr ⟨h3, before_insert ?_ h4⟩⟩⟩
          rintro w hw1 hw2 hw3 ⟨q, t, e1⟩
          exact hex ⟨w, hw1, hw2, hw3, q, t, by rw [show routeSegs w.uri = _ from e1]; simp⟩
      · exact absurd ⟨c, a, ra, b, rb, hd, .inr (.inl ⟨h1, h2, h3, h4⟩)⟩ hasym
      · rcases h4 with h4 | ⟨h4, h5⟩
        · exact absurd ⟨c, a, ra, b, rb, hd, .inr (.inr (.inl ⟨h1, h2, h3, .inl h4⟩))⟩ hasym
        · exact absurd ⟨c, a, ra, b, rb, hd, .inr (.inr (.inl ⟨h1, h2, h3, .inr ⟨h4, before_insert (hno ha') h5⟩⟩))⟩ hasym
      · exact absurd ⟨c, a, ra, b, rb, hd, .inr (.inr (.inr ⟨h1, h2, h3, h4, h5, before_insert (hno ha) h6⟩))⟩ hasym

/-- a segment of an accepting pattern that is not the last accepts the segment of the path at its place -/
theorem accepts_inner {rx : Regex} {a : Str} {ra : List Str} (hra : ra ≠ []) : ∀ {c ss : List Str}, Accepts rx (c ++ a :: ra) ss →
    ∃ s, ss[c.length]? = some s ∧ acceptsSeg rx a s := by
  intro c
  induction c with
  | nil =>
    intro ss h
    cases h with
    | last _ => exact absurd rfl hra
    | rest _ => exact absurd rfl hra
    | cons h1 _ => exact ⟨_, rfl, h1⟩
  | cons z c ih =>
    intro ss h
    generalize hq : z :: c ++ a :: ra = q at h
    cases h with
    | last _ => simp at hq
    | rest _ => simp at hq
    | @cons p q' ps s t ss h1 h2 =>
      simp at hq
      obtain ⟨u, hu, ha⟩ := ih (ss := t :: ss) (hq.2 ▸ h2)
      exact ⟨u, by simpa using hu, ha⟩

/-- **C87 (literal beginnings, partial).** New routes all of whose segments but the last are literals change nothing for the paths
they do not accept, wherever they are registered. -/
theorem C87_literal_partial {rx : Regex} {nf nf' : List α} {rs : List (Route α)} {keep : Route α → Bool} {e e' : Engine α}
    (h : mkEngine rx false nf (rs.filter keep) = .ok e) (h' : mkEngine rx false nf' rs = .ok e') {m path : Str}
    (hv : ∀ v ∈ rs, keep v = false → v.method = m → ¬ RouteAccepts rx v path)
    (hl : ∀ v ∈ rs, keep v = false → v.method = m → ∀ s ∈ (routeSegs v.uri).dropLast, kind s = .literal) :
    (routeOf rx e' m path).map (fun n => (n.handlers, n.uri)) = (routeOf rx e m path).map (fun n => (n.handlers, n.uri)) := by
  rcases C87_anywhere_partial h h' hv with hs | ⟨n, n', c, a, ra, b, rb, hn, hn', e1, e2, hab, hk, h1, h2, _, _, v, hvm, hkv, hm, q, t, ev⟩
  · exact hs
  · exfalso
    have hb : kind b = .literal := by
      refine hl v hvm hkv hm b ?_
      rw [ev, List.dropLast_append_of_ne_nil (by simp)]
      simp
    have ha : kind a = .literal := by
      cases hka : kind a <;> rw [hka, hb] at hk <;> first | rfl | exact absurd hk (by decide)
    obtain ⟨r, ⟨_, hr, _⟩, _, hu⟩ := (C86_served h m path n.handlers n.uri).1 (by rw [hn]; rfl)
    obtain ⟨r', ⟨_, hr', _⟩, _, hu'⟩ := (C86_served h' m path n'.handlers n'.uri).1 (by rw [hn']; rfl)
    rw [← lastUri_segs hu, e1] at hr
    rw [← lastUri_segs hu', e2] at hr'
    obtain ⟨s, hs, has⟩ := accepts_inner h1 hr
    obtain ⟨s', hs', has'⟩ := accepts_inner h2 hr'
    rw [hs] at hs'
    cases hs'
    unfold acceptsSeg at has has'
    rw [ha] at has
    rw [hb] at has'
    exact hab (has.trans has'.symm)

/-- the hypotheses of `C87_literal_partial`: `/a/<q>` registered first does not touch `/1/2`, but takes `/a/2` -/
example : withEngine false ([get b!"/a/<q>" [3], get b!"/<y>/<v>" [1], get b!"/<x>/<w>" [2]].filter (fun r => r.handlers != [3]))
      (fun e => run e mGET b!"/1/2" == some [1] && run e mGET b!"/a/2" == some [1]) = true ∧
    withEngine false [get b!"/a/<q>" [3], get b!"/<y>/<v>" [1], get b!"/<x>/<w>" [2]]
      (fun e => run e mGET b!"/1/2" == some [1] && run e mGET b!"/a/2" == some [3]) = true ∧
    ¬ RouteAccepts rx (get b!"/a/<q>" [3]) b!"/1/2" ∧
    ∀ s ∈ (routeSegs (get b!"/a/<q>" [3]).uri).dropLast, kind s = .literal := by
  refine ⟨by decide +kernel, by decide +kernel, ?_, by decide +kernel⟩
  unfold RouteAccepts
  rw [show routeSegs (get b!"/a/<q>" [3]).uri = [b!"a", b!"<q>"] by decide +kernel, show pathSegs b!"/1/2" = [b!"1", b!"2"] by decide +kernel]
  intro h
  cases h with
  | cons h1 _ => exact absurd h1 (by unfold acceptsSeg; rw [show kind b!"a" = .literal by decide +kernel]; decide +kernel)

/-- the second case of `C87_anywhere_partial`: `/<x>/q` before the others reverses the tie of `<y>` and `<x>` for `/1/2` -/
example : withEngine false ([get b!"/<x>/q" [0], get b!"/<y>/<v>" [1], get b!"/<x>/<w>" [2]].filter (fun r => r.handlers != [0]))
      (fun e => run e mGET b!"/1/2" == some [1]) = true ∧
    withEngine false [get b!"/<x>/q" [0], get b!"/<y>/<v>" [1], get b!"/<x>/<w>" [2]]
      (fun e => run e mGET b!"/1/2" == some [2]) = true ∧
    routeSegs b!"/<y>/<v>" = [] ++ b!"<y>" :: [b!"<v>"] ∧ routeSegs b!"/<x>/<w>" = [] ++ b!"<x>" :: [b!"<w>"] ∧
    routeSegs b!"/<x>/q" = [] ++ b!"<x>" :: b!"q" :: [] := by decide +kernel

end Water
