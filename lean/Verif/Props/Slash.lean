import Verif.Props.Insert
import Verif.Props.Static
/- C08 for the paths that end in a slash already: what a further slash does. -/
namespace Water
open Spec Demo
variable {α : Type}

/-- **C08 (the segments).** A slash behind a path that ends in one (other than `/` itself) adds an empty segment; behind any other path
it adds nothing. -/
theorem C08_segments (path : Str) :
    pathSegs (path ++ [slash]) = if path.getLast? = some slash ∧ path ≠ [slash] then pathSegs path ++ [[]] else pathSegs path := by
  by_cases hp : path.getLast? = some slash ∧ path ≠ [slash]
  · rw [if_pos hp]
    obtain ⟨hl, hne⟩ := hp
    unfold pathSegs stripSlashes
    cases path with
    | nil => cases hl
    | cons c t =>
      by_cases hc : c = slash
      · subst hc
        have ht : t.getLast? = some slash := by
          cases t with
          | nil => exact absurd rfl hne
          | cons x xs => rw [List.getLast?_cons_cons] at hl; exact hl
        obtain ⟨d, rfl⟩ := List.getLast?_eq_some_iff.1 ht
        simp [splitB_concat_slash]
      · obtain ⟨d, hd⟩ := List.getLast?_eq_some_iff.1 hl
        simp only [List.cons_append, List.head?_cons, Option.some.injEq, hc, if_false]
        rw [← List.cons_append, hd]
        simp only [List.getLast?_append, List.getLast?_singleton, Option.some_or, if_true, List.dropLast_concat]
        rw [splitB_concat_slash]
  · rw [if_neg hp]
    apply pathSegs_append_slash
    by_cases h : path = [slash]
    · exact .inr h
    · exact .inl (fun h' => hp ⟨h', h⟩)

/-- **C08.** A slash behind a path that does not end in one changes neither the route nor the parameters. -/
theorem C08_trailing_slash {rx : Regex} {nf : List α} {rs : List (Route α)} {e : Engine α} (h : mkEngine rx false nf rs = .ok e) (m : Str)
    {path : Str} (hp : path.getLast? ≠ some slash) :
    routeOf rx e m (path ++ [slash]) = routeOf rx e m path ∧ paramsOf rx e m (path ++ [slash]) = paramsOf rx e m path :=
  C08_trailing_slash_partial h m (.inl hp)

/-- **C08 (static option).** With the static-route option the route is the same too, if the registered paths have no empty segments;
the parameters of a hit in the map are those of an earlier request (C13, C34). -/
theorem C08_static {rx : Regex} {nf : List α} {rs : List (Route α)} {e : Engine α} (h : mkEngine rx true nf rs = .ok e) {m : Str}
    (hplain : ∀ v ∈ rs, v.method = m → Plain v.uri) {path : Str} (hp : path.getLast? ≠ some slash) :
    routeOf rx e m (path ++ [slash]) = routeOf rx e m path := by
  obtain ⟨e0, h0⟩ := C13_same_construction.1 ⟨e, h⟩
  rw [C13_static_transparent_partial h h0 hplain, C13_static_transparent_partial h h0 hplain]
  exact (C08_trailing_slash h0 m hp).1

/-- **C08 (catch-alls).** If a path that ends in a slash (other than `/` itself) and the same path with a further slash are served by
routes with one pattern, that pattern ends in a catch-all. So for every other route the further slash leads elsewhere. -/
theorem C08_catch_all {rx : Regex} {nf : List α} {rs : List (Route α)} {e : Engine α} (h : mkEngine rx false nf rs = .ok e) {m path : Str}
    (hp : path.getLast? = some slash) (hne : path ≠ [slash]) {n n' : EndNode α} (hn : routeOf rx e m path = some n)
    (hn' : routeOf rx e m (path ++ [slash]) = some n') (hs : routeSegs n'.uri = routeSegs n.uri) :
    ∃ c p, routeSegs n.uri = c ++ [p] ∧ kind p = .star := by
  obtain ⟨r, ⟨_, hr, _⟩, _, hu⟩ := (C86_served h m path n.handlers n.uri).1 (by rw [hn]; rfl)
  obtain ⟨r', ⟨_, hr', _⟩, _, hu'⟩ := (C86_served h m _ n'.handlers n'.uri).1 (by rw [hn']; rfl)
  rw [← lastUri_segs hu] at hr
  rw [← lastUri_segs hu', hs, C08_segments, if_pos ⟨hp, hne⟩] at hr'
  obtain ⟨c, p, hc⟩ : ∃ c p, routeSegs n.uri = c ++ [p] :=
    ⟨_, _, (List.dropLast_concat_getLast (accepts_ne_nil hr).1).symm⟩
  refine ⟨c, p, hc, ?_⟩
  rw [hc] at hr hr'
  rcases accepts_end hr' with h1 | ⟨_, h1⟩
  · rcases accepts_end hr with h2 | ⟨_, h2⟩
    · simp at h1; omega
    · exact h2
  · exact h1

/-- `/a/` runs `/<x>`, `/a//` something else; a catch-all takes both -/
example : withEngine false [get b!"/<x>" [1], get b!"/a/<y>" [2], get b!"/b/*r" [3]] (fun e =>
    run e mGET b!"/a/" == some [1] && run e mGET b!"/a//" == some [2] &&
    run e mGET b!"/b/1/" == some [3] && run e mGET b!"/b/1//" == some [3]) = true := by decide +kernel

end Water
