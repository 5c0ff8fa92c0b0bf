import Verif.Lemmas.Pointers5
import Verif.Props.Reference
import Verif.Props.Demo
/-
C109: the routing trees as the code has them, nodes in memory connected by pointers, are trees, and serve requests as the trees of
`Tree.lean` do.
-/
namespace Water
open Spec
variable {α ω : Type}

/-- **C109 (construction).** Building the trees in memory panics exactly if building them as values does, with the same panic. -/
theorem C109_construction (rx : Regex) (st : Bool) (nf : List α) (rs : List (Route α)) :
    (∀ x, mkEngineP rx st nf rs = .error x ↔ mkEngine rx st nf rs = .error x) ∧
    ((∃ p, mkEngineP rx st nf rs = .ok p) ↔ ∃ e, mkEngine rx st nf rs = .ok e) := by
  have h := mkEngine_same rx st nf rs
  cases he : mkEngine rx st nf rs with
  | error x =>
    rw [he] at h
    simp only at h
    rw [h]
    exact ⟨fun y => ⟨fun hy => by injection hy with hy; rw [hy], fun hy => by injection hy with hy; rw [hy]⟩,
      ⟨fun ⟨_, hp⟩ => (nomatch hp), fun ⟨_, hp⟩ => (nomatch hp)⟩⟩
  | ok e =>
    rw [he] at h
    obtain ⟨p, hp, _⟩ := h
    rw [hp]
    exact ⟨fun y => ⟨fun hy => (nomatch hy), fun hy => (nomatch hy)⟩, ⟨fun _ => ⟨e, rfl⟩, fun _ => ⟨p, rfl⟩⟩⟩

theorem engine_same {rx : Regex} {st : Bool} {nf : List α} {rs : List (Route α)} {p : PEngine α}
    (h : mkEngineP rx st nf rs = .ok p) : ∃ e, mkEngine rx st nf rs = .ok e ∧ SameEngine p e := by
  have hs := mkEngine_same rx st nf rs
  cases he : mkEngine rx st nf rs with
  | error x => rw [he] at hs; simp only at hs; rw [hs] at h; cases h
  | ok e =>
    rw [he] at hs
    obtain ⟨p', h1, h2⟩ := hs
    rw [h] at h1
    injection h1 with h1
    subst h1
    exact ⟨e, rfl, h2⟩

/-- **C109 (trees).** What is built is trees: `parent` of a node is the one node that lists it, which was made before it, so that there are
no cycles; and every node belongs to the tree of exactly one method. -/
theorem C109_forest {rx : Regex} {st : Bool} {nf : List α} {rs : List (Route α)} {p : PEngine α} (h : mkEngineP rx st nf rs = .ok p) :
    Forest p.mem ∧
    (∀ i r, p.routers i = some r → ∃ n : PNode α, p.mem[r]? = some n ∧ n.parent = none) ∧
    ∀ b, b < p.mem.length → ∃ i r, (p.routers i = some r ∧ IsAbove p.mem r b) ∧
      ∀ j r', p.routers j = some r' → IsAbove p.mem r' b → j = i ∧ r' = r := by
  obtain ⟨e, _, hs⟩ := engine_same h
  have hroot : ∀ i r, p.routers i = some r → ∃ n : PNode α, p.mem[r]? = some n ∧ n.parent = none := by
    intro i r hr
    have ht := hs.trees i
    rw [hr] at ht
    cases hti : e.trees i with
    | none => rw [hti] at ht; exact ht.elim
    | some t => rw [hti] at ht; exact ht.2
  refine ⟨hs.forest, hroot, fun b hb => ?_⟩
  obtain ⟨r, m, h1, h2, h3⟩ := has_root hs.forest (b + 1) b p.mem[b] (by omega) (List.getElem?_eq_getElem hb)
  obtain ⟨i, hi⟩ := hs.rooted r m h1 h2
  refine ⟨i, r, ⟨hi, h3⟩, fun j r' hj hb' => ?_⟩
  obtain ⟨m', k1, k2⟩ := hroot j r' hj
  have := roots_apart k1 k2 h1 h2 hb' h3
  subst this
  exact ⟨hs.apart j i r' hj hi, rfl⟩

/-- **C109 (routing).** The lookup in memory finds a node if and only if the lookup in the trees as values does; the node is in memory, in
the tree of the method, and has a `matchNode`, so that reading the pattern of its route does not panic; and its handlers, its pattern and
the parameters are the same. -/
theorem C109_routed {rx : Regex} {st : Bool} {nf : List α} {rs : List (Route α)} {p : PEngine α} {e : Engine α}
    (h : mkEngineP rx st nf rs = .ok p) (he : mkEngine rx st nf rs = .ok e) (i : Nat) (path : Str) :
    (lookupP rx p i path).2 = (lookup rx e i path).2 ∧
    ((lookupP rx p i path).1 = none ↔ (lookup rx e i path).1 = none) ∧
    ∀ a, (lookupP rx p i path).1 = some a → ∃ (n : PNode α) (x : EndNode α), p.mem[a]? = some n ∧ (lookup rx e i path).1 = some x ∧
      n.matchNode = some x.uri ∧ n.handlers = x.handlers ∧ n.seg = x.seg ∧ ∃ r, p.routers i = some r ∧ IsAbove p.mem r a := by
  obtain ⟨e', he', hs⟩ := engine_same h
  rw [he] at he'
  injection he' with he'
  subst he'
  obtain ⟨h1, h2⟩ := lookup_same (rx := rx) hs i path
  refine ⟨h1, ?_, fun a ha => ?_⟩
  · cases hx : (lookupP rx p i path).1 <;> cases hy : (lookup rx e i path).1 <;> rw [hx, hy] at h2
    · simp
    · exact h2.elim
    · exact h2.elim
    · simp
  · have habove := lookupP_above hs ha
    rw [ha] at h2
    cases hy : (lookup rx e i path).1 with
    | none => rw [hy] at h2; exact h2.elim
    | some x =>
      rw [hy] at h2
      obtain ⟨n, k1, k2, k3, k4⟩ := h2
      exact ⟨n, x, k1, rfl, k4, k3, k2, habove⟩

/-- **C109 (serving).** A request is served from memory exactly as from the trees as values: whatever is proved of `serve` holds of the
code with its pointers. -/
theorem C109_serve {rx : Regex} {o : Oracle} {st : Bool} {nf : List (Prog ω)} {rs : List (Route (Prog ω))} {p : PEngine (Prog ω)}
    {e : Engine (Prog ω)} (h : mkEngineP rx st nf rs = .ok p) (he : mkEngine rx st nf rs = .ok e) (c : Ctx ω) (req : Req) (rw : Writer)
    (body : Option Str) (w : ω) : serveP rx o p c req rw body w = serve rx o e c req rw body w := by
  obtain ⟨e', he', hs⟩ := engine_same h
  rw [he] at he'
  injection he' with he'
  subst he'
  unfold serveP serve
  split
  · rfl
  · cases hi : methodIndex req.method with
    | none => rfl
    | some i =>
      obtain ⟨h1, h2⟩ := lookup_same (rx := rx) hs i req.path
      simp only []
      rw [h1, read_same h2]
      have hc : ∀ n, chainFor p.rest n = chainFor e n := by
        intro n
        cases n with
        | some n => rfl
        | none => simp only [chainFor, PEngine.rest, hs.noFound]
      unfold serveRouted
      rw [hc]

/-- **C109 (the reference server).** So a server with its trees in memory answers every request as the reference server does. -/
theorem C109_refines {rx : Regex} {o : Oracle} (hgood : o.bad 404 = false ∧ o.bad 405 = false ∧ o.bad 406 = false) {site : Site ω}
    {p : PEngine (Prog ω)} (h : mkEngineP rx site.static site.noFound site.routes = .ok p) (c : Ctx ω) (req : Req) (rw : Writer)
    (body : Option Str) (w : ω) :
    ∃ left, Reference rx (driver o) site req c.params rw body w (answerOf (serveP rx o p c req rw body w)) left ∧
      ∀ c' ∈ (serveP rx o p c req rw body w).puts, c'.params = left := by
  obtain ⟨e, he, _⟩ := engine_same h
  rw [C109_serve h he]
  exact C108_refines hgood he c req rw body w

namespace Demo

/-- routes that share inner nodes, one of them registered twice, and two of them static -/
def memRoutes : List (Route Nat) :=
  [⟨b!"GET", b!"/a/b", [], [1]⟩, ⟨b!"GET", b!"/a/:x", [], [2]⟩, ⟨b!"POST", b!"/a/b", [], [3]⟩, ⟨b!"GET", b!"/a/b", [], [4]⟩,
   ⟨b!"GET", b!"/*", [], [5]⟩, ⟨b!"GET", b!"/", [], [6]⟩]

/-- the hypotheses are met: nine nodes in two trees; the second inner node of GET lists a static and a named end, in this order; a literal
path is found in the static map; another one by its parameter -/
example : ∃ (p : PEngine Nat) (e : Engine Nat), mkEngineP rx true [] memRoutes = .ok p ∧ mkEngine rx true [] memRoutes = .ok e ∧
    p.mem.length = 9 ∧ p.routers 0 = some 0 ∧ p.routers 1 = some 4 ∧ (p.mem[1]?.map (·.endNodes)) = some [2, 3] ∧
    (p.mem[0]?.map (·.endNodes)) = some [8, 7] ∧
    (lookupP rx p 0 b!"/a/b").1 = some 2 ∧ (lookupP rx p 0 b!"/a/c").1 = some 3 ∧ p.routersStatic 1 b!"/a/b" = some 6 ∧
    (p.mem[2]?.map (·.handlers)) = some [1] := by
  have hk : (match mkEngineP rx true [] memRoutes, mkEngine rx true [] memRoutes with
    | .ok p, .ok _ => p.mem.length == 9 && p.routers 0 == some 0 && p.routers 1 == some 4 &&
        (p.mem[1]?.map (·.endNodes)) == some [2, 3] && (p.mem[0]?.map (·.endNodes)) == some [8, 7] &&
        (lookupP rx p 0 b!"/a/b").1 == some 2 && (lookupP rx p 0 b!"/a/c").1 == some 3 && p.routersStatic 1 b!"/a/b" == some 6 &&
        (p.mem[2]?.map (·.handlers)) == some [1]
    | _, _ => false) = true := by decide +kernel
  split at hk
  · rename_i p e hp he
    simp only [Bool.and_eq_true, beq_iff_eq] at hk
    obtain ⟨⟨⟨⟨⟨⟨⟨⟨h1, h2⟩, h3⟩, h4⟩, h5⟩, h6⟩, h7⟩, h8⟩, h9⟩ := hk
    exact ⟨p, e, hp, he, h1, h2, h3, h4, h5, h6, h7, h8, h9⟩
  · cases hk

end Demo

end Water
