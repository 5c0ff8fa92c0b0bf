import Verif.Spec.Clean
import Verif.Lemmas.Clean
/- C84: cleaned paths are canonical. -/
namespace Water
open Spec

/-- what cleaning makes of a path: rooted or not, how many `..` are left in front, and the names after them -/
theorem clean_normal (p : Str) : ∃ k rs, (∀ e ∈ rs, FileName e) ∧ (p.head? = some slash → k = 0) ∧
    (splitB slash p).foldl (cleanStep (p.head? == some slash)) [] = List.replicate k b!".." ++ rs := by
  have key : ∀ rooted (l es : List Str), (∀ x ∈ l, slash ∉ x) →
      (∃ k rs, (∀ e ∈ rs, FileName e) ∧ (rooted = true → k = 0) ∧ es = List.replicate k b!".." ++ rs) →
      ∃ k rs, (∀ e ∈ rs, FileName e) ∧ (rooted = true → k = 0) ∧ l.foldl (cleanStep rooted) es = List.replicate k b!".." ++ rs := by
    intro rooted l
    induction l with
    | nil => intro es _ h; exact h
    | cons e l ih =>
      intro es hl h
      refine ih (cleanStep rooted es e) (fun x hx => hl x (by simp [hx])) ?_
      obtain ⟨k, rs, hrs, hk, he⟩ := h
      unfold cleanStep
      split
      · exact ⟨k, rs, hrs, hk, he⟩
      · rename_i h1
        split
        · rename_i h2
          rcases List.eq_nil_or_concat rs with rfl | ⟨rs', x, hcc⟩
          · rw [List.append_nil] at he
            subst he
            cases k with
            | zero =>
              simp only [List.replicate_zero, List.getLast?_nil]
              split
              · exact ⟨0, [], by simp, by simp, rfl⟩
              · rename_i hr; exact ⟨1, [], by simp, fun h => absurd h hr, by rw [h2]; rfl⟩
            | succ k =>
              rw [List.replicate_succ', List.getLast?_concat]
              simp only [if_true]
              refine ⟨k + 2, [], by simp, fun h => absurd (hk h) (by simp), ?_⟩
              rw [h2, List.replicate_succ' (n := k + 1), List.replicate_succ' (n := k)]; simp
          · rw [List.concat_eq_append] at hcc
            subst hcc
            rw [he, ← List.append_assoc, List.getLast?_concat]
            simp only [List.dropLast_concat]
            rw [if_neg (hrs x (by simp)).up]
            exact ⟨k, rs', fun e he => hrs e (by simp [he]), hk, rfl⟩
        · rename_i h2
          refine ⟨k, rs ++ [e], ?_, hk, by rw [he]; simp⟩
          intro x hx
          rcases List.mem_append.1 hx with hx | hx
          · exact hrs x hx
          · rw [List.mem_singleton.1 hx]
            exact ⟨fun h => h1 (.inl h), hl e (by simp), fun h => h1 (.inr h), h2⟩
  obtain ⟨k, rs, h1, h2, h3⟩ := key (p.head? == some slash) (splitB slash p) [] (fun x hx => not_mem_of_mem_splitB hx)
    ⟨0, [], by simp, by simp, rfl⟩
  exact ⟨k, rs, h1, fun h => h2 (by simpa using h), h3⟩

theorem walk_names {rs : List Str} (h : ∀ e ∈ rs, FileName e) (st : List Str) : rs.foldl walkStep st = st ++ rs := by
  induction rs generalizing st with
  | nil => simp
  | cons e rs ih =>
    have he := h e (by simp)
    rw [List.foldl_cons, ih (fun x hx => h x (by simp [hx])), walkStep, if_neg (fun hh => hh.elim he.some he.self), if_neg he.up]
    simp

theorem walk_ups (k : Nat) (st : List Str) : (List.replicate k b!"..").foldl walkStep st = st.take (st.length - k) := by
  induction k generalizing st with
  | zero => simp
  | succ k ih =>
    rw [List.replicate_succ, List.foldl_cons, ih]
    have : walkStep st b!".." = st.dropLast := by rw [walkStep, if_neg (by decide), if_pos rfl]
    rw [this, List.dropLast_eq_take, List.take_take, List.length_take]
    congr 1
    omega

/-- The path cleaned, and where it leads, in terms of its normal form. -/
theorem clean_walk (p : Str) : ∃ k rs, (∀ e ∈ rs, FileName e) ∧
    (p.head? = some slash → k = 0 ∧ pathClean p = slash :: join [slash] rs ∧ ∀ cwd, walk cwd p = rs) ∧
    (p.head? ≠ some slash →
      pathClean p = (if List.replicate k b!".." ++ rs = [] then b!"." else join [slash] (List.replicate k b!".." ++ rs)) ∧
      ∀ cwd, walk cwd p = cwd.take (cwd.length - k) ++ rs) := by
  obtain ⟨k, rs, hrs, hk, he⟩ := clean_normal p
  have hw : ∀ cwd, walk cwd p = (List.replicate k b!".." ++ rs).foldl walkStep (if p.head? = some slash then [] else cwd) := by
    intro cwd
    rw [← he, walk_cleanSteps (by intro h; rw [if_pos (by simpa using h)]) _ _ (by simp) (fun x hx => not_mem_of_mem_splitB hx)]
    rfl
  refine ⟨k, rs, hrs, fun h => ?_, fun h => ?_⟩
  · have hk0 := hk h
    subst hk0
    refine ⟨rfl, ?_, ?_⟩
    · unfold pathClean
      rw [if_neg (by intro h'; simp [h'] at h)]
      simp only []
      rw [he, if_pos (by simpa using h)]
      rfl
    · intro cwd
      rw [hw, if_pos h, List.foldl_append, walk_names hrs]
      rfl
  · refine ⟨?_, ?_⟩
    · unfold pathClean
      by_cases hp : p = []
      · subst hp
        rw [if_pos rfl]
        have : List.replicate k b!".." ++ rs = [] := by rw [← he]; rfl
        rw [if_pos this]
      · rw [if_neg hp]
        simp only []
        rw [he, if_neg (by simpa using h)]
    · intro cwd
      rw [hw, if_neg h, List.foldl_append, walk_ups, walk_names hrs]

/-- a name longer than every one of these -/
theorem fresh_name (rs : List Str) : ∃ n, FileName n ∧ n ∉ rs := by
  refine ⟨List.replicate ((rs.map List.length).sum + 3) 97, ⟨by simp [List.replicate_succ], ?_, ?_, ?_⟩, ?_⟩
  · intro h; exact absurd (List.eq_of_mem_replicate h) (by decide)
  · intro h; have := congrArg List.length h; simp at this
  · intro h; have := congrArg List.length h; simp at this
  · intro h
    have hle : ∀ (l : List Str) (x : Str), x ∈ l → x.length ≤ (l.map List.length).sum := by
      intro l
      induction l with
      | nil => intro x hx; simp at hx
      | cons y l ih =>
        intro x hx
        rw [List.map_cons, List.sum_cons]
        rcases List.mem_cons.1 hx with rfl | hx
        · omega
        · have := ih x hx; omega
    have := hle rs _ h
    rw [List.length_replicate] at this
    omega

theorem cut_eq {n : Str} {r r' : List Str} (h : n ∉ r) (h' : n ∉ r') : ∀ {a b : Nat},
    List.replicate a n ++ r = List.replicate b n ++ r' → a = b ∧ r = r' := by
  intro a
  induction a with
  | zero =>
    intro b he
    cases b with
    | zero => exact ⟨rfl, by simpa using he⟩
    | succ b => rw [List.replicate_succ] at he; simp at he; exact absurd (by rw [he]; simp) h
  | succ a ih =>
    intro b he
    cases b with
    | zero => rw [List.replicate_succ] at he; simp at he; exact absurd (by rw [← he]; simp) h'
    | succ b =>
      rw [List.replicate_succ, List.replicate_succ, List.cons_append, List.cons_append, List.cons.injEq] at he
      obtain ⟨h1, h2⟩ := ih he.2
      exact ⟨by omega, h2⟩

/-- **C84 (the loop).** The byte loop of `path.Clean` computes the description by elements, on every text. -/
theorem C84_loop (p : Str) : goClean p = pathClean p := goClean_eq p

/-- **C84 (canonical).** Two paths clean to the same text exactly if they lead to the same place from every directory. -/
theorem C84_canonical (p q : Str) : goClean p = goClean q ↔ SamePlace p q := by
  rw [goClean_eq, goClean_eq]
  constructor
  · intro h cwd _
    rw [← walk_clean cwd p, h, walk_clean]
  · intro h
    obtain ⟨k, rs, hrs, h1, h2⟩ := clean_walk p
    obtain ⟨k', rs', hrs', h1', h2'⟩ := clean_walk q
    obtain ⟨n, hn, hnr⟩ := fresh_name (rs ++ rs')
    have hn1 : n ∉ rs := fun hh => hnr (by simp [hh])
    have hn2 : n ∉ rs' := fun hh => hnr (by simp [hh])
    have hw := h (List.replicate (k + k' + 1) n) (fun e he => by rw [List.eq_of_mem_replicate he]; exact hn)
    have hmem : ∀ j, j ≤ k + k' → n ∈ (List.replicate (k + k' + 1) n).take ((List.replicate (k + k' + 1) n).length - j) := by
      intro j hj
      rw [List.take_replicate, List.length_replicate, List.mem_replicate]
      exact ⟨by omega, rfl⟩
    by_cases hp : p.head? = some slash <;> by_cases hq : q.head? = some slash
    · obtain ⟨-, a2, a3⟩ := h1 hp
      obtain ⟨-, b2, b3⟩ := h1' hq
      rw [a3, b3] at hw
      rw [a2, b2, hw]
    · obtain ⟨-, a2, a3⟩ := h1 hp
      obtain ⟨b2, b3⟩ := h2' hq
      rw [a3, b3] at hw
      exact absurd (by rw [hw]; exact List.mem_append_left _ (hmem k' (by omega))) hn1
    · obtain ⟨a2, a3⟩ := h2 hp
      obtain ⟨-, b2, b3⟩ := h1' hq
      rw [a3, b3] at hw
      exact absurd (by rw [← hw]; exact List.mem_append_left _ (hmem k (by omega))) hn2
    · obtain ⟨a2, a3⟩ := h2 hp
      obtain ⟨b2, b3⟩ := h2' hq
      rw [a3, b3, List.take_replicate, List.take_replicate] at hw
      obtain ⟨e1, e2⟩ := cut_eq hn1 hn2 hw
      rw [List.length_replicate] at e1
      have : k = k' := by omega
      subst this e2
      rw [a2, b2]

/-- **C84 (same place).** Cleaning does not change where a path leads, and cleaning twice is cleaning once. -/
theorem C84_idempotent (p : Str) : SamePlace (goClean p) p ∧ goClean (goClean p) = goClean p := by
  have h : SamePlace (goClean p) p := fun cwd _ => by rw [goClean_eq, walk_clean]
  exact ⟨h, (C84_canonical _ _).2 h⟩

/-- the length of the elements with a separator each -/
def weight (l : List Str) : Nat := (l.map (fun e => e.length + 1)).sum

theorem weight_append (a b : List Str) : weight (a ++ b) = weight a + weight b := by simp [weight]

theorem weight_cleanStep (rooted : Bool) (es : List Str) (e : Str) :
    weight (cleanStep rooted es e) ≤ weight es + (e.length + 1) := by
  have happ : weight (es ++ [e]) ≤ weight es + (e.length + 1) := by
    rw [weight_append]; simp [weight]
  unfold cleanStep
  split
  · omega
  · split
    · split
      · split
        · omega
        · exact happ
      · split
        · exact happ
        · have : weight es.dropLast ≤ weight es := by
            rcases List.eq_nil_or_concat es with rfl | ⟨l, x, rfl⟩
            · simp
            · rw [List.concat_eq_append, List.dropLast_concat, weight_append]; omega
          omega
    · exact happ

theorem weight_clean (rooted : Bool) (l es : List Str) : weight (l.foldl (cleanStep rooted) es) ≤ weight es + weight l := by
  induction l generalizing es with
  | nil => simp [weight]
  | cons e l ih =>
    rw [List.foldl_cons]
    have h1 := ih (cleanStep rooted es e)
    have h2 := weight_cleanStep rooted es e
    have h3 : weight (e :: l) = e.length + 1 + weight l := by simp [weight]
    omega

theorem length_join : ∀ l : List Str, l ≠ [] → (join [slash] l).length + 1 = weight l
  | [], h => absurd rfl h
  | [x], _ => by simp [join, weight]
  | x :: y :: r, _ => by
    rw [join_cons_ne (by simp)]
    have := length_join (y :: r) (by simp)
    have h3 : weight (x :: y :: r) = x.length + 1 + weight (y :: r) := by simp [weight]
    simp only [List.length_append, List.length_cons, List.length_nil]
    omega

theorem weight_splitB (p : Str) : weight (splitB slash p) = p.length + 1 := by
  rw [← length_join _ (splitB_ne_nil _ _), join_splitB]

theorem length_clean {p : Str} (hp : p ≠ []) : (pathClean p).length ≤ p.length := by
  have h1 : 1 ≤ p.length := List.length_pos_iff.2 hp
  unfold pathClean
  rw [if_neg hp]
  simp only []
  split
  · rename_i hr
    rw [hr]
    cases p with
    | nil => exact absurd rfl hp
    | cons c r =>
      have hc : c = slash := by simpa using hr
      subst hc
      rw [splitB_cons_slash, List.foldl_cons, show cleanStep true [] [] = [] from rfl]
      have hw := weight_clean true (splitB slash r) []
      rw [weight_splitB] at hw
      have h0 : weight [] = 0 := rfl
      by_cases he : (splitB slash r).foldl (cleanStep true) [] = []
      · rw [he]; simp [join]
      · have := length_join _ he
        simp only [List.length_cons]
        omega
  · split
    · exact h1
    · rename_i he
      have hw := weight_clean (p.head? == some slash) (splitB slash p) []
      rw [weight_splitB] at hw
      have h0 : weight [] = 0 := rfl
      have := length_join _ he
      omega

/-- **C84 (shortest).** No text that leads to the same place is shorter, except the empty text. -/
theorem C84_shortest {p q : Str} (h : SamePlace p q) (hq : q ≠ []) : (goClean p).length ≤ q.length := by
  rw [(C84_canonical p q).2 h, goClean_eq]
  exact length_clean hq

/-- **C84 (form).** What `cleanPath` returns is a slash and names with single slashes between them: the place the path leads to
from the root. So two paths have the same clean form exactly if they lead to the same place from the root. -/
theorem C84_form (p : Str) : cleanPath p = slash :: join [slash] (walk [] p) ∧ ∀ e ∈ walk [] p, FileName e := by
  have h : cleanPath p = slash :: join [slash] (walk [] (slash :: p)) ∧ (∀ e ∈ walk [] (slash :: p), FileName e) ∧
      walk [] (slash :: p) = walk [] p := by
    have hwalk : walk [] (slash :: p) = walk [] p := by
      unfold walk
      rw [splitB_cons_slash, List.foldl_cons, List.head?_cons, if_pos rfl, show walkStep [] [] = [] from rfl]
      split <;> rfl
    obtain ⟨k, rs, hrs, h1, -⟩ := clean_walk (slash :: p)
    obtain ⟨-, h2, h3⟩ := h1 rfl
    refine ⟨?_, by rw [h3]; exact hrs, hwalk⟩
    rw [h3, ← h2]
    unfold cleanPath
    split
    · rename_i hp; subst hp; rfl
    · split
      · rfl
      · rename_i hp hs
        have hs' : p.head? = some slash := Classical.not_not.1 hs
        obtain ⟨k', rs', -, h1', -⟩ := clean_walk p
        obtain ⟨-, h2', h3'⟩ := h1' hs'
        rw [h2, h2', ← h3 [], ← h3' [], hwalk]
  rw [← h.2.2]
  exact ⟨h.1, h.2.1⟩

theorem C84_rooted (p q : Str) : cleanPath p = cleanPath q ↔ walk [] p = walk [] q := by
  obtain ⟨h1, h2⟩ := C84_form p
  obtain ⟨h3, h4⟩ := C84_form q
  constructor
  · intro h
    rw [h1, h3, List.cons.injEq] at h
    have hh := h.2
    have key : ∀ l : List Str, (∀ e ∈ l, FileName e) → join [slash] l = [] → l = [] := by
      intro l hl hj
      cases l with
      | nil => rfl
      | cons x r =>
        have := length_join (x :: r) (by simp)
        rw [hj] at this
        have h3 : weight (x :: r) = x.length + 1 + weight r := by simp [weight]
        have := List.length_pos_iff.2 (hl x (by simp)).some
        simp at *
        omega
    by_cases ha : walk [] p = []
    · rw [ha] at hh ⊢
      exact (key _ h4 hh.symm).symm
    · by_cases hb : walk [] q = []
      · rw [hb] at hh ⊢; exact key _ h2 hh
      · rw [← splitB_join ha (fun x hx => (h2 x hx).flat), ← splitB_join hb (fun x hx => (h4 x hx).flat), hh]
  · intro h; rw [h1, h3, h]

namespace Demo

/-- Two spellings of one place, and one that only looks alike. -/
theorem C84_demo : goClean b!"/a//b/./c/../d/" = b!"/a/b/d" ∧ goClean b!"../a/../../b" = b!"../../b" ∧ goClean b!"a/.." = b!"." ∧
    goClean b!"/../a" = b!"/a" ∧ cleanPath b!"a/./b" = cleanPath b!"/a//b/" ∧ goClean b!"a/..b" = b!"a/..b" := by
  decide +kernel

example : SamePlace b!"a/../b" b!"./b/" := (C84_canonical _ _).1 (by decide +kernel)
example : ¬ SamePlace b!"/b" b!"b" := fun h => absurd ((C84_canonical _ _).2 h) (by decide +kernel)

end Demo
end Water
