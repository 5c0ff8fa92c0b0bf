import Verif.Lemmas.Cost
import Verif.Props.Demo
/-
C82: what finding the route of a request costs. `lookupT` is the search with a record of every node it examines and of the
text the node is compared with.
-/
namespace Water
open Spec Demo
variable {α : Type}

/-- C82: the recorded search is the search. -/
theorem C82_search (rx : Regex) (e : Engine α) (i : Nat) (path : Str) : (lookupT rx e i path).2 = lookup rx e i path :=
  lookupT_snd rx e i path

/-- C82: the nodes of the tree are examined in a fixed order, each at most once, whatever the path. -/
theorem C82_once (rx : Regex) (e : Engine α) (i : Nat) (path : Str) :
    (e.trees i = none ∧ (lookupT rx e i path).1 = []) ∨
    ∃ t, e.trees i = some t ∧ ((lookupT rx e i path).1.map Prod.fst).Sublist t.segsBelow := by
  unfold lookupT
  dsimp only
  cases ht : e.trees i with
  | none =>
    left
    refine ⟨rfl, ?_⟩
    split <;> rfl
  | some t =>
    right
    refine ⟨t, rfl, ?_⟩
    split
    · exact List.nil_sublist _
    · exact matchNextT_sub rx t 0 _ _

/-- C82: finding the route of a request examines no more nodes than the patterns registered for its method have slashes. -/
theorem C82_bound {rx : Regex} {st : Bool} {nf : List α} {rs : List (Route α)} {e : Engine α}
    (h : mkEngine rx st nf rs = .ok e) {m : Str} {i : Nat} (hm : methodIndex m = some i) (path : Str) :
    (lookupT rx e i path).1.length ≤ slashesOf m rs := by
  rcases C82_once rx e i path with ⟨_, h1⟩ | ⟨t, h1, h2⟩
  · rw [h1]; exact Nat.zero_le _
  · have h3 := h2.length_le
    rw [List.length_map] at h3
    exact Nat.le_trans h3 (mkEngine_size h m i hm t h1)

/-- C82: every text a node is compared with, every text a regular expression is run on in particular, is one segment of the path. -/
theorem C82_texts (rx : Regex) (e : Engine α) (i : Nat) (path : Str) :
    ∀ t ∈ (lookupT rx e i path).1, t.2 = [] ∨ t.2 ∈ pathSegs path := by
  unfold lookupT
  dsimp only
  split
  · simp
  · split
    · simp
    · rw [pathSegs_eq]
      exact matchNextT_text rx _ 0 _ _

theorem length_mem_splitB {c : UInt8} {s t : Str} (h : t ∈ splitB c s) : t.length ≤ s.length := by
  induction s generalizing t with
  | nil => simp [splitB] at h; simp [h]
  | cons x s ih =>
    unfold splitB at h
    split at h
    · rcases List.mem_cons.1 h with rfl | h
      · simp
      · have := ih h; simp only [List.length_cons]; omega
    · cases hs : splitB c s with
      | nil => exact absurd hs (splitB_ne_nil c s)
      | cons y ys =>
        rw [hs] at h
        rcases List.mem_cons.1 h with rfl | h
        · have := ih (t := y) (by simp [hs]); simp only [List.length_cons]; omega
        · have := ih (t := t) (by simp [hs, h]); simp only [List.length_cons]; omega

theorem length_stripSlashes (s : Str) : (stripSlashes s).length ≤ s.length := by
  unfold stripSlashes
  dsimp only
  split <;> split <;> simp <;> omega

/-- C82: the bytes compared are no more than the slashes of the patterns times the length of the path: no path makes the search
go on longer than that, however the patterns overlap. -/
theorem C82_bytes {rx : Regex} {st : Bool} {nf : List α} {rs : List (Route α)} {e : Engine α}
    (h : mkEngine rx st nf rs = .ok e) {m : Str} {i : Nat} (hm : methodIndex m = some i) (path : Str) :
    ((lookupT rx e i path).1.map (fun t => t.2.length)).sum ≤ slashesOf m rs * path.length := by
  have key : ∀ l : Tests, (∀ t ∈ l, t.2.length ≤ path.length) → (l.map (fun t => t.2.length)).sum ≤ l.length * path.length := by
    intro l
    induction l with
    | nil => simp
    | cons t l ih =>
      intro h
      have h1 := h t (by simp)
      have h2 := ih (fun x hx => h x (by simp [hx]))
      simp only [List.map_cons, List.sum_cons, List.length_cons, Nat.add_mul, Nat.one_mul]
      omega
  refine Nat.le_trans (key _ ?_) (Nat.mul_le_mul_right _ (C82_bound h hm path))
  intro t ht
  rcases C82_texts rx e i path t ht with h1 | h1
  · simp [h1]
  · exact Nat.le_trans (length_mem_splitB h1) (length_stripSlashes path)

/-- nested alternatives, all of which are tried: the named and the two literal segments overlap -/
example : withEngine false [get b!"/a/a/a/x" [1], get b!"/a/<p>/a/y" [2], get b!"/<p>/a/a/z" [3], get b!"/<p>/<q>/a/w" [4]] (fun e =>
    (lookupT rx e 0 b!"/a/a/a/q").1.length == 14 && run e mGET b!"/a/a/a/q" == none &&
    (lookupT rx e 0 b!"/a/a/a/w").1.length == 14 && run e mGET b!"/a/a/a/w" == some [4]) = true := by decide +kernel

example : methodIndex mGET = some 0 ∧ slashesOf mGET [get b!"/a/a/a/x" [1], get b!"/a/<p>/a/y" [2], get b!"/<p>/a/a/z" [3],
    get b!"/<p>/<q>/a/w" [4], post b!"/a/b/c" [5]] = 16 := by decide +kernel

end Water
