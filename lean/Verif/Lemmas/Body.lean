import Verif.Spec.Body
/- The loop of `ioutil.ReadAll`. -/
namespace Water
open Spec

/-- more time changes nothing -/
theorem readAllF_more {σ : Type} {rd : Nat → Nat → σ → (Str × Option RdErr) × σ} {q : Sched} {f k : Nat} {b : σ} {acc : Str}
    {r : (Str × Option RdErr) × σ} (h : readAllF rd q f k b acc = some r) (g : Nat) (hg : f ≤ g) :
    readAllF rd q g k b acc = some r := by
  induction f generalizing g k b acc with
  | zero => cases h
  | succ f ih =>
    obtain ⟨g, rfl⟩ : ∃ g', g = g' + 1 := ⟨g - 1, by omega⟩
    unfold readAllF at h ⊢
    rcases hr : rd k (512 + q.room k) b with ⟨⟨d, e⟩, b'⟩
    rw [hr] at h
    rcases e with _ | e
    · exact ih h g (by omega)
    · cases e <;> exact h

/-- reading an open body to its end -/
theorem readAll_net (q : Sched) (fin : Option Str) {f k : Nat} {rest acc : Str} {r : (Str × Option RdErr) × Body}
    (h : readAllF (Body.read q) q f k (.net rest fin false) acc = some r) :
    r = ((acc ++ rest, fin.map .failed), .net [] fin false) := by
  induction f generalizing k rest acc with
  | zero => cases h
  | succ f ih =>
    unfold readAllF at h
    by_cases hr : rest = []
    · subst hr
      cases fin <;> simp [Body.read, finErr] at h <;> simp [← h]
    · simp only [Body.read, Bool.false_eq_true, if_false, if_neg hr] at h
      by_cases hd : rest.drop (min (512 + q.room k) (q.chunk k)) = [] ∧ q.early k = true
      · have ht : rest.take (min (512 + q.room k) (q.chunk k)) = rest := by
          have := List.take_append_drop (min (512 + q.room k) (q.chunk k)) rest
          rwa [hd.1, List.append_nil] at this
        simp only [if_pos hd] at h
        rw [hd.1, ht] at h
        cases fin <;> simp [finErr] at h <;> simp [← h]
      · simp only [if_neg hd] at h
        rw [ih h, List.append_assoc, List.take_append_drop]

theorem readAll_buf (q : Sched) {f k : Nat} {rest acc : Str} {r : (Str × Option RdErr) × Body}
    (h : readAllF (Body.read q) q f k (.buf rest) acc = some r) : r = ((acc ++ rest, none), .buf []) := by
  induction f generalizing k rest acc with
  | zero => cases h
  | succ f ih =>
    unfold readAllF at h
    by_cases hr : rest = []
    · subst hr
      simp [Body.read] at h
      simp [← h]
    · simp only [Body.read, if_neg hr] at h
      rw [ih h, List.append_assoc, List.take_append_drop]

theorem readAll_closed (q : Sched) {f k : Nat} {rest acc : Str} {fin : Option Str} {r : (Str × Option RdErr) × Body}
    (h : readAllF (Body.read q) q f k (.net rest fin true) acc = some r) :
    r = ((acc, some .closed), .net rest fin true) := by
  cases f with
  | zero => cases h
  | succ f =>
    simp [readAllF, Body.read] at h
    simp [← h]

/-- reading at most `left` bytes -/
theorem limited_net (q : Sched) (fin : Option Str) {f k left : Nat} {rest acc : Str} {r : (Str × Option RdErr) × (Body × Nat)}
    (h : readAllF (limitedRead q) q f k (.net rest fin false, left) acc = some r) :
    r.1.1 = acc ++ rest.take left ∧ r.2.1 = .net (rest.drop left) fin false := by
  induction f generalizing k left rest acc with
  | zero => cases h
  | succ f ih =>
    unfold readAllF at h
    by_cases hl : left = 0
    · subst hl
      simp [limitedRead] at h
      simp [← h]
    · simp only [limitedRead, if_neg hl] at h
      by_cases hr : rest = []
      · subst hr
        cases fin <;> simp [Body.read, finErr] at h <;> simp [← h]
      · simp only [Body.read, Bool.false_eq_true, if_false, if_neg hr] at h
        generalize hm : min (min (512 + q.room k) left) (q.chunk k) = m at h
        have hml : m ≤ left := by omega
        by_cases hd : rest.drop m = [] ∧ q.early k = true
        · have ht : rest.length ≤ m := by simpa using hd.1
          simp only [if_pos hd] at h
          rw [hd.1, List.take_of_length_le ht] at h
          rw [List.take_of_length_le (by omega), List.drop_of_length_le (by omega)]
          cases fin <;> simp [finErr] at h <;> simp [← h]
        · simp only [if_neg hd] at h
          obtain ⟨h1, h2⟩ := ih h
          refine ⟨?_, ?_⟩
          · rw [h1, List.append_assoc]
            congr 1
            rw [List.length_take]
            by_cases hk : m ≤ rest.length
            · rw [Nat.min_eq_left hk]
              conv => rhs; rw [show left = m + (left - m) by omega, List.take_add]
            · rw [List.take_of_length_le (show rest.length ≤ m by omega), List.drop_of_length_le (show rest.length ≤ m by omega),
                List.take_nil, List.append_nil, List.take_of_length_le (by omega)]
          · rw [h2, List.drop_drop, List.length_take]
            by_cases hk : m ≤ rest.length
            · rw [Nat.min_eq_left hk, show m + (left - m) = left by omega]
            · rw [List.drop_of_length_le (by omega), List.drop_of_length_le (by omega)]

theorem limited_buf (q : Sched) {f k left : Nat} {rest acc : Str} {r : (Str × Option RdErr) × (Body × Nat)}
    (h : readAllF (limitedRead q) q f k (.buf rest, left) acc = some r) :
    r.1.1 = acc ++ rest.take left := by
  induction f generalizing k left rest acc with
  | zero => cases h
  | succ f ih =>
    unfold readAllF at h
    by_cases hl : left = 0
    · subst hl
      simp [limitedRead] at h
      simp [← h]
    · simp only [limitedRead, if_neg hl] at h
      by_cases hr : rest = []
      · subst hr
        simp [Body.read] at h
        simp [← h]
      · simp only [Body.read, if_neg hr] at h
        generalize hm : min (512 + q.room k) left = m at h
        have hml : m ≤ left := by omega
        rw [ih h, List.append_assoc]
        congr 1
        rw [List.length_take]
        by_cases hk : m ≤ rest.length
        · rw [Nat.min_eq_left hk]
          conv => rhs; rw [show left = m + (left - m) by omega, List.take_add]
        · rw [List.take_of_length_le (show rest.length ≤ m by omega), List.drop_of_length_le (show rest.length ≤ m by omega),
            List.take_nil, List.append_nil, List.take_of_length_le (by omega)]

/-- `ReadAll` comes to an end if every read makes progress when something has come. -/
theorem readAll_ends {σ : Type} {rd : Nat → Nat → σ → (Str × Option RdErr) × σ} {q : Sched} (hq : Live q) (size : σ → Nat)
    (hs : ∀ k n b d b', 512 ≤ n → rd k n b = ((d, none), b') → size b' ≤ size b ∧ (q.chunk k ≠ 0 → size b' < size b))
    (b : σ) (k : Nat) (acc : Str) : ∃ f r, readAllF rd q f k b acc = some r := by
  have main : ∀ n (b : σ), size b ≤ n → ∀ k acc, ∃ f r, readAllF rd q f k b acc = some r := by
    intro n
    induction n using Nat.strongRecOn with
    | _ n ih =>
      intro b hb k acc
      obtain ⟨j, hj, hc⟩ := hq k
      obtain ⟨g, rfl⟩ : ∃ g, j = k + g := ⟨j - k, by omega⟩
      clear hj
      induction g generalizing k b acc with
      | zero =>
        rcases hr : rd k (512 + q.room k) b with ⟨⟨d, e⟩, b'⟩
        rcases e with _ | e
        · have h1 := (hs _ _ _ _ _ (by omega) hr).2 hc
          obtain ⟨f, r, h2⟩ := ih (size b') (by omega) b' (Nat.le_refl _) (k + 1) (acc ++ d)
          exact ⟨f + 1, r, by unfold readAllF; rw [hr]; exact h2⟩
        · cases e <;> exact ⟨1, _, by unfold readAllF; rw [hr]⟩
      | succ g ihg =>
        rcases hr : rd k (512 + q.room k) b with ⟨⟨d, e⟩, b'⟩
        rcases e with _ | e
        · have h1 := (hs _ _ _ _ _ (by omega) hr).1
          obtain ⟨f, r, h2⟩ := ihg b' (by omega) (k + 1) (acc ++ d) (by rwa [show k + 1 + g = k + (g + 1) by omega])
          exact ⟨f + 1, r, by unfold readAllF; rw [hr]; exact h2⟩
        · cases e <;> exact ⟨1, _, by unfold readAllF; rw [hr]⟩
  exact main _ b (Nat.le_refl _) k acc

/-- what is left of a body -/
def Body.left : Body → Nat
  | .net rest _ _ => rest.length
  | .buf rest => rest.length

theorem read_progress (q : Sched) {k n : Nat} {b : Body} {d : Str} {b' : Body} (hn : 0 < n)
    (h : b.read q k n = ((d, none), b')) : b'.left ≤ b.left ∧ (q.chunk k ≠ 0 → b'.left < b.left) := by
  cases b with
  | net rest fin closed =>
    simp only [Body.read] at h
    split at h
    · simp at h
    · split at h
      · simp at h
      · rename_i hr
        simp only [Prod.mk.injEq] at h
        rw [← h.2]
        have : 0 < rest.length := List.length_pos_iff.2 hr
        simp only [Body.left, List.length_drop]
        omega
  | buf rest =>
    simp only [Body.read] at h
    split at h
    · simp at h
    · rename_i hr
      simp only [Prod.mk.injEq] at h
      rw [← h.2]
      have : 0 < rest.length := List.length_pos_iff.2 hr
      simp only [Body.left, List.length_drop]
      omega

theorem readAll_body_ends {q : Sched} (hq : Live q) (b : Body) : ∃ f r, readAllF (Body.read q) q f 0 b [] = some r :=
  readAll_ends hq Body.left (fun _ _ _ _ _ hn h => read_progress q (by omega) h) b 0 []

theorem readAll_limited_ends {q : Sched} (hq : Live q) (b : Body) (n : Nat) :
    ∃ f r, readAllF (limitedRead q) q f 0 (b, n) [] = some r := by
  refine readAll_ends hq (fun x => x.1.left) (fun k n b d b' hn h => ?_) (b, n) 0 []
  obtain ⟨b, left⟩ := b
  simp only [limitedRead] at h
  split at h
  · simp at h
  · rcases hr : b.read q k (min n left) with ⟨⟨d1, e1⟩, b1⟩
    simp only [hr, Prod.mk.injEq] at h
    obtain ⟨⟨rfl, rfl⟩, rfl⟩ := h
    exact read_progress q (by omega) hr

end Water
