import Verif.Lemmas.Str
import Verif.Spec.Routing
/- Helper lemmas: the model's pattern analysis agrees with the specification's reading of a segment. -/
namespace Water
open Spec

/-- the specification kind of a model type -/
def PTyp.kind : PTyp → Kind
  | .static => .literal | .regexp => .regexp | .holder => .name | .matchAll => .star

theorem PTyp.kind_rank (t : PTyp) : t.kind.rank = t.ord := by cases t <;> rfl

theorem head_eq_of_index_zero {s : Str} {c : UInt8} (h : indexByte s c = some 0) : s.head? = some c := by
  rw [indexByte_eq_some_iff] at h; rw [List.head?_eq_getElem?]; exact h.1

theorem containsAny_two {s : Str} {c d : UInt8} : containsAny s [c, d] = true ↔ (c ∈ s ∨ d ∈ s) := by
  simp only [containsAny, List.any_eq_true, List.contains_iff_mem]
  constructor
  · rintro ⟨x, hx, h⟩
    simp at h
    rcases h with rfl | rfl
    · exact .inl hx
    · exact .inr hx
  · rintro (h | h)
    · exact ⟨c, h, by simp⟩
    · exact ⟨d, h, by simp⟩

/-- What a well-formed bracketed pattern looks like after `getparsedPattern`. -/
theorem getparsed_bracket {p q : Str} (h : getparsedPattern p = .ok q) (hstar : p.head? ≠ some star)
    (hb : lt ∈ p ∨ gt ∈ p) :
    p.head? = some lt ∧ p.getLast? = some gt ∧ q = nameText p := by
  unfold getparsedPattern at h
  rw [if_neg (fun h' => hstar (hasPrefix_one.1 h'))] at h
  rw [if_neg (by simpa using containsAny_two.2 hb)] at h
  simp only [] at h
  have hne : p ≠ [] := by rintro rfl; simp at hb
  have hlen : 0 < p.length := List.length_pos_iff.2 hne
  split at h
  · cases h
  · rename_i hc
    simp only [Bool.not_eq_true', Bool.not_eq_false, Bool.and_eq_true, beq_iff_eq] at hc
    have hhead := head_eq_of_index_zero hc.1
    have hlast := (lastIndexByte_last hne).1 hc.2
    refine ⟨hhead, hlast, ?_⟩
    injection h with h
    have hp : p = lt :: p.tail := by
      cases p with
      | nil => exact absurd rfl hne
      | cons x xs => simp at hhead; simp [hhead]
    have key : ∀ (c : UInt8) (i : Nat), c ≠ lt → indexByte p c = some i →
        (p.take i).drop 1 = (p.drop 1).takeWhile (· != c) := by
      intro c i hcl hi
      rw [← takeWhile_index hi]
      conv => lhs; rw [hp]
      rw [List.takeWhile_cons_of_pos (by simpa using fun e => hcl e.symm)]
      simp
    unfold nameText
    by_cases h1 : colon ∈ p
    · rw [if_pos h1]
      obtain ⟨i, hi⟩ := exists_indexByte h1
      rw [hi] at h; simp only [] at h
      rw [← h, key colon i (by decide) hi]
    · rw [if_neg h1]
      rw [indexByte_none.2 h1] at h; simp only [] at h
      by_cases h2 : tilde ∈ p
      · rw [if_pos h2]
        obtain ⟨i, hi⟩ := exists_indexByte h2
        rw [hi] at h; simp only [] at h
        rw [← h, key tilde i (by decide) hi]
      · rw [if_neg h2]
        rw [indexByte_none.2 h2] at h; simp only [] at h
        rw [← h, List.dropLast_eq_take, List.drop_take]
        simp

theorem partternRegexp_ok {p r : Str} {n : Nat} (h : partternRegexp p n = .ok r) : r = regexText p := by
  unfold partternRegexp at h
  split at h
  · cases h
  · split at h
    · rename_i i j hi hj
      split at h
      · cases h
      · rename_i hle
        simp only [] at h
        split at h
        · cases h
        · injection h with h
          rw [← h]
          unfold regexText
          rw [takeWhile_index hj, dropWhile_index (indexByte_take hi (by omega)), List.drop_drop]
    · cases h

/-- Everything `analyzePattern` computes, in the specification's terms. -/
theorem analyze_spec {rx : Regex} {p : Str} {seg : Seg} (h : analyzePattern rx p = .ok seg) :
    seg.pattern = p ∧ trimSpace p = p ∧ seg.typ.kind = kind p ∧
    (seg.typ = .regexp → seg.reg = regexText p ∧ seg.wildcards = regexNames p) ∧
    (seg.typ = .holder → seg.parsed = nameText p) ∧
    (seg.typ = .matchAll → seg.parsed = starName p) := by
  unfold analyzePattern at h
  split at h
  · cases h
  · rename_i hsp
    have hsp : p = trimSpace p := by simpa using hsp
    cases hg : getparsedPattern p with
    | error e => rw [hg] at h; cases h
    | ok q =>
      rw [hg] at h
      simp only [bind, Except.bind] at h
      by_cases hs : p.head? = some star
      · have hq : q = p := by
          unfold getparsedPattern at hg
          rw [if_pos (hasPrefix_one.2 hs)] at hg
          injection hg with hg; exact hg.symm
        subst hq
        rw [if_pos (hasPrefix_one.2 hs)] at h
        injection h with h
        subst h
        refine ⟨rfl, hsp.symm, by simp [PTyp.kind, kind, hs], by simp, by simp, ?_⟩
        intro _
        simp only [trimPrefix_one, starName, if_pos hs]
      · by_cases hb : lt ∈ p ∨ gt ∈ p
        · obtain ⟨hhead, hlast, hq⟩ := getparsed_bracket hg hs hb
          have hlt : lt ∈ p := List.mem_of_head? hhead
          by_cases hqs : hasPrefix q [star] = true
          · rw [if_pos hqs] at h
            injection h with h
            subst h
            have hqh := hasPrefix_one.1 hqs
            refine ⟨rfl, hsp.symm, ?_, by simp, by simp, ?_⟩
            · simp only [PTyp.kind, kind, if_neg hs, hlt, not_true, if_false, ← hq, hqh, if_true]
            · intro _
              simp only [trimPrefix_one, starName, if_neg hs, ← hq, hqh, if_true]
          · have hqn : q.head? ≠ some star := fun h' => hqs (hasPrefix_one.2 h')
            rw [if_neg hqs, if_pos (containsStr_one.2 hlt)] at h
            by_cases ht : tilde ∈ p
            · rw [if_pos (containsStr_one.2 ht)] at h
              cases hr : partternRegexp p (getWildcards q).length with
              | error e => rw [hr] at h; cases h
              | ok r =>
                rw [hr] at h
                simp only [] at h
                split at h
                · injection h with h
                  subst h
                  refine ⟨rfl, hsp.symm, by simp [PTyp.kind, kind, hs, hlt, ht, ← hq, hqn], ?_, by simp, by simp⟩
                  intro _
                  exact ⟨partternRegexp_ok hr, by simp [getWildcards, regexNames, hq]⟩
                · cases h
            · rw [if_neg (fun h' => ht (containsStr_one.1 h'))] at h
              injection h with h
              subst h
              refine ⟨rfl, hsp.symm, by simp [PTyp.kind, kind, hs, hlt, ht, ← hq, hqn], by simp, ?_, by simp⟩
              intro _; exact hq
        · have hq : q = p := by
            unfold getparsedPattern at hg
            rw [if_neg (fun h' => hs (hasPrefix_one.1 h')),
              if_pos (by simpa using fun h' => hb (containsAny_two.1 h'))] at hg
            injection hg with hg; exact hg.symm
          subst hq
          simp only [not_or] at hb
          rw [if_neg (fun h' => hs (hasPrefix_one.1 h')), if_neg (fun h' => hb.1 (containsStr_one.1 h'))] at h
          injection h with h
          subst h
          exact ⟨rfl, hsp.symm, by simp [PTyp.kind, kind, hs, hb.1], by simp, by simp, by simp⟩

end Water
