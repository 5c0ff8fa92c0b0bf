import Verif.Spec.Conditions
import Verif.Lemmas.HttpDate
import Verif.Props.HttpDate
/-
Lemmas about the conditions of a request.
-/
namespace Water
open Spec
variable {ω : Type}

/-! ### Tags -/

/-- what an entity tag looks like -/
theorem entityTag_shape {t : Str} (h : entityTag t = true) :
    ∃ body, body.all tagByte = true ∧ ((WeakTag t ∧ t = 87 :: 47 :: 34 :: body ++ [34]) ∨ (¬ WeakTag t ∧ t = 34 :: body ++ [34])) := by
  have key : ∀ u : Str, (decide (2 ≤ u.length) && u.head? == some 34 && u.getLast? == some 34 && (u.drop 1).dropLast.all tagByte) = true →
      ∃ body, body.all tagByte = true ∧ u = 34 :: body ++ [34] := by
    intro u hu
    simp only [Bool.and_eq_true, decide_eq_true_eq, beq_iff_eq] at hu
    obtain ⟨⟨⟨h1, h2⟩, h3⟩, h4⟩ := hu
    cases u with
    | nil => cases h2
    | cons a u =>
      simp only [List.head?_cons, Option.some.injEq] at h2
      subst h2
      have hne : u ≠ [] := by rintro rfl; simp at h1
      refine ⟨u.dropLast, h4, ?_⟩
      rw [List.getLast?_cons_of_ne_nil hne, List.getLast?_eq_some_getLast hne] at h3
      have h5 := List.dropLast_concat_getLast hne
      rw [Option.some.inj h3] at h5
      rw [List.cons_append, h5]
  unfold entityTag at h
  unfold WeakTag
  by_cases hw : t.take 2 = b!"W/"
  · rw [if_pos hw] at h
    obtain ⟨body, hb, he⟩ := key _ h
    refine ⟨body, hb, Or.inl ⟨hw, ?_⟩⟩
    have := List.take_append_drop 2 t
    rw [hw, he] at this
    exact this.symm
  · rw [if_neg hw] at h
    obtain ⟨body, hb, he⟩ := key _ h
    exact ⟨body, hb, Or.inr ⟨hw, he⟩⟩

theorem scanQuoted_body {body : Str} (h : body.all tagByte = true) (u : Str) : scanQuoted (body ++ 34 :: u) = some (body ++ [34], u) := by
  induction body with
  | nil => rfl
  | cons c body ih =>
    simp only [List.all_cons, Bool.and_eq_true] at h
    have hc : c ≠ 34 ∧ (c = 33 ∨ (35 ≤ c ∧ c ≤ 126) ∨ 128 ≤ c) := by
      have : ∀ c : UInt8, tagByte c = true → c ≠ 34 ∧ (c = 33 ∨ (35 ≤ c ∧ c ≤ 126) ∨ 128 ≤ c) := by
        refine all_bytes ?_
        decide +kernel
      exact this c h.1
    rw [List.cons_append, scanQuoted, if_neg hc.1, if_pos hc.2, ih h.2]
    rfl

/-- white space at the end taken off -/
def trimEnd (s : Str) : Str := (s.reverse.dropWhile asciiSpace).reverse

theorem trimEnd_append {a b : Str} {c : UInt8} (h : asciiSpace c = false) : trimEnd (a ++ c :: b) = a ++ c :: trimEnd b := by
  unfold trimEnd
  rw [List.reverse_append, List.reverse_cons, List.append_assoc]
  have : ∀ x y : Str, (x ++ ([c] ++ y)).dropWhile asciiSpace = x.dropWhile asciiSpace ++ ([c] ++ y) := by
    intro x y
    induction x with
    | nil => simp [h]
    | cons d x ih =>
      simp only [List.cons_append, List.dropWhile_cons]
      split
      · exact ih
      · rfl
  rw [this]
  simp

theorem ows_space {w : Str} (h : OWS w) : ∀ c ∈ w, asciiSpace c = true := by
  intro c hc
  rcases h c hc with rfl | rfl <;> decide

theorem trimString_ows {w s : Str} (h : OWS w) : trimString (w ++ s) = trimString s := by
  unfold trimString
  have : (w ++ s).dropWhile asciiSpace = s.dropWhile asciiSpace := by
    have h' := ows_space h
    clear h
    induction w with
    | nil => rfl
    | cons c w ih =>
      rw [List.cons_append, List.dropWhile_cons, if_pos (h' c (by simp))]
      exact ih (fun x hx => h' x (by simp [hx]))
  rw [this]

theorem trimString_head {c : UInt8} {s : Str} (h : asciiSpace c = false) : trimString (c :: s) = c :: trimEnd s := by
  have : trimString (c :: s) = trimEnd (c :: s) := by
    unfold trimString trimEnd
    rw [List.dropWhile_cons, h]
    rfl
  rw [this]
  exact trimEnd_append (a := []) h

theorem trimEnd_trimEnd (s : Str) : trimEnd (trimEnd s) = trimEnd s := by
  unfold trimEnd
  rw [List.reverse_reverse]
  have : ∀ l : Str, (l.dropWhile asciiSpace).dropWhile asciiSpace = l.dropWhile asciiSpace := by
    intro l
    induction l with
    | nil => rfl
    | cons c l ih =>
      rw [List.dropWhile_cons]
      split
      · exact ih
      · rename_i h
        rw [List.dropWhile_cons, if_neg h]
  rw [this]

theorem trimString_end (s : Str) : trimString (trimEnd s) = trimString s := by
  induction s with
  | nil => rfl
  | cons c s ih =>
    cases h : asciiSpace c with
    | false =>
      rw [show trimEnd (c :: s) = c :: trimEnd s from trimEnd_append (a := []) h, trimString_head h, trimString_head h, trimEnd_trimEnd]
    | true =>
      have h1 : trimString (c :: s) = trimString s := by
        unfold trimString
        rw [List.dropWhile_cons, if_pos h]
      rw [h1]
      by_cases he : trimEnd (c :: s) = []
      · rw [he]
        have : trimString s = [] := by
          have hall : ∀ x ∈ c :: s, asciiSpace x = true := by
            intro x hx
            unfold trimEnd at he
            have he' := List.reverse_eq_nil_iff.1 he
            refine Classical.byContradiction (fun hn => ?_)
            have : ∀ l : Str, x ∈ l → l.dropWhile asciiSpace = [] → False := by
              intro l hl hd
              induction l with
              | nil => cases hl
              | cons y l ih =>
                rw [List.dropWhile_cons] at hd
                split at hd
                · rename_i hy
                  rcases List.mem_cons.1 hl with rfl | hl
                  · exact hn hy
                  · exact ih hl hd
                · cases hd
            exact this _ (List.mem_reverse.2 hx) he'
          have hd : s.dropWhile asciiSpace = [] := by
            have hs : ∀ x ∈ s, asciiSpace x = true := fun x hx => hall x (by simp [hx])
            clear ih h h1 he hall
            induction s with
            | nil => rfl
            | cons y s ih =>
              rw [List.dropWhile_cons, if_pos (hs y (by simp))]
              exact ih (fun x hx => hs x (by simp [hx]))
          unfold trimString
          rw [hd]
          rfl
        rw [this]
        rfl
      · have : trimEnd (c :: s) = c :: trimEnd s := by
          unfold trimEnd at he ⊢
          rw [List.reverse_cons] at he ⊢
          have : ∀ l : Str, (l ++ [c]).dropWhile asciiSpace ≠ [] → (l ++ [c]).dropWhile asciiSpace = l.dropWhile asciiSpace ++ [c] := by
            intro l
            induction l with
            | nil => intro hh; simp [h] at hh
            | cons y l ihl =>
              intro hh
              rw [List.cons_append, List.dropWhile_cons] at hh ⊢
              rw [List.dropWhile_cons]
              split
              · rename_i hy
                rw [if_pos hy] at hh
                exact ihl hh
              · rfl
          rw [this s.reverse (fun hh => he (by rw [hh]; rfl))]
          simp
        rw [this, ← ih]
        unfold trimString
        rw [List.dropWhile_cons, if_pos h]

theorem anyETag_end (hit : Str → Bool) (fuel : Nat) (s : Str) : anyETag hit fuel (trimEnd s) = anyETag hit fuel s := by
  cases fuel with
  | zero => rfl
  | succ fuel => rw [anyETag, anyETag, trimString_end]

theorem anyETag_comma (hit : Str → Bool) (fuel : Nat) {w s : Str} (h : OWS w) : anyETag hit (fuel + 1) (w ++ 44 :: s) = anyETag hit fuel s := by
  rw [anyETag, trimString_ows h, trimString_head (by decide)]
  dsimp only
  rw [if_pos rfl, anyETag_end]

/-- the first byte of an entity tag -/
theorem entityTag_head {t : Str} (h : entityTag t = true) : ∃ c t', t = c :: t' ∧ asciiSpace c = false ∧ c ≠ 44 ∧ c ≠ 42 := by
  obtain ⟨body, _, ⟨_, rfl⟩ | ⟨_, rfl⟩⟩ := entityTag_shape h
  · exact ⟨87, _, rfl, by decide, by decide, by decide⟩
  · exact ⟨34, _, rfl, by decide, by decide, by decide⟩

theorem trimString_tag {t u : Str} (h : entityTag t = true) : trimString (t ++ u) = t ++ trimEnd u := by
  obtain ⟨body, _, ⟨_, rfl⟩ | ⟨_, rfl⟩⟩ := entityTag_shape h
  · have : (87 :: 47 :: 34 :: body ++ [34] ++ u) = 87 :: ((47 :: 34 :: body) ++ 34 :: u) := by simp
    rw [this, trimString_head (by decide), trimEnd_append (by decide)]
    simp
  · have : (34 :: body ++ [34] ++ u) = 34 :: (body ++ 34 :: u) := by simp
    rw [this, trimString_head (by decide), trimEnd_append (by decide)]
    simp

theorem scan_body (w : Str) {body : Str} (hb : body.all tagByte = true) (v : Str) :
    (match (34 :: (body ++ 34 :: v) : Str) with
      | [] => none
      | [_] => none
      | c :: t => if c ≠ 34 then none else (scanQuoted t).map (fun r => (w ++ 34 :: r.1, r.2)) : Option (Str × Str)) = some (w ++ 34 :: (body ++ [34]), v) := by
  cases hx : body ++ 34 :: v with
  | nil => simp at hx
  | cons y ys =>
    dsimp only
    rw [if_neg (by simp), ← hx, scanQuoted_body hb]
    rfl

theorem scanETag_tag {t u : Str} (h : entityTag t = true) : scanETag (t ++ u) = some (t, trimEnd u) := by
  unfold scanETag
  dsimp only
  rw [trimString_tag h]
  generalize trimEnd u = v
  obtain ⟨body, hb, ⟨_, rfl⟩ | ⟨_, rfl⟩⟩ := entityTag_shape h
  · have e : (87 :: 47 :: 34 :: body ++ [34] ++ v) = 87 :: 47 :: 34 :: (body ++ 34 :: v) := by simp
    have hp : hasPrefix (87 :: 47 :: 34 :: (body ++ 34 :: v)) b!"W/" = true := by simp [hasPrefix]
    rw [e, hp]
    exact scan_body b!"W/" hb v
  · have e : (34 :: body ++ [34] ++ v) = 34 :: (body ++ 34 :: v) := by simp
    have hp : hasPrefix (34 :: (body ++ 34 :: v)) b!"W/" = false := rfl
    rw [e, hp]
    exact scan_body [] hb v

theorem anyETag_tag (hit : Str → Bool) (fuel : Nat) {w t u : Str} (hw : OWS w) (ht : entityTag t = true) :
    anyETag hit (fuel + 1) (w ++ t ++ u) = (hit t || anyETag hit fuel u) := by
  obtain ⟨c, t', rfl, h1, h2, h3⟩ := entityTag_head ht
  rw [anyETag, List.append_assoc, trimString_ows hw, trimString_tag ht]
  have hs := scanETag_tag (u := trimEnd u) ht
  rw [trimEnd_trimEnd] at hs
  simp only [List.cons_append] at hs ⊢
  rw [if_neg h2, if_neg h3, hs]
  dsimp only
  cases hit (c :: t') with
  | true => rfl
  | false => simp [anyETag_end]

theorem ows_empty {w : Str} (h : OWS w) (hit : Str → Bool) (fuel : Nat) : anyETag hit fuel w = false := by
  cases fuel with
  | zero => rfl
  | succ fuel =>
    have : trimString w = [] := by
      have := trimString_ows (s := []) h
      rw [List.append_nil] at this
      exact this
    rw [anyETag, this]

/-- The loop over a list of tags. -/
theorem anyETag_list (hit : Str → Bool) {ts : List Str} {s : Str} (h : TagList ts s) : ∀ fuel, s.length < fuel → anyETag hit fuel s = ts.any hit := by
  induction h with
  | nil hw => intro fuel _; exact ows_empty hw hit fuel
  | @comma w s ts hw _ ih =>
    intro fuel hf
    cases fuel with
    | zero => omega
    | succ fuel =>
      rw [anyETag_comma _ _ hw]
      exact ih fuel (by simp at hf; omega)
  | @last w t v hw ht hv =>
    intro fuel hf
    cases fuel with
    | zero => omega
    | succ fuel =>
      rw [anyETag_tag _ _ hw ht, ows_empty hv]
      simp
  | @tag w t v s ts hw ht hv _ ih =>
    intro fuel hf
    obtain ⟨c, t', rfl, _⟩ := entityTag_head ht
    simp only [List.length_append, List.length_cons] at hf
    match fuel, hf with
    | 0, hf => omega
    | 1, hf => omega
    | fuel + 2, hf =>
      have : w ++ c :: t' ++ v ++ 44 :: s = w ++ c :: t' ++ (v ++ 44 :: s) := by simp
      rw [this, anyETag_tag _ _ hw ht, anyETag_comma _ _ hv, ih fuel (by omega)]
      rfl

theorem opaque_trim (t : Str) : trimPrefix t b!"W/" = opaqueTag t := by
  unfold trimPrefix opaqueTag hasPrefix
  match t with
  | [] => rfl
  | [a] => by_cases h : a = 87 <;> simp [h]
  | a :: b :: t =>
    have e1 : ¬ a = 87 → ¬ 87 = a := fun h h' => h h'.symm
    have e2 : ¬ b = 47 → ¬ 47 = b := fun h h' => h h'.symm
    by_cases h1 : a = 87 <;> by_cases h2 : b = 47 <;> simp [h1, h2, e1, e2]

theorem weak_hit {t : Str} (ht : entityTag t = true) {cur : Option Str} :
    etagWeakMatch t (cur.getD []) = true ↔ ∃ c, cur = some c ∧ opaqueTag t = opaqueTag c := by
  unfold etagWeakMatch
  rw [opaque_trim, opaque_trim, beq_iff_eq]
  cases cur with
  | none =>
    simp only [Option.getD_none, reduceCtorEq, false_and, exists_const, iff_false]
    obtain ⟨body, _, ⟨_, rfl⟩ | ⟨hw, rfl⟩⟩ := entityTag_shape ht
    · simp [opaqueTag]
    · unfold WeakTag at hw
      unfold opaqueTag
      rw [if_neg hw]
      simp
  | some c => simp

theorem strong_hit {t : Str} (ht : entityTag t = true) {cur : Option Str} :
    etagStrongMatch t (cur.getD []) = true ↔ ¬ WeakTag t ∧ cur = some t := by
  unfold etagStrongMatch
  simp only [Bool.and_eq_true, beq_iff_eq, bne_iff_ne, ne_eq]
  obtain ⟨body, _, ⟨hw, rfl⟩ | ⟨hw, rfl⟩⟩ := entityTag_shape ht
  · constructor
    · rintro ⟨_, h⟩; simp at h
    · rintro ⟨h, _⟩; exact absurd hw h
  · cases cur with
    | none => simp
    | some c =>
      simp only [Option.getD_some, Option.some.injEq, hw, not_false_eq_true, true_and]
      constructor
      · rintro ⟨⟨h, _⟩, _⟩; exact h.symm
      · intro h; exact ⟨⟨h.symm, by simp⟩, rfl⟩

theorem tagList_tags {ts : List Str} {s : Str} (h : TagList ts s) : ∀ t ∈ ts, entityTag t = true := by
  induction h with
  | nil _ => intro t ht; cases ht
  | comma _ _ ih => exact ih
  | last _ ht _ => intro t h; rw [List.mem_singleton] at h; subst h; exact ht
  | tag _ ht _ _ ih =>
    intro t h
    rcases List.mem_cons.1 h with rfl | h
    · exact ht
    · exact ih t h

theorem tagList_ne {ts : List Str} {s : Str} (h : TagList ts s) (hne : ts ≠ []) : (34 : UInt8) ∈ s := by
  have key : ∀ t : Str, entityTag t = true → (34 : UInt8) ∈ t := by
    intro t ht
    obtain ⟨body, _, ⟨_, rfl⟩ | ⟨_, rfl⟩⟩ := entityTag_shape ht <;> simp
  induction h with
  | nil _ => exact absurd rfl hne
  | comma _ _ ih => have := ih hne; simp [this]
  | last _ ht _ => simp [key _ ht]
  | tag _ ht _ _ _ => simp [key _ ht]

/-! ### The fields -/

theorem ifMatch_ruled {r : CondReq} {im : Option TagCond} (h : TagField r.ifMatch im) (cur : Option Str) :
    (im = none → checkIfMatch r (cur.getD []) = none) ∧
    ∀ c, im = some c → (c.Strongly cur → checkIfMatch r (cur.getD []) = some true) ∧ (¬ c.Strongly cur → checkIfMatch r (cur.getD []) = some false) := by
  unfold checkIfMatch
  generalize r.ifMatch = s at h
  cases h with
  | absent => exact ⟨fun _ => if_pos rfl, fun c hc => by cases hc⟩
  | any =>
    refine ⟨(fun h => by cases h), fun c hc => ?_⟩
    cases hc
    refine ⟨fun _ => ?_, fun h => absurd trivial h⟩
    rw [if_neg (by simp)]
    simp [anyETag, show trimString [42] = [42] by decide]
  | @tags ts s hl hne =>
    refine ⟨(fun h => by cases h), fun c hc => ?_⟩
    cases hc
    have hs : s ≠ [] := by
      intro he
      have := tagList_ne hl hne
      rw [he] at this
      cases this
    rw [if_neg hs, anyETag_list _ hl _ (Nat.lt_succ_self _)]
    have : ts.any (fun t => etagStrongMatch t (cur.getD [])) = true ↔ TagCond.Strongly cur (.tags ts) := by
      rw [List.any_eq_true]
      constructor
      · rintro ⟨t, ht, hh⟩
        exact ⟨t, ht, (strong_hit (tagList_tags hl t ht)).1 hh⟩
      · rintro ⟨t, ht, hh⟩
        exact ⟨t, ht, (strong_hit (tagList_tags hl t ht)).2 hh⟩
    refine ⟨(fun h => by rw [this.2 h]), fun h => ?_⟩
    cases hx : ts.any (fun t => etagStrongMatch t (cur.getD [])) with
    | false => rfl
    | true => exact absurd (this.1 hx) h

theorem ifNoneMatch_ruled {r : CondReq} {inm : Option TagCond} (h : TagField r.ifNoneMatch inm) (cur : Option Str) :
    (inm = none → checkIfNoneMatch r (cur.getD []) = none) ∧
    ∀ c, inm = some c → (c.Weakly cur → checkIfNoneMatch r (cur.getD []) = some false) ∧ (¬ c.Weakly cur → checkIfNoneMatch r (cur.getD []) = some true) := by
  unfold checkIfNoneMatch
  generalize r.ifNoneMatch = s at h
  cases h with
  | absent => exact ⟨fun _ => if_pos rfl, fun c hc => by cases hc⟩
  | any =>
    refine ⟨(fun h => by cases h), fun c hc => ?_⟩
    cases hc
    refine ⟨fun _ => ?_, fun h => absurd trivial h⟩
    rw [if_neg (by simp)]
    simp [anyETag, show trimString [42] = [42] by decide]
  | @tags ts s hl hne =>
    refine ⟨(fun h => by cases h), fun c hc => ?_⟩
    cases hc
    have hs : s ≠ [] := by
      intro he
      have := tagList_ne hl hne
      rw [he] at this
      cases this
    rw [if_neg hs, anyETag_list _ hl _ (Nat.lt_succ_self _)]
    have : ts.any (fun t => etagWeakMatch t (cur.getD [])) = true ↔ TagCond.Weakly cur (.tags ts) := by
      rw [List.any_eq_true]
      constructor
      · rintro ⟨t, ht, hh⟩
        exact ⟨t, ht, (weak_hit (tagList_tags hl t ht)).1 hh⟩
      · rintro ⟨t, ht, hh⟩
        exact ⟨t, ht, (weak_hit (tagList_tags hl t ht)).2 hh⟩
    refine ⟨(fun h => by rw [this.2 h]; rfl), fun h => ?_⟩
    cases hx : ts.any (fun t => etagWeakMatch t (cur.getD [])) with
    | false => rfl
    | true => exact absurd (this.1 hx) h

/-- What a date field says, compared with the second of a file. -/
theorem dateField_ruled {obsolete : Str → Option Int} {s : Str} {dt : Option Int} (h : DateField obsolete s dt) (mt : Int) :
    (if s = [] ∨ isZeroTime mt = true then none else (parseHttp obsolete s).map (fun t => decide (truncSecond mt ≤ t)) : Cond) =
      match dt, changedAt mt with
      | some n, some m => some (decide (m ≤ n))
      | _, _ => none := by
  have hz : isZeroTime mt = true ↔ mt = 0 ∨ mt = -62135596800000000000 := by
    unfold isZeroTime
    simp only [Bool.or_eq_true, beq_iff_eq]
    exact Or.comm
  by_cases hc : mt = 0 ∨ mt = -62135596800000000000
  · rw [if_pos (Or.inr (hz.2 hc))]
    unfold changedAt
    rw [if_pos hc]
    cases dt <;> rfl
  · have hch : changedAt mt = some (second mt) := if_neg hc
    rw [hch]
    cases h with
    | absent => rw [if_pos (Or.inl rfl)]
    | @date _ st n hst hn =>
      have hne : s ≠ [] := by cases hst; simp
      have hns : st.ns < 1000000000 := by
        cases hst with
        | mk _ _ _ _ _ hf => exact fraction_lt hf
      rw [if_neg (by rw [hz]; simp [hne, hc])]
      unfold parseHttp
      rw [(parseImf_iff s (n * 1000000000 + st.ns)).2 ⟨st, n, hst, hn, rfl⟩]
      have e : truncSecond mt = second mt * 1000000000 := rfl
      simp only [Option.map_some, e, Option.some.injEq, decide_eq_decide]
      omega
    | bad hb ho =>
      have hp : parseImf s = none := by
        cases hx : parseImf s with
        | none => rfl
        | some v =>
          obtain ⟨st, u, h1, h2, _⟩ := (parseImf_iff s v).1 hx
          exact absurd h2 (hb st u h1)
      unfold parseHttp
      rw [hp, ho]
      split <;> rfl

/-- The conditions are looked at in the order of RFC 7232. -/
theorem conditions_ruled {obsolete : Str → Option Int} {r : CondReq} {im inm : Option TagCond} {us ms : Option Int} (hm : r.method = b!"GET")
    (h1 : TagField r.ifMatch im) (h2 : DateField obsolete r.ifUnmodified us) (h3 : TagField r.ifNoneMatch inm) (h4 : DateField obsolete r.ifModified ms)
    (hr : r.range = []) (cur : Option Str) (mt : Int) :
    (Refused im us cur (changedAt mt) → checkPreconditions (parseHttp obsolete) r (cur.getD []) mt = .failed) ∧
    (¬ Refused im us cur (changedAt mt) → Unchanged inm ms cur (changedAt mt) → checkPreconditions (parseHttp obsolete) r (cur.getD []) mt = .notModified) ∧
    (¬ Refused im us cur (changedAt mt) → ¬ Unchanged inm ms cur (changedAt mt) → checkPreconditions (parseHttp obsolete) r (cur.getD []) mt = .go []) := by
  have e1 : (Refused im us cur (changedAt mt) → checkIfMatch r (cur.getD []) = some false ∨
        (checkIfMatch r (cur.getD []) = none ∧ checkIfUnmodified (parseHttp obsolete) r mt = some false)) ∧
      (¬ Refused im us cur (changedAt mt) → checkIfMatch r (cur.getD []) = some true ∨
        (checkIfMatch r (cur.getD []) = none ∧ checkIfUnmodified (parseHttp obsolete) r mt ≠ some false)) := by
    obtain ⟨a, b⟩ := ifMatch_ruled h1 cur
    cases im with
    | none =>
      rw [a rfl]
      unfold checkIfUnmodified Refused
      dsimp only
      rw [dateField_ruled h2 mt]
      cases us with
      | none => simp
      | some n =>
        cases changedAt mt with
        | none => simp
        | some m => simp
    | some c =>
      obtain ⟨b1, b2⟩ := b c rfl
      unfold Refused
      dsimp only
      by_cases hc : c.Strongly cur
      · rw [b1 hc]; simp [hc]
      · rw [b2 hc]; simp [hc]
  have e2 : ∀ ch, checkIfModified (parseHttp obsolete) r mt = ch → inm = none →
      (Unchanged inm ms cur (changedAt mt) → ch = some false) ∧ (¬ Unchanged inm ms cur (changedAt mt) → ch ≠ some false) := by
    rintro ch rfl hi
    subst hi
    have hd : checkIfModified (parseHttp obsolete) r mt =
        (if r.ifModified = [] ∨ isZeroTime mt = true then none else (parseHttp obsolete r.ifModified).map (fun t => decide (truncSecond mt ≤ t)) : Cond).map (!·) := by
      unfold checkIfModified
      rw [hm, if_neg (fun hh => hh.1 rfl)]
      by_cases hc : r.ifModified = [] ∨ isZeroTime mt = true
      · rw [if_pos hc, if_pos hc]; rfl
      · rw [if_neg hc, if_neg hc]
        cases parseHttp obsolete r.ifModified <;> rfl
    rw [hd, dateField_ruled h4 mt]
    unfold Unchanged
    cases ms with
    | none => simp
    | some n =>
      cases changedAt mt with
      | none => simp
      | some m => simp
  have e3 : ¬ Refused im us cur (changedAt mt) → checkPreconditions (parseHttp obsolete) r (cur.getD []) mt =
      match checkIfNoneMatch r (cur.getD []) with
      | some false => if r.method = mGET ∨ r.method = mHEAD then .notModified else .failed
      | none => if checkIfModified (parseHttp obsolete) r mt = some false then .notModified else .go []
      | some true => .go [] := by
    intro h
    unfold checkPreconditions
    rw [hr]
    rcases e1.2 h with h | ⟨h, h'⟩
    · rw [h]
      dsimp only
      rw [if_neg (by simp)]
      simp only [ne_eq, not_true, false_and, if_false]
      rfl
    · rw [h]
      dsimp only
      rw [if_neg h']
      simp only [ne_eq, not_true, false_and, if_false]
      rfl
  refine ⟨fun h => ?_, fun h hu => ?_, fun h hu => ?_⟩
  · unfold checkPreconditions
    rcases e1.1 h with h | ⟨h, h'⟩
    · rw [h]; rfl
    · rw [h]
      dsimp only
      rw [h']
      rfl
  · rw [e3 h]
    obtain ⟨a, b⟩ := ifNoneMatch_ruled h3 cur
    cases inm with
    | none => rw [a rfl]; dsimp only; rw [if_pos ((e2 _ rfl rfl).1 hu)]
    | some c => rw [(b c rfl).1 hu]; dsimp only; exact if_pos (Or.inl hm)
  · rw [e3 h]
    obtain ⟨a, b⟩ := ifNoneMatch_ruled h3 cur
    cases inm with
    | none => rw [a rfl]; dsimp only; rw [if_neg ((e2 _ rfl rfl).2 hu)]
    | some c => rw [(b c rfl).2 hu]

end Water
