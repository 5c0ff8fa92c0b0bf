import Verif.Spec.Ranges
import Verif.Lemmas.Conditions
import Verif.Lemmas.Resume
/-
Lemmas about ranges.
-/
namespace Water
open Spec
variable {ω : Type}

theorem numeral_plain {s : Str} (h : Numeral s) {c : UInt8} (hc : c ∈ s) : asciiSpace c = false ∧ c ≠ 44 ∧ c ≠ 45 := digit_plain (h.2 c hc)

theorem parseInt_numeral {s : Str} (h : Numeral s) (hv : value s < 2 ^ 63) : parseInt 64 s = ((value s : Int), none) := by
  rw [parseInt_signed (by decide) (by decide) (.plain h), if_pos ⟨by omega, by exact_mod_cast hv⟩]

theorem specText_plain {b : ByteSpec} {t : Str} (h : SpecText b t) : t ≠ [] ∧ ∀ c ∈ t, asciiSpace c = false ∧ c ≠ 44 := by
  have hn : ∀ {s : Str}, Numeral s → ∀ c ∈ s, asciiSpace c = false ∧ c ≠ 44 := fun h c hc => ⟨(numeral_plain h hc).1, (numeral_plain h hc).2.1⟩
  have h45 : asciiSpace 45 = false ∧ (45 : UInt8) ≠ 44 := by decide
  cases h with
  | fromTo h1 h2 _ =>
    refine ⟨by simp, fun c hc => ?_⟩
    rcases List.mem_append.1 hc with hc | hc
    · exact hn h1 c hc
    · rcases List.mem_cons.1 hc with rfl | hc
      · exact h45
      · exact hn h2 c hc
  | onward h1 =>
    refine ⟨by simp, fun c hc => ?_⟩
    rcases List.mem_append.1 hc with hc | hc
    · exact hn h1 c hc
    · rw [List.mem_singleton.1 hc]; exact h45
  | last h1 =>
    refine ⟨by simp, fun c hc => ?_⟩
    rcases List.mem_cons.1 hc with rfl | hc
    · exact h45
    · exact hn h1 c hc

theorem parseRange1_spec {b : ByteSpec} {t : Str} (h : SpecText b t) {size : Nat} (hp : b.Plain size) :
    parseRange1 t size = some ((b.within size).map spanOf) := by
  unfold parseRange1
  cases h with
  | @fromTo s t h1 h2 hle =>
    obtain ⟨p1, p2⟩ := hp
    rw [indexByte_append (fun hm => (numeral_plain h1 hm).2.2 rfl)]
    dsimp only
    rw [List.take_left, show (s ++ 45 :: t).drop (s.length + 1) = t by
      rw [← List.drop_drop, List.drop_left]; rfl, trimString_id (fun c hc => (numeral_plain h1 hc).1), trimString_id (fun c hc => (numeral_plain h2 hc).1),
      if_neg h1.1, parseInt_numeral h1 p1]
    dsimp only
    rw [if_neg (by omega), parseInt_numeral h2 p2, if_neg h2.1]
    unfold ByteSpec.within
    dsimp only
    by_cases hs : value s < size
    · rw [if_pos hs, if_neg (show ¬ (value s : Int).toNat ≥ size by omega), if_neg (show ¬ (value t : Int) < (value s : Int) by omega)]
      simp only [Option.map_some, spanOf, Option.some.injEq, Prod.mk.injEq, Int.toNat_natCast, true_and]
      omega
    · rw [if_neg hs, if_pos (show (value s : Int).toNat ≥ size by omega)]
      rfl
  | @onward s h1 =>
    rw [indexByte_append (fun hm => (numeral_plain h1 hm).2.2 rfl)]
    dsimp only
    rw [List.take_left, show (s ++ ([45] : Str)).drop (s.length + 1) = ([] : Str) by simp, trimString_id (s := s) (fun c hc => (numeral_plain h1 hc).1),
      if_neg h1.1, parseInt_numeral h1 hp]
    dsimp only
    rw [if_neg (by omega)]
    unfold ByteSpec.within
    dsimp only
    by_cases hs : value s < size
    · rw [if_pos hs, if_neg (by omega), if_pos (show trimString [] = [] from rfl)]
      simp only [Option.map_some, spanOf, Option.some.injEq, Prod.mk.injEq, Int.toNat_natCast, true_and]
      omega
    · rw [if_neg hs, if_pos (by omega)]
      rfl
  | @last s h1 =>
    obtain ⟨p1, p2, p3⟩ := hp
    rw [show indexByte (45 :: s) 45 = some 0 from rfl]
    dsimp only
    rw [List.take_zero, show (45 :: s).drop (0 + 1) = s from rfl, if_pos (by rfl), trimString_id (fun c hc => (numeral_plain h1 hc).1), parseInt_numeral h1 p1]
    dsimp only
    rw [if_neg (by omega)]
    unfold ByteSpec.within
    dsimp only
    rw [if_neg (by omega)]
    simp only [Option.map_some, spanOf, Option.some.injEq, Prod.mk.injEq, Int.toNat_natCast]
    omega

theorem ows_plain {w : Str} (h : OWS w) : ∀ c ∈ w, asciiSpace c = true ∧ c ≠ 44 := by
  intro c hc
  rcases h c hc with rfl | rfl <;> decide

theorem trim_ows {w : Str} (h : OWS w) : trimString w = [] := by
  have := trimString_ows (s := []) h
  rw [List.append_nil] at this
  exact this

theorem trim_spec {w t v : Str} (hw : OWS w) (ht : t ≠ [] ∧ ∀ c ∈ t, asciiSpace c = false ∧ c ≠ 44) (hv : OWS v) : trimString (w ++ t ++ v) = t := by
  rw [List.append_assoc, trimString_ows hw]
  obtain ⟨h1, h2⟩ := ht
  unfold trimString
  have e1 : (t ++ v).dropWhile asciiSpace = t ++ v := by
    cases t with
    | nil => exact absurd rfl h1
    | cons c t => rw [List.cons_append, List.dropWhile_cons_of_neg (by simp [(h2 c (by simp)).1])]
  rw [e1, List.reverse_append]
  have e2 : ∀ (a b : Str), (∀ c ∈ a, asciiSpace c = true) → (a ++ b).dropWhile asciiSpace = b.dropWhile asciiSpace := by
    intro a b ha
    induction a with
    | nil => rfl
    | cons c a ih =>
      rw [List.cons_append, List.dropWhile_cons_of_pos (ha c (by simp)), ih (fun d hd => ha d (by simp [hd]))]
  rw [e2 _ _ (fun c hc => (ows_plain hv c (List.mem_reverse.1 hc)).1)]
  have e3 : t.reverse.dropWhile asciiSpace = t.reverse := by
    cases hr : t.reverse with
    | nil => rfl
    | cons c r =>
      have : c ∈ t := by rw [← List.mem_reverse, hr]; simp
      rw [List.dropWhile_cons_of_neg (by simp [(h2 c this).1])]
  rw [e3, List.reverse_reverse]

theorem parseRanges_specs {l : List ByteSpec} {t : Str} (h : SpecList l t) {size : Nat} (hp : ∀ b ∈ l, b.Plain size) :
    parseRanges size (splitB 44 t) = some ((l.filterMap (·.within size)).map spanOf, l.any (fun b => (b.within size).isNone)) := by
  have step : ∀ {w t v : Str} {b : ByteSpec} (ras : List Str) (rs : List (Nat × Nat)) (x : Bool), OWS w → SpecText b t → OWS v → b.Plain size →
      parseRanges size ras = some (rs, x) →
      parseRanges size ((w ++ t ++ v) :: ras) = some (((b.within size).toList.map spanOf) ++ rs, (b.within size).isNone || x) := by
    intro w t v b ras rs x hw ht hv hb hr
    rw [parseRanges, trim_spec hw (specText_plain ht) hv, if_neg (specText_plain ht).1, parseRange1_spec ht hb, hr]
    cases b.within size <;> rfl
  have comma : ∀ {w t v : Str} {b : ByteSpec}, OWS w → SpecText b t → OWS v → (44 : UInt8) ∉ w ++ t ++ v := by
    intro w t v b hw ht hv hm
    rcases List.mem_append.1 hm with hm | hm
    · rcases List.mem_append.1 hm with hm | hm
      · exact (ows_plain hw _ hm).2 rfl
      · exact ((specText_plain ht).2 _ hm).2 rfl
    · exact (ows_plain hv _ hm).2 rfl
  induction h with
  | nil h =>
    rw [splitB_of_not_mem (fun hm => (ows_plain h _ hm).2 rfl)]
    unfold parseRanges
    dsimp only
    rw [if_pos (trim_ows h)]
    rfl
  | comma h _ ih =>
    rw [splitB_append (fun hm => (ows_plain h _ hm).2 rfl)]
    unfold parseRanges
    dsimp only
    rw [if_pos (trim_ows h)]
    exact ih hp
  | one hw ht hv =>
    rw [splitB_of_not_mem (comma hw ht hv), step [] [] false hw ht hv (hp _ (by simp)) rfl]
    rename_i b
    cases hb : b.within size <;> simp [hb]
  | more hw ht hv _ ih =>
    rw [splitB_append (comma hw ht hv), step _ _ _ hw ht hv (hp _ (by simp)) (ih (fun b hb => hp b (by simp [hb])))]
    rename_i b l _
    cases hb : b.within size <;> simp [hb]

/-- what `parseRange` makes of a list of ranges -/
theorem parseRange_specs {l : List ByteSpec} {t : Str} (h : SpecList l t) (hne : l ≠ []) {size : Nat} (hp : ∀ b ∈ l, b.Plain size) :
    parseRange (b!"bytes=" ++ t) size = if l.filterMap (·.within size) = [] then .noOverlap else .ok ((l.filterMap (·.within size)).map spanOf) := by
  unfold parseRange
  have h1 : hasPrefix (b!"bytes=" ++ t) b!"bytes=" = true := by
    unfold hasPrefix
    simp
  rw [if_neg (by simp), if_neg (by rw [h1]; simp), show (b!"bytes=" ++ t).drop 6 = t from rfl, parseRanges_specs h hp]
  by_cases hs : l.filterMap (·.within size) = []
  · rw [if_pos hs, hs]
    have : l.any (fun b => (b.within size).isNone) = true := by
      cases l with
      | nil => exact absurd rfl hne
      | cons b l =>
        have hb : b.within size = none := by
          cases hb : b.within size with
          | none => rfl
          | some x => rw [List.filterMap_cons_some hb] at hs; cases hs
        simp [hb]
    rw [this]
    rfl
  · rw [if_neg hs]
    cases hl : (l.filterMap (·.within size)).map spanOf with
    | nil => exact absurd (List.map_eq_nil_iff.1 hl) hs
    | cons x r => cases l.any (fun b => (b.within size).isNone) <;> rfl

/-! ### Runs -/

/-- what is left of `ServeContent` if no condition stands in the way -/
theorem runs_go {io : ContentIO ω} {o : Oracle} {name : Str} {mt : Int} {d : Str} {h0 : Header} {req : Req} {r : Str} {rw : Writer}
    (hc : checkPreconditions io.parseTime (condReq req) ((setLastModified io mt h0).get b!"Etag") mt = .go r)
    (hx : ∀ (nx : St ω → Out × St ω) (k : Nat) (s : St ω), s.rw = ⟨typedOf io o name mt d h0, []⟩ →
      exec o req nx k (sendRanges io req.method r ((typedOf io o name mt d h0).get b!"Content-Type")
        ((typedOf io o name mt d h0).get b!"Content-Encoding" != []) d) s = (.ret, { s with rw := rw })) :
    ContentRuns io o name mt d h0 req rw := by
  intro nx k s f hs hd
  unfold serveContentStd
  rw [exec]
  simp only [doCall]
  rw [exec]
  simp only [doCall]
  have hc' : checkPreconditions io.parseTime ⟨(condReq req).method, (condReq req).ifMatch, (condReq req).ifUnmodified, (condReq req).ifNoneMatch,
      (condReq req).ifModified, (condReq req).range, (condReq req).ifRange⟩ ((setLastModified io mt s.rw.header).get b!"Etag") mt = .go r := by
    rw [hs]; exact hc
  rw [hc']
  dsimp only
  unfold sendFile
  rw [exec]
  simp only [doCall]
  rw [exec]
  simp only [doCall, hd, hs]
  exact hx nx k _ rfl

theorem fieldOf_sent {encoded : Bool} {n : Nat} {h : Header} {k : Str} (h1 : k ≠ b!"Accept-Ranges") (h2 : k ≠ b!"Content-Length") :
    fieldOf (sentHeader encoded n h) k = fieldOf h k := by
  unfold sentHeader
  have e1 : canonKey b!"Accept-Ranges" = b!"Accept-Ranges" := by decide +kernel
  have e2 : canonKey b!"Content-Length" = b!"Content-Length" := by decide +kernel
  cases encoded
  · dsimp only
    rw [if_neg (by simp), fieldOf_put_other (by rw [e2]; exact h2.symm), fieldOf_put_other (by rw [e1]; exact h1.symm)]
  · dsimp only
    rw [if_pos rfl, fieldOf_put_other (by rw [e1]; exact h1.symm)]

theorem within_bounds {b : ByteSpec} {t : Str} (h : SpecText b t) {size : Nat} {p : Nat × Nat} (hp : b.within size = some p) :
    p.1 ≤ p.2 ∧ p.2 < size := by
  cases h with
  | fromTo _ _ hle =>
    unfold ByteSpec.within at hp
    dsimp only at hp
    split at hp
    · cases hp; dsimp only; omega
    · cases hp
  | onward _ =>
    unfold ByteSpec.within at hp
    dsimp only at hp
    split at hp
    · cases hp; dsimp only; omega
    · cases hp
  | last _ =>
    unfold ByteSpec.within at hp
    dsimp only at hp
    split at hp
    · cases hp
    · cases hp; dsimp only; omega

theorem list_bounds {l : List ByteSpec} {t : Str} (h : SpecList l t) {size : Nat} : ∀ p ∈ l.filterMap (·.within size), p.1 ≤ p.2 ∧ p.2 < size := by
  have key : ∀ b ∈ l, ∃ t, SpecText b t := by
    induction h with
    | nil _ => intro b hb; cases hb
    | comma _ _ ih => exact ih
    | one _ ht _ => intro b hb; rw [List.mem_singleton.1 hb]; exact ⟨_, ht⟩
    | more _ ht _ _ ih =>
      intro b hb
      rcases List.mem_cons.1 hb with rfl | hb
      · exact ⟨_, ht⟩
      · exact ih b hb
  intro p hp
  obtain ⟨b, hb, he⟩ := List.mem_filterMap.1 hp
  obtain ⟨t, ht⟩ := key b hb
  exact within_bounds ht he

/-- Nothing of the file is asked for. -/
theorem runs_nothing {io : ContentIO ω} {o : Oracle} {name : Str} {mt : Int} {d : Str} {h0 : Header} {req : Req} {r : Str}
    (h416 : o.bad 416 = false) (hr : parseRange r d.length = .noOverlap)
    (hc : checkPreconditions io.parseTime (condReq req) ((setLastModified io mt h0).get b!"Etag") mt = .go r) :
    ContentRuns io o name mt d h0 req ⟨beyondHeader io o name mt d h0,
      [.status true 416 (beyondHeader io o name mt d h0), .body (b!"invalid range: failed to overlap" ++ [10])]⟩ := by
  refine runs_go hc (fun nx k s hs => ?_)
  unfold sendRanges
  rw [hr]
  unfold Prog.httpError
  simp [Prog.do, exec, doCall, Writer.writeHeader, Writer.write, h416, hs]
  rfl

/-- the header of an answer to a range that is not understood -/
def refusedHeader (io : ContentIO ω) (o : Oracle) (name : Str) (mt : Int) (d : Str) (h0 : Header) : Header :=
  ((typedOf io o name mt d h0).put b!"Content-Type" b!"text/plain; charset=utf-8").put b!"X-Content-Type-Options" b!"nosniff"

/-- The range is not understood. -/
theorem runs_invalid {io : ContentIO ω} {o : Oracle} {name : Str} {mt : Int} {d : Str} {h0 : Header} {req : Req} {r : Str}
    (h416 : o.bad 416 = false) (hr : parseRange r d.length = .invalid)
    (hc : checkPreconditions io.parseTime (condReq req) ((setLastModified io mt h0).get b!"Etag") mt = .go r) :
    ContentRuns io o name mt d h0 req ⟨refusedHeader io o name mt d h0,
      [.status true 416 (refusedHeader io o name mt d h0), .body (b!"invalid range" ++ [10])]⟩ := by
  refine runs_go hc (fun nx k s hs => ?_)
  unfold sendRanges
  rw [hr]
  unfold Prog.httpError
  simp [Prog.do, exec, doCall, Writer.writeHeader, Writer.write, h416, hs]
  rfl

/-- One range is sent. -/
theorem runs_part {io : ContentIO ω} {o : Oracle} {name : Str} {mt : Int} {d : Str} {h0 : Header} {req : Req} {r : Str} {x : Nat × Nat}
    (hm : req.method = b!"GET") (h206 : o.bad 206 = false) (hr : parseRange r d.length = .ok [x]) (hx : x.2 ≤ d.length)
    (hc : checkPreconditions io.parseTime (condReq req) ((setLastModified io mt h0).get b!"Etag") mt = .go r) :
    ∃ enc n, ContentRuns io o name mt d h0 req
      ⟨sentHeader enc n ((typedOf io o name mt d h0).put b!"Content-Range" (contentRange x d.length)),
       sentLog 206 (sentHeader enc n ((typedOf io o name mt d h0).put b!"Content-Range" (contentRange x d.length))) ((d.drop x.1).take x.2)⟩ := by
  refine ⟨(typedOf io o name mt d h0).get b!"Content-Encoding" != [], ((d.drop x.1).take x.2).length, runs_go hc (fun nx k s hs => ?_)⟩
  unfold sendRanges
  rw [hr]
  dsimp only
  rw [if_neg (by simp; omega)]
  dsimp only
  rw [Prog.do, exec]
  simp only [doCall]
  rw [exec_sendContent (by rw [hm]; decide) (by rw [hs]) h206, hs]

/-- All of the file is sent. -/
theorem runs_all {io : ContentIO ω} {o : Oracle} {name : Str} {mt : Int} {d : Str} {h0 : Header} {req : Req} {r : Str} {rs : List (Nat × Nat)}
    (hm : req.method = b!"GET") (h200 : o.bad 200 = false) (hr : parseRange r d.length = .ok rs) (hx : d.length < (rs.map (·.2)).sum)
    (hc : checkPreconditions io.parseTime (condReq req) ((setLastModified io mt h0).get b!"Etag") mt = .go r) :
    ∃ enc n, ContentRuns io o name mt d h0 req
      ⟨sentHeader enc n (typedOf io o name mt d h0), sentLog 200 (sentHeader enc n (typedOf io o name mt d h0)) d⟩ := by
  refine ⟨(typedOf io o name mt d h0).get b!"Content-Encoding" != [], d.length, runs_go hc (fun nx k s hs => ?_)⟩
  unfold sendRanges
  rw [hr]
  dsimp only
  rw [if_pos hx]
  dsimp only
  rw [exec_sendContent (by rw [hm]; decide) (by rw [hs]) h200, hs]

/-- Several ranges are sent. -/
theorem runs_parts {io : ContentIO ω} {o : Oracle} {name : Str} {mt : Int} {d : Str} {h0 : Header} {req : Req} {r : Str} {x y : Nat × Nat}
    {rs : List (Nat × Nat)} (hm : req.method = b!"GET") (h206 : o.bad 206 = false) (hr : parseRange r d.length = .ok (x :: y :: rs))
    (hx : ¬ d.length < ((x :: y :: rs).map (·.2)).sum)
    (hc : checkPreconditions io.parseTime (condReq req) ((setLastModified io mt h0).get b!"Etag") mt = .go r) :
    ∃ enc n, ContentRuns io o name mt d h0 req
      ⟨sentHeader enc n ((typedOf io o name mt d h0).put b!"Content-Type" (io.parts ((typedOf io o name mt d h0).get b!"Content-Type") d (x :: y :: rs)).1),
       sentLog 206 (sentHeader enc n ((typedOf io o name mt d h0).put b!"Content-Type" (io.parts ((typedOf io o name mt d h0).get b!"Content-Type") d (x :: y :: rs)).1))
        (io.parts ((typedOf io o name mt d h0).get b!"Content-Type") d (x :: y :: rs)).2⟩ := by
  refine ⟨(typedOf io o name mt d h0).get b!"Content-Encoding" != [], (io.parts ((typedOf io o name mt d h0).get b!"Content-Type") d (x :: y :: rs)).2.length, runs_go hc (fun nx k s hs => ?_)⟩
  unfold sendRanges
  rw [hr]
  dsimp only
  rw [if_neg hx]
  dsimp only
  rw [Prog.do, exec]
  simp only [doCall]
  rw [exec_sendContent (by rw [hm]; decide) (by rw [hs]) h206, hs]

end Water
