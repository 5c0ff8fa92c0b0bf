import Verif.Spec.Resume
import Verif.Props.Cache
import Verif.Props.Download
import Verif.Props.Values
/-
Lemmas about ranges in `http.ServeContent`.
-/
namespace Water
open Spec
variable {ω : Type}

/-! The Range field -/

/-- the Range field of the client -/
def rangeText (n : Nat) : Str := b!"bytes=" ++ itoaNat n ++ b!"-"

theorem digit_plain {c : UInt8} (h : IsDigit c) : asciiSpace c = false ∧ c ≠ 44 ∧ c ≠ 45 := by
  have key : ∀ c : UInt8, IsDigit c → asciiSpace c = false ∧ c ≠ 44 ∧ c ≠ 45 := by
    unfold IsDigit
    refine all_bytes ?_
    decide +kernel
  exact key c h

theorem trimString_id {s : Str} (h : ∀ c ∈ s, asciiSpace c = false) : trimString s = s := by
  have h1 : ∀ t : Str, (∀ c ∈ t, asciiSpace c = false) → t.dropWhile asciiSpace = t := by
    intro t ht
    cases t with
    | nil => rfl
    | cons c t => rw [List.dropWhile_cons_of_neg (by rw [ht c (List.mem_cons_self ..)]; simp)]
  unfold trimString
  rw [h1 s h, h1 s.reverse (fun c hc => h c (List.mem_reverse.1 hc)), List.reverse_reverse]

theorem parseRange_rest {n size : Nat} (hn : n < 2 ^ 63) :
    parseRange (rangeText n) size = if n < size then .ok [(n, size - n)] else .noOverlap := by
  have hd : ∀ c ∈ itoaNat n, asciiSpace c = false ∧ c ≠ 44 ∧ c ≠ 45 := fun c hc => digit_plain ((itoaNat_spec n).1.2 c hc)
  have h1 : rangeText n ≠ [] := by unfold rangeText; simp
  have h2 : hasPrefix (rangeText n) b!"bytes=" = true := by
    unfold rangeText hasPrefix
    simp
  have h3 : (rangeText n).drop 6 = itoaNat n ++ b!"-" := by
    unfold rangeText
    rw [List.append_assoc]
    rfl
  have h4 : splitB 44 (itoaNat n ++ b!"-") = [itoaNat n ++ b!"-"] := splitB_of_not_mem (by
    intro hm
    rcases List.mem_append.1 hm with hm | hm
    · exact (hd _ hm).2.1 rfl
    · revert hm; decide)
  have h5 : trimString (itoaNat n ++ b!"-") = itoaNat n ++ b!"-" := trimString_id (by
    intro c hm
    rcases List.mem_append.1 hm with hm | hm
    · exact (hd _ hm).1
    · rw [List.mem_singleton.1 hm]; decide)
  have h6 : indexByte (itoaNat n ++ b!"-") 45 = some (itoaNat n).length := indexByte_append (fun hm => (hd _ hm).2.2 rfl)
  have h7 : itoaNat n ≠ [] := (itoaNat_spec n).1.1
  have h8 : parseInt 64 (itoaNat n) = ((n : Int), none) := by
    have := parseInt_itoa (i := (n : Int)) (by omega) (by omega)
    rw [show itoa (n : Int) = itoaNat n by unfold itoa; rw [if_neg (by omega)]; rfl] at this
    exact this
  have h9 : parseRange1 (itoaNat n ++ b!"-") size = if n < size then some (some (n, size - n)) else some none := by
    unfold parseRange1
    rw [h6]
    dsimp only
    rw [List.take_left, show (itoaNat n ++ b!"-").drop ((itoaNat n).length + 1) = [] by simp, trimString_id (fun c hc => (hd c hc).1), if_neg h7, h8]
    dsimp only
    rw [if_neg (by omega)]
    by_cases hlt : n < size
    · rw [if_pos hlt, if_neg (by omega)]
      rfl
    · rw [if_neg hlt, if_pos (by omega)]
  unfold parseRange
  rw [if_neg h1, if_neg (by rw [h2]; simp), h3, h4]
  unfold parseRanges
  dsimp only
  rw [h5, if_neg (by simp), h9]
  by_cases hlt : n < size
  · rw [if_pos hlt, if_pos hlt]; rfl
  · rw [if_neg hlt, if_neg hlt]; rfl

/-! Runs -/

/-- `ServeContent`, begun with the header `h0`, ends with `rw`. -/
def ContentRuns (io : ContentIO ω) (o : Oracle) (name : Str) (mt : Int) (d : Str) (h0 : Header) (req : Req) (rw : Writer) : Prop :=
  ∀ (nx : St ω → Out × St ω) (k : Nat) (s : St ω) (f : Nat), s.rw = ⟨h0, []⟩ → io.read f s.world = d →
    exec o req nx k (serveContentStd io o name mt f) s = (.ret, { s with rw := rw })

theorem runs_whole {io : ContentIO ω} {o : Oracle} {name : Str} {mt : Int} {d : Str} {h0 : Header} {req : Req} (hm : req.method = b!"GET")
    (h200 : o.bad 200 = false) (hc : checkPreconditions io.parseTime (condReq req) ((setLastModified io mt h0).get b!"Etag") mt = .go []) :
    ContentRuns io o name mt d h0 req ⟨wholeHeader io o name mt d h0, sentLog 200 (wholeHeader io o name mt d h0) d⟩ := by
  intro nx k s f hs hd
  rw [exec_content hm (by rw [hs]) h200 (by rw [hs]; exact hc), hs, hd]

/-- the header of a part -/
def partHeader (io : ContentIO ω) (o : Oracle) (name : Str) (mt : Int) (d : Str) (h0 : Header) (n : Nat) : Header :=
  let h := typedOf io o name mt d h0
  sentHeader (h.get b!"Content-Encoding" != []) (d.length - n) (h.put b!"Content-Range" (contentRange (n, d.length - n) d.length))

theorem runs_range {io : ContentIO ω} {o : Oracle} {name : Str} {mt : Int} {d : Str} {h0 : Header} {req : Req} {n : Nat} (hm : req.method = b!"GET")
    (h206 : o.bad 206 = false) (hn : n < 2 ^ 63) (hlt : n < d.length)
    (hc : checkPreconditions io.parseTime (condReq req) ((setLastModified io mt h0).get b!"Etag") mt = .go (rangeText n)) :
    ContentRuns io o name mt d h0 req ⟨partHeader io o name mt d h0 n, sentLog 206 (partHeader io o name mt d h0 n) (d.drop n)⟩ := by
  intro nx k s f hs hd
  unfold serveContentStd
  rw [exec]
  simp only [doCall]
  rw [exec]
  simp only [doCall]
  have hc' : checkPreconditions io.parseTime ⟨(condReq req).method, (condReq req).ifMatch, (condReq req).ifUnmodified, (condReq req).ifNoneMatch,
      (condReq req).ifModified, (condReq req).range, (condReq req).ifRange⟩ ((setLastModified io mt s.rw.header).get b!"Etag") mt = .go (rangeText n) := by
    rw [hs]; exact hc
  rw [hc']
  dsimp only
  unfold sendFile
  rw [exec]
  simp only [doCall]
  rw [exec]
  simp only [doCall, hd, hs]
  have hr : ∀ ct enc, sendRanges (ω := ω) io (condReq req).method (rangeText n) ct enc d =
      .do (.setHeader b!"Content-Range" (contentRange (n, d.length - n) d.length)) (sendContent (condReq req).method 206 enc (d.drop n)) := by
    intro ct enc
    unfold sendRanges
    rw [parseRange_rest hn, if_pos hlt]
    dsimp only
    rw [if_neg (by simp)]
    dsimp only
    rw [List.take_of_length_le (by simp)]
  rw [hr]
  rw [Prog.do, exec]
  simp only [doCall]
  have hm' : (condReq req).method ≠ b!"HEAD" := by
    show req.method ≠ _
    rw [hm]; decide
  rw [exec_sendContent hm' rfl h206, List.length_drop]
  rfl

/-- the header of a range behind the end -/
def beyondHeader (io : ContentIO ω) (o : Oracle) (name : Str) (mt : Int) (d : Str) (h0 : Header) : Header :=
  (((typedOf io o name mt d h0).put b!"Content-Range" (b!"bytes */" ++ itoaNat d.length)).put b!"Content-Type" b!"text/plain; charset=utf-8").put
    b!"X-Content-Type-Options" b!"nosniff"

theorem runs_beyond {io : ContentIO ω} {o : Oracle} {name : Str} {mt : Int} {d : Str} {h0 : Header} {req : Req} {n : Nat}
    (h416 : o.bad 416 = false) (hn : n < 2 ^ 63) (hlt : ¬ n < d.length)
    (hc : checkPreconditions io.parseTime (condReq req) ((setLastModified io mt h0).get b!"Etag") mt = .go (rangeText n)) :
    ContentRuns io o name mt d h0 req ⟨beyondHeader io o name mt d h0,
      [.status true 416 (beyondHeader io o name mt d h0), .body (b!"invalid range: failed to overlap" ++ [10])]⟩ := by
  intro nx k s f hs hd
  unfold serveContentStd
  rw [exec]
  simp only [doCall]
  rw [exec]
  simp only [doCall]
  have hc' : checkPreconditions io.parseTime ⟨(condReq req).method, (condReq req).ifMatch, (condReq req).ifUnmodified, (condReq req).ifNoneMatch,
      (condReq req).ifModified, (condReq req).range, (condReq req).ifRange⟩ ((setLastModified io mt s.rw.header).get b!"Etag") mt = .go (rangeText n) := by
    rw [hs]; exact hc
  rw [hc']
  dsimp only
  unfold sendFile
  rw [exec]
  simp only [doCall]
  rw [exec]
  simp only [doCall, hd, hs]
  have hr : ∀ ct enc, sendRanges (ω := ω) io (condReq req).method (rangeText n) ct enc d =
      .do (.setHeader b!"Content-Range" (b!"bytes */" ++ itoaNat d.length)) (.httpError 416 b!"invalid range: failed to overlap") := by
    intro ct enc
    unfold sendRanges
    rw [parseRange_rest hn, if_neg hlt]
  rw [hr]
  unfold Prog.httpError
  simp [Prog.do, exec, doCall, Writer.writeHeader, Writer.write, h416]
  rfl

end Water
