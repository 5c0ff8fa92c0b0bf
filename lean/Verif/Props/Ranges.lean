import Verif.Lemmas.Ranges
import Verif.Props.Conditions
import Verif.Props.Resume
/-
C153: requests for ranges of static files.
-/
namespace Water
open Spec Demo
variable {ω : Type}

/-- A GET request for a range without conditions. -/
structure RangeOnly (req : Req) (r : Str) : Prop where
  method : req.method = b!"GET"
  range : req.header.get b!"Range" = r
  others : ∀ x ∈ [b!"If-Match", b!"If-None-Match", b!"If-Modified-Since", b!"If-Unmodified-Since", b!"If-Range"], req.header.get x = []

theorem rangeOnly_go {req : Req} {r : Str} (h : RangeOnly req r) (parse : Str → Option Int) (etag : Str) (mt : Int) :
    checkPreconditions parse (condReq req) etag mt = .go r := by
  have h1 : (condReq req).ifMatch = [] := h.others _ (by simp)
  have h2 : (condReq req).ifNoneMatch = [] := h.others _ (by simp)
  have h3 : (condReq req).ifModified = [] := h.others _ (by simp)
  have h4 : (condReq req).ifUnmodified = [] := h.others _ (by simp)
  have h5 : (condReq req).ifRange = [] := h.others _ (by simp)
  have h6 : (condReq req).range = r := h.range
  have h7 : checkIfRange parse (condReq req) etag mt = none := by
    unfold checkIfRange
    split
    · rfl
    · rfl
  have h8 : checkIfModified parse (condReq req) mt = none := by
    unfold checkIfModified
    split
    · rfl
    · rw [if_pos (Or.inl h3)]
  unfold checkPreconditions checkIfMatch checkIfUnmodified checkIfNoneMatch
  simp [h1, h2, h4, h6, h7, h8]

/-- the answer of an application to such a request -/
theorem app_sends {rx : Regex} {o : Oracle} {io : ContentIO ω} {fs : FS ω} {opt : StaticOptions ω} {name : Str} {e : Engine (Prog ω)}
    (ha : FileApp rx o io fs opt name e) (h304 : o.bad 304 = false) {v : CacheVisit ω} {i : FileInfo} {d : Str}
    (hv : VisitOf fs io opt name v i d) {r : Str} (hp : RangeOnly v.req r) :
    ∃ w, ∀ rw, ContentRuns io o name i.modTime d (taggedHeader opt i (startHeader opt w)) v.req rw → answerAt rx o e v = rw.log := by
  obtain ⟨hne, hl, ho, a, b, r, http, heap, opts, hc, hrun, hhand, hst, hbef, huse, hother⟩ := ha
  obtain ⟨s, hb, hh, hpar, hrw, _, hworld, hsv⟩ := C48_below_partial (rx := rx) (o := o) (req := v.req) rfl hrun hhand hst ho hv.routed
    (Or.inl hp.method) hne hl (Or.inl hv.path) (by rw [hp.method, hv.path]; exact hother) v.ctx Writer.new v.body v.world
  obtain ⟨_, hsrw, _⟩ := hsv
  rw [hbef, huse] at hh
  unfold answerAt
  rw [hsrw]
  exact static_run hc hb hh hrw hpar (by rw [hworld]; exact hv.file) h304 (hp.others _ (by simp))

theorem contentRange_text {p : Nat × Nat} {size : Nat} (h : p.1 ≤ p.2) :
    contentRange (spanOf p) size = b!"bytes " ++ itoaNat p.1 ++ b!"-" ++ itoaNat p.2 ++ b!"/" ++ itoaNat size := by
  unfold contentRange spanOf
  dsimp only
  rw [show ((p.1 : Int) + (p.2 + 1 - p.1 : Nat) - 1) = (p.2 : Int) by omega, show itoa (p.2 : Int) = itoaNat p.2 by
    unfold itoa; rw [if_neg (by omega)]; rfl]

/-- the type of a static file -/
theorem typed_type (io : ContentIO ω) (o : Oracle) (name : Str) (mt : Int) (d : Str) (opt : StaticOptions ω) (i : FileInfo) (w : ω) :
    (typedOf io o name mt d (taggedHeader opt i (startHeader opt w))).get b!"Content-Type" =
      (if io.typeOf name ≠ [] then io.typeOf name else o.detect (d.take 512)) ∧
    fieldOf (typedOf io o name mt d (taggedHeader opt i (startHeader opt w))) b!"Content-Type" =
      some (if io.typeOf name ≠ [] then io.typeOf name else o.detect (d.take 512)) := by
  have e1 : canonKey b!"Last-Modified" ≠ b!"Content-Type" := by decide +kernel
  have e2 : canonKey b!"ETag" ≠ b!"Content-Type" := by decide +kernel
  have e3 : canonKey b!"Expires" ≠ b!"Content-Type" := by decide +kernel
  have h0 : (setLastModified io mt (taggedHeader opt i (startHeader opt w))) b!"Content-Type" = none := by
    have h1 : ∀ h : Header, h b!"Content-Type" = none → (setLastModified io mt h) b!"Content-Type" = none := by
      intro h hh
      unfold setLastModified
      split
      · exact hh
      · unfold Header.put Map.set
        rw [if_neg e1.symm]; exact hh
    apply h1
    have h2 : ∀ h : Header, h b!"Content-Type" = none → (taggedHeader opt i h) b!"Content-Type" = none := by
      intro h hh
      unfold taggedHeader
      split
      · exact hh
      · unfold Header.put Map.set
        rw [if_neg e2.symm]; exact hh
    apply h2
    unfold startHeader
    cases opt.expires with
    | none => rfl
    | some e =>
      show Header.put Map.empty b!"Expires" (e w).2 b!"Content-Type" = none
      unfold Header.put Map.set
      rw [if_neg e3.symm]; rfl
  unfold typedOf typedHeader
  rw [h0]
  dsimp only
  refine ⟨?_, fieldOf_put_same (by decide +kernel)⟩
  unfold Header.get Header.put Map.set
  rw [show canonKey b!"Content-Type" = b!"Content-Type" by decide +kernel, if_pos rfl]

/-- **C153.** A GET request for ranges of a static file, written as RFC 7233 says. If there is nothing in the file of any of them the answer is
416, with the size of the file. If there is something of just one of them the answer is 206, with these bytes and their positions. If there is
something of more than one, the answer is 206, and these parts are put into it, in the order in which they were asked for, unless they are
more than the file together: then it is 200 with the file. Missing: numbers from 2^63 on, see `C153_large`; and requests for the last bytes if there
are none of them, see `C153_refuted`. -/
theorem C153_partial {rx : Regex} {o : Oracle} {io : ContentIO ω} {fs : FS ω} {opt : StaticOptions ω} {name : Str} {e : Engine (Prog ω)}
    (ha : FileApp rx o io fs opt name e) (h200 : o.bad 200 = false) (h206 : o.bad 206 = false) (h304 : o.bad 304 = false) (h416 : o.bad 416 = false)
    {v : CacheVisit ω} {i : FileInfo} {d : Str} (hv : VisitOf fs io opt name v i d) {t : Str} {l : List ByteSpec}
    (hr : RangeOnly v.req (b!"bytes=" ++ t)) (hl : SpecList l t) (hne : l ≠ []) (hp : ∀ b ∈ l, b.Plain d.length) :
    ∃ h, receivedHeader (answerAt rx o e v) = some h ∧
      match l.filterMap (·.within d.length) with
      | [] => received (answerAt rx o e v) = some 416 ∧ fieldOf h b!"Content-Range" = some (b!"bytes */" ++ itoaNat d.length) ∧
          receivedBody (answerAt rx o e v) = b!"invalid range: failed to overlap\n"
      | [p] => received (answerAt rx o e v) = some 206 ∧ receivedBody (answerAt rx o e v) = between d p ∧
          fieldOf h b!"Content-Range" = some (b!"bytes " ++ itoaNat p.1 ++ b!"-" ++ itoaNat p.2 ++ b!"/" ++ itoaNat d.length) ∧
          fieldOf h b!"Content-Type" = some (if io.typeOf name ≠ [] then io.typeOf name else o.detect (d.take 512))
      | ps => if d.length < (ps.map (fun p => (between d p).length)).sum then
            received (answerAt rx o e v) = some 200 ∧ receivedBody (answerAt rx o e v) = d
          else received (answerAt rx o e v) = some 206 ∧
            let sent := io.parts (if io.typeOf name ≠ [] then io.typeOf name else o.detect (d.take 512)) d (ps.map spanOf)
            fieldOf h b!"Content-Type" = some sent.1 ∧ receivedBody (answerAt rx o e v) = sent.2 := by
  obtain ⟨w, hs⟩ := app_sends ha h304 hv hr
  generalize hh0 : taggedHeader opt i (startHeader opt w) = h0 at hs
  have hc := rangeOnly_go hr io.parseTime ((setLastModified io i.modTime h0).get b!"Etag") i.modTime
  have hpr := parseRange_specs hl hne hp
  have hbd := list_bounds hl (size := d.length)
  have hlen : ∀ p : Nat × Nat, p.1 ≤ p.2 ∧ p.2 < d.length → (between d p).length = (spanOf p).2 := by
    intro p hp
    unfold between spanOf
    simp only [List.length_take, List.length_drop]
    omega
  generalize hps : l.filterMap (·.within d.length) = ps at hpr hbd ⊢
  match ps with
  | [] =>
    rw [if_pos rfl] at hpr
    rw [hs _ (runs_nothing h416 hpr hc)]
    refine ⟨_, rfl, rfl, ?_, rfl⟩
    unfold beyondHeader
    rw [fieldOf_put_other (by decide +kernel), fieldOf_put_other (by decide +kernel), fieldOf_put_same (by decide +kernel)]
  | [p] =>
    rw [if_neg (by simp)] at hpr
    have hb := hbd p (by simp)
    obtain ⟨enc, n, hrun⟩ := runs_part hr.method h206 hpr (by unfold spanOf; dsimp only; omega) hc
    rw [hs _ hrun]
    obtain ⟨r1, r2, r3⟩ := received_sent 206 (sentHeader enc n ((typedOf io o name i.modTime d h0).put b!"Content-Range" (contentRange (spanOf p) d.length)))
      ((d.drop (spanOf p).1).take (spanOf p).2)
    refine ⟨_, r2, r1, r3, ?_⟩
    rw [fieldOf_sent (by decide) (by decide), fieldOf_put_same (by decide +kernel), contentRange_text hb.1, fieldOf_sent (by decide) (by decide),
      fieldOf_put_other (by decide +kernel), ← hh0]
    exact ⟨rfl, (typed_type io o name i.modTime d opt i w).2⟩
  | p :: q :: ps =>
    rw [if_neg (by simp)] at hpr
    have hsum : ((p :: q :: ps).map (fun p => (between d p).length)).sum = (((p :: q :: ps).map spanOf).map (·.2)).sum := by
      rw [List.map_map]
      congr 1
      exact List.map_congr_left (fun x hx => hlen x (hbd x hx))
    dsimp only
    rw [hsum]
    by_cases hlt : d.length < (((p :: q :: ps).map spanOf).map (·.2)).sum
    · obtain ⟨enc, n, hrun⟩ := runs_all hr.method h200 hpr hlt hc
      rw [hs _ hrun]
      obtain ⟨r1, r2, r3⟩ := received_sent 200 (sentHeader enc n (typedOf io o name i.modTime d h0)) d
      refine ⟨_, r2, ?_⟩
      rw [if_pos hlt]
      exact ⟨r1, r3⟩
    · obtain ⟨enc, n, hrun⟩ := runs_parts hr.method h206 hpr hlt hc
      rw [← hh0] at hrun hs
      rw [(typed_type io o name i.modTime d opt i w).1] at hrun
      rw [hs _ hrun]
      simp only [if_neg hlt]
      rw [show (p :: q :: ps).map spanOf = spanOf p :: spanOf q :: ps.map spanOf from rfl]
      generalize io.parts (if io.typeOf name ≠ [] then io.typeOf name else o.detect (d.take 512)) d (spanOf p :: spanOf q :: ps.map spanOf) = sent at hrun ⊢
      obtain ⟨r1, r2, r3⟩ := received_sent 206 (sentHeader enc n ((typedOf io o name i.modTime d (taggedHeader opt i (startHeader opt w))).put
        b!"Content-Type" sent.1)) sent.2
      refine ⟨_, r2, ?_⟩
      refine ⟨r1, ?_, r3⟩
      rw [fieldOf_sent (by decide) (by decide), fieldOf_put_same (by decide +kernel)]

/-- **C153 (other units).** A range in any other unit is refused. RFC 7233, 3.1, says that it has to be ignored. -/
theorem C153_units {rx : Regex} {o : Oracle} {io : ContentIO ω} {fs : FS ω} {opt : StaticOptions ω} {name : Str} {e : Engine (Prog ω)}
    (ha : FileApp rx o io fs opt name e) (h304 : o.bad 304 = false) (h416 : o.bad 416 = false)
    {v : CacheVisit ω} {i : FileInfo} {d : Str} (hv : VisitOf fs io opt name v i d) {r : Str} (hr : RangeOnly v.req r) (hne : r ≠ [])
    (hu : ¬ b!"bytes=" <+: r) : received (answerAt rx o e v) = some 416 := by
  obtain ⟨w, hs⟩ := app_sends ha h304 hv hr
  have hc := rangeOnly_go hr io.parseTime ((setLastModified io i.modTime (taggedHeader opt i (startHeader opt w))).get b!"Etag") i.modTime
  rw [hs _ (runs_invalid h416 ?_ hc)]
  · rfl
  · unfold parseRange
    rw [if_neg hne, if_pos]
    unfold hasPrefix
    rw [Bool.eq_false_iff]
    intro h
    exact hu (List.isPrefixOf_iff_prefix.1 h)

/-- **C153 (large numbers).** A range that begins in the file and ends at a position from 2^63 on is refused. RFC 7233, 2.1, says that it goes to
the end of the file. -/
theorem C153_large {rx : Regex} {o : Oracle} {io : ContentIO ω} {fs : FS ω} {opt : StaticOptions ω} {name : Str} {e : Engine (Prog ω)}
    (ha : FileApp rx o io fs opt name e) (h304 : o.bad 304 = false) (h416 : o.bad 416 = false)
    {v : CacheVisit ω} {i : FileInfo} {d : Str} (hv : VisitOf fs io opt name v i d) {s t : Str} (hs : Numeral s) (ht : Numeral t)
    (h1 : value s < 2 ^ 63) (h2 : value s < d.length) (h3 : 2 ^ 63 ≤ value t) (hr : RangeOnly v.req (b!"bytes=" ++ (s ++ 45 :: t))) :
    received (answerAt rx o e v) = some 416 := by
  obtain ⟨w, hse⟩ := app_sends ha h304 hv hr
  have hc := rangeOnly_go hr io.parseTime ((setLastModified io i.modTime (taggedHeader opt i (startHeader opt w))).get b!"Etag") i.modTime
  rw [hse _ (runs_invalid h416 ?_ hc)]
  · rfl
  · have ht' : SpecText (.fromTo (value s) (value t)) (s ++ 45 :: t) := .fromTo hs ht (by omega)
    have e1 : parseRange1 (s ++ 45 :: t) d.length = none := by
      unfold parseRange1
      rw [indexByte_append (fun hm => (numeral_plain hs hm).2.2 rfl)]
      dsimp only
      rw [List.take_left, show (s ++ 45 :: t).drop (s.length + 1) = t by
        rw [← List.drop_drop, List.drop_left]; rfl, trimString_id (fun c hc => (numeral_plain hs hc).1), trimString_id (fun c hc => (numeral_plain ht hc).1),
        if_neg hs.1, parseInt_numeral hs h1]
      dsimp only
      rw [if_neg (by omega), if_neg ht.1, parseInt_signed (by decide) (by decide) (.plain ht),
        if_neg (show ¬ (value s : Int).toNat ≥ d.length by omega),
        if_neg (show ¬ (-((2 ^ (64 - 1) : Nat) : Int) ≤ (value t : Int) ∧ (value t : Int) < (2 ^ (64 - 1) : Nat)) by omega)]
    unfold parseRange
    have h1 : hasPrefix (b!"bytes=" ++ (s ++ 45 :: t)) b!"bytes=" = true := by
      unfold hasPrefix
      simp
    rw [if_neg (by simp), if_neg (by rw [h1]; simp), show (b!"bytes=" ++ (s ++ 45 :: t)).drop 6 = s ++ 45 :: t from rfl,
      splitB_of_not_mem (fun hm => ((specText_plain ht').2 _ hm).2 rfl), parseRanges, trimString_id (fun c hc => ((specText_plain ht').2 c hc).1),
      if_neg (specText_plain ht').1, e1]

namespace Demo

/-- a request for a range of the file -/
abbrev askRange (r : Str) : CacheVisit (FileInfo × Str) := askIf [(b!"Range", r)] (newInfo, b!"new")

theorem askRange_only (r : Str) : RangeOnly (askRange r).req r where
  method := rfl
  range := rfl
  others := by
    have : ∀ x ∈ [b!"If-Match", b!"If-None-Match", b!"If-Modified-Since", b!"If-Unmodified-Since", b!"If-Range"],
        ∀ r, (askRange r).req.header.get x = [] := by
      intro x hx r
      simp only [List.mem_cons, List.not_mem_nil, or_false] at hx
      rcases hx with rfl | rfl | rfl | rfl | rfl <;> rfl
    exact fun x hx => this x hx r

/-- the bytes from 1 on; an empty element; the last two bytes, and some behind the end -/
theorem someRanges : SpecList [.onward (value b!"01"), .last (value b!"2"), .fromTo (value b!"7") (value b!"9")] b!"01- , ,-2,7-9" := by
  have hn : OWS [] := by intro c hc; cases hc
  have h1 : OWS b!" " := by intro c hc; left; simpa using hc
  have num : ∀ s : Str, s ≠ [] → (∀ c ∈ s, IsDigit c) → Numeral s := fun s a b => ⟨a, b⟩
  exact .more (w := []) (v := b!" ") hn (.onward (num b!"01" (by simp) (by decide))) h1 (.comma (w := b!" ") h1
    (.more (w := []) (v := []) hn (.last (num b!"2" (by simp) (by decide))) hn (.one (w := []) (v := []) hn
      (.fromTo (num b!"7" (by simp) (by decide)) (num b!"9" (by simp) (by decide)) (by decide)) hn)))

/-- the hypotheses of `C153_partial` are met -/
theorem C153_demo : ∃ e, FileApp rx chainO stdIO oneFS (oneOpt 1) b!"f.txt" e ∧
    (received (answerAt rx chainO e (askRange b!"bytes=01- , ,-2,7-9")) = some 200 ∧
      receivedBody (answerAt rx chainO e (askRange b!"bytes=01- , ,-2,7-9")) = b!"new") ∧
    (received (answerAt rx chainO e (askRange b!"bytes=-2")) = some 206 ∧ receivedBody (answerAt rx chainO e (askRange b!"bytes=-2")) = b!"ew") := by
  obtain ⟨e, h1, _⟩ := withStd_spec (etag := 1) (p := fun _ => true) (by decide +kernel)
  refine ⟨e, h1, ?_, ?_⟩
  · obtain ⟨h, _, h2⟩ := C153_partial h1 rfl rfl rfl rfl (askIf_of 1 [(b!"Range", b!"bytes=01- , ,-2,7-9")] newInfo b!"new" rfl)
      (askRange_only _) someRanges (by simp) (by decide +kernel)
    exact h2
  · obtain ⟨h, _, h2⟩ := C153_partial h1 rfl rfl rfl rfl (askIf_of 1 [(b!"Range", b!"bytes=-2")] newInfo b!"new" rfl) (t := b!"-2")
      (askRange_only _) (.one (w := []) (v := []) (t := b!"-2") (by intro c hc; cases hc) (.last (s := b!"2") ⟨by simp, by decide⟩)
        (by intro c hc; cases hc)) (by simp) (by decide +kernel)
    exact ⟨h2.1, h2.2.1⟩

theorem C153_units_demo : ∃ e, FileApp rx chainO stdIO oneFS (oneOpt 1) b!"f.txt" e ∧
    received (answerAt rx chainO e (askRange b!"lines=1-2")) = some 416 := by
  obtain ⟨e, h1, _⟩ := withStd_spec (etag := 1) (p := fun _ => true) (by decide +kernel)
  exact ⟨e, h1, C153_units h1 rfl rfl (askIf_of 1 [(b!"Range", b!"lines=1-2")] newInfo b!"new" rfl) (askRange_only _) (by simp) (by decide)⟩

theorem C153_large_demo : ∃ e, FileApp rx chainO stdIO oneFS (oneOpt 1) b!"f.txt" e ∧
    received (answerAt rx chainO e (askRange b!"bytes=0-9223372036854775808")) = some 416 := by
  obtain ⟨e, h1, _⟩ := withStd_spec (etag := 1) (p := fun _ => true) (by decide +kernel)
  exact ⟨e, h1, C153_large h1 rfl rfl (askIf_of 1 [(b!"Range", b!"bytes=0-9223372036854775808")] newInfo b!"new" rfl) (s := b!"0")
    (t := b!"9223372036854775808") ⟨by simp, by decide⟩ ⟨by simp, by decide⟩ (by decide) (by decide) (by decide +kernel) (askRange_only _)⟩

end Demo

/-- C153 is false of the last no bytes: nothing of the file is asked for, and the answer is 206, with a range that ends before it begins. -/
theorem C153_refuted : ∃ e, FileApp rx chainO stdIO oneFS (oneOpt 1) b!"f.txt" e ∧ SpecList [.last 0] b!"-0" ∧
    ([ByteSpec.last 0].filterMap (·.within 3) = []) ∧ received (answerAt rx chainO e (Demo.askRange b!"bytes=-0")) = some 206 ∧
    ∃ h, receivedHeader (answerAt rx chainO e (Demo.askRange b!"bytes=-0")) = some h ∧ fieldOf h b!"Content-Range" = some b!"bytes 3-2/3" := by
  obtain ⟨e, h1, _⟩ := withStd_spec (etag := 1) (p := fun _ => true) (by decide +kernel)
  have hr := askRange_only b!"bytes=-0"
  obtain ⟨w, hs⟩ := app_sends h1 rfl (askIf_of 1 [(b!"Range", b!"bytes=-0")] newInfo b!"new" rfl) hr
  have hc := rangeOnly_go hr stdIO.parseTime ((setLastModified stdIO newInfo.modTime (taggedHeader (oneOpt 1) newInfo (startHeader (oneOpt 1) w))).get b!"Etag") newInfo.modTime
  obtain ⟨enc, n, hrun⟩ := runs_part (io := stdIO) (o := chainO) (name := b!"f.txt") (d := b!"new") (x := (3, 0)) hr.method rfl (by decide +kernel) (by decide) hc
  refine ⟨e, h1, .one (w := []) (v := []) (t := b!"-0") (by intro c hc; cases hc) (.last (s := b!"0") ⟨by simp, by decide⟩)
    (by intro c hc; cases hc), by decide, ?_, ?_⟩
  · rw [hs _ hrun]; rfl
  · rw [hs _ hrun]
    refine ⟨_, rfl, ?_⟩
    rw [fieldOf_sent (by decide) (by decide), fieldOf_put_same (by decide +kernel)]
    decide +kernel

end Water
