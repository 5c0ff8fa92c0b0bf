import Verif.Lemmas.Content
/-
C125: a cache that asks presents the current file.
-/
namespace Water
open Spec
variable {ω : Type}

/-! The handler -/

/-- the header when the conditions are looked at -/
def taggedHeader (opt : StaticOptions ω) (i : FileInfo) (h : Header) : Header :=
  if opt.etag = 0 then h else h.put b!"ETag" (staticTag opt.etag i)

theorem exec_static_file {o : Oracle} {req : Req} {nx : St ω → Out × St ω} {k : Nat} {s : St ω} {http : Http ω}
    {opt : StaticOptions ω} {name : Str} {f : Nat} {i : FileInfo} (hw : s.ctx.written = false) (h304 : o.bad 304 = false) :
    exec o req nx k (staticFile http opt name f i) s =
      if opt.etag ≠ 0 ∧ req.header.get b!"If-None-Match" = staticTag opt.etag i then
        (.ret, answered { s with rw := { s.rw with header := taggedHeader opt i s.rw.header } } 304)
      else exec o req nx k (http.serveContent name i.modTime f) { s with rw := { s.rw with header := taggedHeader opt i s.rw.header } } := by
  unfold staticFile taggedHeader
  by_cases he : opt.etag = 0
  · simp only [he, ne_eq, not_true, if_false, false_and, if_true]
  · simp only [he, ne_eq, not_false_eq_true, if_true, true_and, if_false]
    rw [Prog.do, exec]
    simp only [doCall]
    rw [exec]
    simp only [doCall, Res.str.injEq]
    by_cases hs : req.header.get b!"If-None-Match" = staticTag opt.etag i
    · rw [if_pos hs, if_pos (show req.header.get kIfNoneMatch = _ from hs)]
      rw [Prog.do, exec]
      simp only [doCall]
      rw [writeHeader_answered (by exact hw) h304]
      rfl
    · rw [if_neg hs, if_neg (show ¬ req.header.get kIfNoneMatch = _ from hs)]
      rfl

/-- The answers that a file can get: 304 by its tag, 304 by `ServeContent`, the file. -/
inductive FileAnswer (io : ContentIO ω) (o : Oracle) (opt : StaticOptions ω) (name : Str) (i : FileInfo) (d : Str) (h0 : Header) (req : Req) :
    List WEvent → Prop where
  | tag : opt.etag ≠ 0 → req.header.get b!"If-None-Match" = staticTag opt.etag i →
      FileAnswer io o opt name i d h0 req [.status true 304 (taggedHeader opt i h0)]
  | old : ¬ (opt.etag ≠ 0 ∧ req.header.get b!"If-None-Match" = staticTag opt.etag i) →
      checkPreconditions io.parseTime (condReq req) ((setLastModified io i.modTime (taggedHeader opt i h0)).get b!"Etag") i.modTime = .notModified →
      FileAnswer io o opt name i d h0 req [.status true 304 (notModifiedHeader (setLastModified io i.modTime (taggedHeader opt i h0)))]
  | file : ¬ (opt.etag ≠ 0 ∧ req.header.get b!"If-None-Match" = staticTag opt.etag i) →
      checkPreconditions io.parseTime (condReq req) ((setLastModified io i.modTime (taggedHeader opt i h0)).get b!"Etag") i.modTime = .go [] →
      FileAnswer io o opt name i d h0 req (sentLog 200 (wholeHeader io o name i.modTime d (taggedHeader opt i h0)) d)

theorem runAll_once {o : Oracle} {req : Req} {s t : St ω} {h : Prog ω} (hi : s.ctx.index = 0) (hh : s.ctx.handlers = [h])
    (he : exec o req (run o req 1) 0 h (s.log (.start 0)) = (.ret, t)) (ht : t.ctx.handlers = [h] ∧ t.ctx.index = 0) :
    (runAll o req s).2.rw = t.rw := by
  unfold runAll
  rw [hh]
  show (run o req 2 s).2.rw = _
  rw [run, hi, hh]
  simp only [List.getElem?_cons_zero, he]
  split
  · rfl
  · rw [run]
    have : (St.bump (t.log (.stop 0 t.ctx.written))).ctx.handlers[(St.bump (t.log (.stop 0 t.ctx.written))).ctx.index]? = none := by
      show t.ctx.handlers[t.ctx.index + 1]? = none
      rw [ht.1, ht.2]
      rfl
    rw [this]
    rfl

theorem runAll_one {o : Oracle} {req : Req} {s t : St ω} {h : Prog ω} (hi : s.ctx.index = 0) (hh : s.ctx.handlers = [h])
    (he : ∀ nx, exec o req nx 0 h (s.log (.start 0)) = (.ret, t)) (ht : t.ctx.handlers = [h] ∧ t.ctx.index = 0) :
    (runAll o req s).2.rw = t.rw := runAll_once hi hh (he _) ht

/-- the header with which the file handler begins -/
def startHeader (opt : StaticOptions ω) (w : ω) : Header :=
  match opt.expires with
  | none => Map.empty
  | some e => Header.put Map.empty b!"Expires" (e w).2

theorem static_answer {o : Oracle} {req : Req} {s : St ω} {fs : FS ω} {http : Http ω} {io : ContentIO ω}
    {opt : StaticOptions ω} {name : Str} {i : FileInfo} {d : Str} (hc : http.serveContent = serveContentStd io o)
    (hb : Blank s) (hh : s.ctx.handlers = [staticHandler fs http opt]) (hrw : s.rw = Writer.new)
    (hp : s.ctx.params b!"*0" = some name) (hf : HasFile fs io.read opt s.world name i d) (hm : req.method = b!"GET")
    (h200 : o.bad 200 = false) (h304 : o.bad 304 = false)
    (hv : ∀ h0, checkPreconditions io.parseTime (condReq req) ((setLastModified io i.modTime (taggedHeader opt i h0)).get b!"Etag") i.modTime = .go [] ∨
      checkPreconditions io.parseTime (condReq req) ((setLastModified io i.modTime (taggedHeader opt i h0)).get b!"Etag") i.modTime = .notModified) :
    ∃ w, FileAnswer io o opt name i d (startHeader opt w) req (runAll o req s).2.rw.log := by
  obtain ⟨w1, f, w2, hopen, hstat, hdir, hd⟩ := hf
  refine ⟨w2, ?_⟩
  have key : ∀ nx, exec o req nx 0 (staticHandler fs http opt) (s.log (.start 0)) = closing fs f (exec o req nx 0 (staticFile http opt name f i)
      (expiring opt { s.log (.start 0) with world := w2 })) := by
    intro nx
    rw [exec_static_found (name := name) (w1 := w1) (w2 := w2) (f := f) (i := i) (by exact hp) (by exact hopen) hstat, hdir]
    rfl
  generalize ht : expiring opt { s.log (.start 0) with world := w2 } = t at key
  have t1 : t.rw = ⟨startHeader opt w2, []⟩ := by
    rw [← ht]
    unfold expiring startHeader
    cases opt.expires with
    | none => exact hrw
    | some e =>
      show Writer.mk (s.rw.header.put kExpires (e w2).2) s.rw.log = _
      rw [hrw]; rfl
  have t2 : t.ctx = s.ctx := by
    rw [← ht]
    unfold expiring
    cases opt.expires <;> rfl
  have t3 : io.read f t.world = d := by
    rw [← hd, ← ht]
    unfold expiring
    cases opt.expires <;> rfl
  have hw : t.ctx.written = false := by rw [t2]; exact hb.written
  simp only [exec_static_file hw h304] at key
  rw [t1] at key
  dsimp only at key
  have fin : ∀ {u : St ω}, (∀ nx, exec o req nx 0 (staticHandler fs http opt) (s.log (.start 0)) = closing fs f (.ret, u)) →
      u.ctx.handlers = t.ctx.handlers → u.ctx.index = t.ctx.index → (runAll o req s).2.rw = u.rw := by
    intro u hu h1 h2
    refine runAll_one (t := { u with world := fs.close f u.world }) hb.index hh (fun nx => by rw [hu]; rfl) ⟨?_, ?_⟩
    · show u.ctx.handlers = _
      rw [h1, t2, hh]
    · show u.ctx.index = _
      rw [h2, t2, hb.index]
  by_cases hs : opt.etag ≠ 0 ∧ req.header.get b!"If-None-Match" = staticTag opt.etag i
  · simp only [if_pos hs] at key
    rw [fin key rfl rfl]
    exact .tag hs.1 hs.2
  · simp only [if_neg hs, hc] at key
    rcases hv (startHeader opt w2) with hv | hv
    · simp only [exec_content (s := { t with rw := ⟨taggedHeader opt i (startHeader opt w2), []⟩ }) hm rfl h200 hv] at key
      rw [fin key rfl rfl]
      rw [t3]
      exact .file hs hv
    · simp only [exec_notModified (s := { t with rw := ⟨taggedHeader opt i (startHeader opt w2), []⟩ }) rfl h304 hv] at key
      rw [fin key rfl rfl]
      exact .old hs hv

/-! Tags and conditions -/

/-- a byte of a tag -/
def TagText (c : UInt8) : Prop := c ∈ b!"0123456789abcdef-"

theorem hexDigit_tag {d : Nat} (h : d < 16) : TagText (hexDigit d) := by
  have : ∀ d : Fin 16, hexDigit d.1 ∈ b!"0123456789abcdef-" := by decide +kernel
  exact this ⟨d, h⟩

theorem hexDigitsF_tag (f n : Nat) : ∀ c ∈ hexDigitsF f n, TagText c := by
  induction f generalizing n with
  | zero => intro c hc; cases hc
  | succ f ih =>
    intro c hc
    unfold hexDigitsF at hc
    split at hc
    · rename_i hn
      rw [List.mem_singleton] at hc
      subst hc
      exact hexDigit_tag hn
    · rcases List.mem_append.1 hc with hc | hc
      · exact ih _ c hc
      · rw [List.mem_singleton] at hc
        subst hc
        exact hexDigit_tag (Nat.mod_lt _ (by omega))

theorem hexInt_tag (n : Int) : ∀ c ∈ hexInt n, TagText c := by
  intro c hc
  unfold hexInt at hc
  split at hc
  · rcases List.mem_cons.1 hc with hc | hc
    · subst hc; unfold TagText; decide
    · exact hexDigitsF_tag _ _ c hc
  · exact hexDigitsF_tag _ _ c hc

theorem hexStr_tag (s : Str) : ∀ c ∈ hexStr s, TagText c := by
  intro c hc
  unfold hexStr at hc
  obtain ⟨x, _, hx⟩ := List.mem_flatMap.1 hc
  have hlt : x.toNat < 256 := x.toNat_lt
  simp only [List.mem_cons, List.not_mem_nil, or_false] at hx
  rcases hx with rfl | rfl
  · exact hexDigit_tag (by omega)
  · exact hexDigit_tag (by omega)

theorem staticTag_text (etag : ETagType) (i : FileInfo) : ∀ c ∈ staticTag etag i, TagText c := by
  have h45 : TagText 45 := by unfold TagText; decide
  intro c hc
  unfold staticTag generateETag generateETag2 at hc
  split at hc
  · simp only [List.mem_append, List.mem_singleton] at hc
    rcases hc with (hc | rfl) | hc
    · exact hexInt_tag _ c hc
    · exact h45
    · exact hexInt_tag _ c hc
  · simp only [List.mem_append, List.mem_singleton] at hc
    rcases hc with (((hc | rfl) | hc) | rfl) | hc
    · exact hexInt_tag _ c hc
    · exact h45
    · exact hexInt_tag _ c hc
    · exact h45
    · exact hexStr_tag _ c hc

theorem staticTag_ne_nil (etag : ETagType) (i : FileInfo) : staticTag etag i ≠ [] := by
  unfold staticTag generateETag generateETag2
  split <;> simp

theorem tagText_ne {c : UInt8} (h : TagText c) : c ≠ 34 ∧ c ≠ 42 ∧ c ≠ 44 ∧ c ≠ 87 := by
  have key : ∀ c : UInt8, TagText c → c ≠ 34 ∧ c ≠ 42 ∧ c ≠ 44 ∧ c ≠ 87 := by
    unfold TagText
    refine all_bytes ?_
    decide +kernel
  exact key c h

/-- C125: the tags are not entity tags of RFC 7232: they have no quotes. -/
theorem C125_unquoted (etag : ETagType) (i : FileInfo) : entityTag (staticTag etag i) = false := by
  have h := staticTag_text etag i
  cases hs : staticTag etag i with
  | nil => exact absurd hs (staticTag_ne_nil etag i)
  | cons a s =>
    rw [hs] at h
    have ha := tagText_ne (h a (List.mem_cons_self ..))
    have hw : (a :: s).take 2 ≠ b!"W/" := by
      cases s with
      | nil => simp
      | cons b s => intro he; exact ha.2.2.2 (List.cons.inj he).1
    unfold entityTag
    rw [if_neg hw]
    simp [ha.1]

theorem trimString_mem {s : Str} {c : UInt8} (h : c ∈ trimString s) : c ∈ s := by
  unfold trimString at h
  have h1 := (List.dropWhile_sublist (p := asciiSpace) (l := (s.dropWhile asciiSpace).reverse)).mem (List.mem_reverse.1 h)
  exact (List.dropWhile_sublist (p := asciiSpace) (l := s)).mem (List.mem_reverse.1 h1)

theorem scanETag_none {s : Str} (h : (34 : UInt8) ∉ s) : scanETag s = none := by
  have h1 : (34 : UInt8) ∉ trimString s := fun hm => h (trimString_mem hm)
  have key : ∀ w u : Str, (34 : UInt8) ∉ u → (match u with
      | [] => none
      | [_] => none
      | c :: t => if c ≠ 34 then none else (scanQuoted t).map (fun r => (w ++ 34 :: r.1, r.2)) : Option (Str × Str)) = none := by
    intro w u hu
    split
    · rfl
    · rfl
    · rw [if_pos]
      rintro rfl
      exact hu (List.mem_cons_self ..)
  unfold scanETag
  dsimp only
  cases hasPrefix (trimString s) b!"W/" with
  | true => exact key _ _ (fun hm => h1 (List.mem_of_mem_drop hm))
  | false => exact key _ _ h1

theorem anyETag_none (hit : Str → Bool) {s : Str} (h1 : (34 : UInt8) ∉ s) (h2 : (42 : UInt8) ∉ s) (h3 : (44 : UInt8) ∉ s) (fuel : Nat) :
    anyETag hit fuel s = false := by
  cases fuel with
  | zero => rfl
  | succ fuel =>
    unfold anyETag
    cases ht : trimString s with
    | nil => rfl
    | cons c t =>
      have hm : ∀ x ∈ c :: t, x ∈ s := fun x hx => trimString_mem (by rw [ht]; exact hx)
      dsimp only
      rw [if_neg, if_neg, scanETag_none (fun hh => h1 (hm _ hh))]
      · rintro rfl; exact h2 (hm _ (List.mem_cons_self ..))
      · rintro rfl; exact h3 (hm _ (List.mem_cons_self ..))

/-- a GET request without the conditions that the cache does not use -/
structure Plainly (req : Req) : Prop where
  method : req.method = b!"GET"
  ifMatch : req.header.get b!"If-Match" = []
  unmodified : req.header.get b!"If-Unmodified-Since" = []
  range : req.header.get b!"Range" = []

theorem asks_plainly {k : Option Copy} {req : Req} (h : Asks k req) : Plainly req :=
  ⟨h.method, h.others _ (by simp), h.others _ (by simp), h.others _ (by simp)⟩

theorem conditions {parse : Str → Option Int} {req : Req} (h : Plainly req) (etag : Str) (mt : Int) :
    checkPreconditions parse (condReq req) etag mt =
      match checkIfNoneMatch (condReq req) etag with
      | some false => .notModified
      | none => if checkIfModified parse (condReq req) mt = some false then .notModified else .go []
      | some true => .go [] := by
  have h1 : checkIfMatch (condReq req) etag = none := if_pos h.ifMatch
  have h2 : checkIfUnmodified parse (condReq req) mt = none := if_pos (Or.inl h.unmodified)
  have h3 : (condReq req).range = [] := h.range
  have h4 : (condReq req).method = mGET := h.method
  unfold checkPreconditions
  rw [h1]
  dsimp only
  rw [h2, if_neg (by simp), h3, h4]
  simp only [ne_eq, not_true, false_and, if_false, true_or, if_true]
  cases checkIfNoneMatch (condReq req) etag with
  | none => rfl
  | some x => cases x <;> rfl

theorem conditions_untagged {parse : Str → Option Int} {req : Req} (h : Plainly req) (hn : req.header.get b!"If-None-Match" = []) (etag : Str) (mt : Int) :
    checkPreconditions parse (condReq req) etag mt =
      if req.header.get b!"If-Modified-Since" ≠ [] ∧ isZeroTime mt = false ∧
        ∃ t, parse (req.header.get b!"If-Modified-Since") = some t ∧ second mt * 1000000000 ≤ t then .notModified else .go [] := by
  have h1 : checkIfNoneMatch (condReq req) etag = none := if_pos hn
  rw [conditions h, h1]
  dsimp only
  have h4 : (condReq req).method = mGET := h.method
  have h5 : (condReq req).ifModified = req.header.get b!"If-Modified-Since" := rfl
  unfold checkIfModified
  rw [h4, if_neg (show ¬ (mGET ≠ mGET ∧ mGET ≠ mHEAD) from fun hh => hh.1 rfl), h5]
  generalize req.header.get b!"If-Modified-Since" = x
  by_cases hx : x = [] ∨ isZeroTime mt = true
  · rw [if_pos hx, if_neg (by simp), if_neg]
    rintro ⟨a, b, _⟩
    rcases hx with hx | hx
    · exact a hx
    · rw [b] at hx; cases hx
  · rw [if_neg hx]
    simp only [not_or, Bool.not_eq_true] at hx
    cases hp : parse x with
    | none => simp
    | some t =>
      have e : truncSecond mt = second mt * 1000000000 := rfl
      rw [e]
      by_cases hle : second mt * 1000000000 ≤ t <;> simp [hle, hx]

theorem conditions_tagged {parse : Str → Option Int} {req : Req} (h : Plainly req) {etag' : ETagType} {j : FileInfo}
    (hn : req.header.get b!"If-None-Match" = staticTag etag' j) (etag : Str) (mt : Int) :
    checkPreconditions parse (condReq req) etag mt = .go [] := by
  have ht := fun c hc => tagText_ne (staticTag_text etag' j c hc)
  have h1 : checkIfNoneMatch (condReq req) etag = some true := by
    unfold checkIfNoneMatch
    rw [show (condReq req).ifNoneMatch = staticTag etag' j from hn, if_neg (staticTag_ne_nil etag' j)]
    rw [anyETag_none _ (fun hc => (ht _ hc).1 rfl) (fun hc => (ht _ hc).2.1 rfl) (fun hc => (ht _ hc).2.2.1 rfl)]
    rfl
  rw [conditions h, h1]

/-! What the client sees -/

theorem field_start (opt : StaticOptions ω) (w : ω) {k : Str} (h : k ≠ b!"Expires") : fieldOf (startHeader opt w) k = none := by
  unfold startHeader
  cases opt.expires with
  | none => rfl
  | some e =>
    have e1 : canonKey b!"Expires" = b!"Expires" := by decide +kernel
    dsimp only
    rw [fieldOf_put_other (by rw [e1]; exact h.symm)]
    rfl

theorem canon_etag : canonKey b!"ETag" = b!"Etag" := by decide +kernel

theorem field_tagged (opt : StaticOptions ω) (i : FileInfo) (w : ω) :
    fieldOf (taggedHeader opt i (startHeader opt w)) b!"Etag" = (if opt.etag = 0 then none else some (staticTag opt.etag i)) ∧
    fieldOf (taggedHeader opt i (startHeader opt w)) b!"Last-Modified" = none := by
  unfold taggedHeader
  split
  · exact ⟨field_start opt w (by decide), field_start opt w (by decide)⟩
  · exact ⟨fieldOf_put_same canon_etag, (fieldOf_put_other (by rw [canon_etag]; decide)).trans (field_start opt w (by decide))⟩

theorem field_whole (io : ContentIO ω) (o : Oracle) (name : Str) (mt : Int) (d : Str) {h : Header} (hd : fieldOf h b!"Last-Modified" = none) :
    fieldOf (wholeHeader io o name mt d h) b!"Etag" = fieldOf h b!"Etag" ∧
    fieldOf (wholeHeader io o name mt d h) b!"Last-Modified" = if isZeroTime mt then none else some (io.formatTime mt) := by
  unfold wholeHeader typedOf
  dsimp only
  constructor
  · rw [sentHeader_field (by decide) (by decide), typedHeader_field (by decide), lastModified_etag (by decide)]
  · rw [sentHeader_field (by decide) (by decide), typedHeader_field (by decide), lastModified_date hd]

theorem fieldOf_drop {h : Header} {k k' : Str} : fieldOf (h.drop k) k' = if k' = k then none else fieldOf h k' := by
  unfold fieldOf Header.drop
  by_cases hk : k' = k <;> simp [hk]

theorem field_notModified (io : ContentIO ω) (mt : Int) {h : Header} (hd : fieldOf h b!"Last-Modified" = none) (hz : isZeroTime mt = false) :
    fieldOf (notModifiedHeader (setLastModified io mt h)) b!"Etag" = fieldOf h b!"Etag" ∧
    (fieldOf (notModifiedHeader (setLastModified io mt h)) b!"Last-Modified" = none ∨
      fieldOf (notModifiedHeader (setLastModified io mt h)) b!"Last-Modified" = some (io.formatTime mt)) := by
  unfold notModifiedHeader
  dsimp only
  constructor
  · split
    · rw [fieldOf_drop, if_neg (by decide), fieldOf_drop, if_neg (by decide), fieldOf_drop, if_neg (by decide), lastModified_etag (by decide)]
    · rw [fieldOf_drop, if_neg (by decide), fieldOf_drop, if_neg (by decide), lastModified_etag (by decide)]
  · split
    · left; rw [fieldOf_drop, if_pos rfl]
    · right
      rw [fieldOf_drop, if_neg (by decide), fieldOf_drop, if_neg (by decide), lastModified_date hd, hz]
      rfl

theorem received_sent (code : Int) (h : Header) (d : Str) :
    received (sentLog code h d) = some code ∧ receivedHeader (sentLog code h d) = some h ∧ receivedBody (sentLog code h d) = d := by
  unfold sentLog
  refine ⟨rfl, rfl, ?_⟩
  show receivedBody (if d = [] then [] else [.body d]) = d
  split
  · rename_i hd; rw [hd]; rfl
  · show d ++ [] = d; exact List.append_nil d

theorem refresh_sent (strict : Bool) (k : Option Copy) (h : Header) (d : Str) :
    refresh strict k (sentLog 200 h d) = some ⟨d, tagOf strict h, dateOf h⟩ := by
  obtain ⟨r1, r2, r3⟩ := received_sent 200 h d
  unfold refresh
  rw [r1, r2, r3]
  rfl

/-- A client that takes no notice of the tags: there are none, or the client is strict. -/
def Tagless (strict : Bool) (opt : StaticOptions ω) : Prop := opt.etag = 0 ∨ strict = true

theorem tagOf_tagless {strict : Bool} {opt : StaticOptions ω} (ht : Tagless strict opt) {i : FileInfo} {h : Header}
    (he : fieldOf h b!"Etag" = if opt.etag = 0 then none else some (staticTag opt.etag i)) : tagOf strict h = none := by
  unfold tagOf
  rw [he]
  rcases ht with ht | ht
  · rw [if_pos ht]; rfl
  · split
    · rfl
    · simp [ht, Option.filter, C125_unquoted]

/-- A visit of the file: a request for its path that the engine routes; `i` and `d` are the file at that time. -/
structure VisitOf (fs : FS ω) (io : ContentIO ω) (opt : StaticOptions ω) (name : Str) (v : CacheVisit ω) (i : FileInfo) (d : Str) : Prop where
  routed : Routed v.req
  path : v.req.path = pathBelow (elems opt.pre) name
  file : HasFile fs io.read opt v.world name i d

/-- what the application answers at a visit -/
def answerAt (rx : Regex) (o : Oracle) (e : Engine (Prog ω)) (v : CacheVisit ω) : List WEvent :=
  (serve rx o e v.ctx v.req Writer.new v.body v.world).rw.log

theorem app_answer {rx : Regex} {o : Oracle} {io : ContentIO ω} {fs : FS ω} {opt : StaticOptions ω} {name : Str} {e : Engine (Prog ω)}
    (ha : FileApp rx o io fs opt name e) (h200 : o.bad 200 = false) (h304 : o.bad 304 = false) {v : CacheVisit ω} {i : FileInfo} {d : Str}
    (hv : VisitOf fs io opt name v i d) (hp : Plainly v.req)
    (hn : v.req.header.get b!"If-None-Match" = [] ∨ ∃ et j, v.req.header.get b!"If-None-Match" = staticTag et j) :
    ∃ w, FileAnswer io o opt name i d (startHeader opt w) v.req (answerAt rx o e v) := by
  obtain ⟨hne, hl, ho, a, b, r, http, heap, opts, hc, hrun, hhand, hst, hbef, huse, hother⟩ := ha
  obtain ⟨s, hb, hh, hpar, hrw, _, hworld, hsv⟩ := C48_below_partial (rx := rx) (o := o) (req := v.req) rfl hrun hhand hst ho hv.routed
    (Or.inl hp.method) hne hl (Or.inl hv.path) (by rw [hp.method, hv.path]; exact hother) v.ctx Writer.new v.body v.world
  obtain ⟨_, hsrw, _⟩ := hsv
  rw [hbef, huse] at hh
  unfold answerAt
  rw [hsrw]
  refine static_answer hc hb hh hrw hpar (by rw [hworld]; exact hv.file) hp.method h200 h304 (fun h0 => ?_)
  rcases hn with hn | ⟨et, j, hn⟩
  · rw [conditions_untagged hp hn]
    split
    · exact Or.inr rfl
    · exact Or.inl rfl
  · exact Or.inl (conditions_tagged hp hn _ _)

/-! With tags -/

/-- one visit of a cache that has the version of `u`, or nothing -/
theorem tagged_step {rx : Regex} {o : Oracle} {io : ContentIO ω} {fs : FS ω} {opt : StaticOptions ω} {name : Str} {e : Engine (Prog ω)}
    (ha : FileApp rx o io fs opt name e) (h200 : o.bad 200 = false) (h304 : o.bad 304 = false) (het : opt.etag ≠ 0)
    {v : CacheVisit ω} {i : FileInfo} {d : Str} (hv : VisitOf fs io opt name v i d) {k : Option Copy} (hk : Asks k v.req)
    {j : FileInfo} (hj : ∀ k', k = some k' → k'.etag = some (staticTag opt.etag j)) :
    (∃ k', refresh false k (answerAt rx o e v) = some k' ∧ k'.etag = some (staticTag opt.etag i) ∧
      (k'.body = d ∨ ∃ k0, k = some k0 ∧ k'.body = k0.body ∧ SameVersion opt.etag j i)) ∧
    (received (answerAt rx o e v) = some 304 ↔ k ≠ none ∧ SameVersion opt.etag j i) ∧
    (received (answerAt rx o e v) ≠ some 304 → received (answerAt rx o e v) = some 200) := by
  have hp := asks_plainly hk
  have hn : v.req.header.get b!"If-None-Match" = [] ∨ ∃ et j, v.req.header.get b!"If-None-Match" = staticTag et j := by
    rw [hk.tag]
    cases k with
    | none => exact Or.inl rfl
    | some k' => right; refine ⟨opt.etag, j, ?_⟩; simp [hj k' rfl]
  obtain ⟨w, hans⟩ := app_answer ha h200 h304 hv hp hn
  generalize hL : answerAt rx o e v = L at hans ⊢
  have ht := field_tagged opt i w
  rw [if_neg het] at ht
  have tag_of : ∀ h : Header, fieldOf h b!"Etag" = some (staticTag opt.etag i) → tagOf false h = some (staticTag opt.etag i) := by
    intro h hh; unfold tagOf; rw [hh]; rfl
  have file_case : ¬ (opt.etag ≠ 0 ∧ v.req.header.get b!"If-None-Match" = staticTag opt.etag i) → ¬ (k ≠ none ∧ SameVersion opt.etag j i) := by
    rintro hne ⟨h1, h2⟩
    cases k with
    | none => exact h1 rfl
    | some k' =>
      refine hne ⟨het, ?_⟩
      rw [hk.tag]
      simp only [Option.bind_some, hj k' rfl, Option.getD_some]
      exact staticTag_iff.2 h2
  cases hans with
  | tag h1 h2 =>
    cases k with
    | none => rw [hk.tag] at h2; exact absurd h2.symm (staticTag_ne_nil _ _)
    | some k0 =>
      rw [hk.tag] at h2
      simp only [Option.bind_some, hj k0 rfl, Option.getD_some] at h2
      have hs := staticTag_iff.1 h2
      refine ⟨⟨_, rfl, ?_, Or.inr ⟨k0, rfl, rfl, hs⟩⟩, ⟨fun _ => ⟨by simp, hs⟩, fun _ => rfl⟩, fun h => absurd rfl h⟩
      show (tagOf false _).or _ = _
      rw [tag_of _ ht.1]
      rfl
  | old h1 h2 =>
    exfalso
    rcases hn with hn | ⟨et, j', hn⟩
    · rw [conditions_untagged hp hn] at h2
      split at h2
      · rename_i h3
        cases k with
        | none => rw [hk.date] at h3; exact h3.1 rfl
        | some k0 =>
          rw [hk.tag] at hn
          simp only [Option.bind_some, hj k0 rfl, Option.getD_some] at hn
          exact staticTag_ne_nil _ _ hn
      · cases h2
    · rw [conditions_tagged hp hn] at h2
      cases h2
  | file h1 h2 =>
    obtain ⟨r1, r2, r3⟩ := received_sent 200 (wholeHeader io o name i.modTime d (taggedHeader opt i (startHeader opt w))) d
    refine ⟨⟨_, refresh_sent .., ?_, Or.inl rfl⟩, ⟨fun h => ?_, fun h => absurd h (file_case h1)⟩, fun _ => r1⟩
    · exact tag_of _ ((field_whole io o name i.modTime d ht.2).1.trans ht.1)
    · rw [r1] at h; cases h

theorem tagged_inv {rx : Regex} {o : Oracle} {io : ContentIO ω} {fs : FS ω} {opt : StaticOptions ω} {name : Str} {e : Engine (Prog ω)}
    (ha : FileApp rx o io fs opt name e) (h200 : o.bad 200 = false) (h304 : o.bad 304 = false) (het : opt.etag ≠ 0)
    {info : CacheVisit ω → FileInfo} {data : CacheVisit ω → Str} {vs : List (CacheVisit ω)}
    (hv : ∀ v ∈ vs, VisitOf fs io opt name v (info v) (data v))
    (hsame : ∀ u ∈ vs, ∀ v ∈ vs, SameVersion opt.etag (info u) (info v) → data u = data v)
    {k : Option Copy} (hk : Cached false (answerAt rx o e) vs k) :
    ∀ k', k = some k' → ∃ u, vs.getLast? = some u ∧ k'.etag = some (staticTag opt.etag (info u)) ∧ k'.body = data u := by
  induction hk with
  | nil => intro k' h; cases h
  | lose _ _ => intro k' h; cases h
  | @visit vs k v hc hask ih =>
    have ih := ih (fun v hv' => hv v (List.mem_append_left _ hv')) (fun u hu v hv' => hsame u (List.mem_append_left _ hu) v (List.mem_append_left _ hv'))
    intro k' hk'
    refine ⟨v, by simp, ?_⟩
    have hvv : v ∈ vs ++ [v] := by simp
    cases k with
    | none =>
      obtain ⟨⟨k1, h1, h2, h3⟩, _⟩ := tagged_step ha h200 h304 het (hv v hvv) hask (j := info v) (fun _ h => (nomatch h))
      rw [h1] at hk'
      cases hk'
      refine ⟨h2, ?_⟩
      rcases h3 with h3 | ⟨_, h4, _⟩
      · exact h3
      · cases h4
    | some k0 =>
      obtain ⟨u, hu, hu1, hu2⟩ := ih k0 rfl
      obtain ⟨⟨k1, h1, h2, h3⟩, _⟩ := tagged_step ha h200 h304 het (hv v hvv) hask (j := info u) (fun _ h => by cases h; exact hu1)
      rw [h1] at hk'
      cases hk'
      refine ⟨h2, ?_⟩
      rcases h3 with h3 | ⟨k2, h4, h5, h6⟩
      · exact h3
      · cases h4
        rw [h5, hu2]
        exact hsame u (List.mem_append_left _ (List.mem_of_getLast? hu)) v hvv h6

/-- C125, with tags and a cache that sends them back: after any visits, whatever happened to the files between them, a further visit shows the
current contents of the file. It is sent again exactly if the cache has nothing or the version has changed since the visit before; then the
answer is 200. `hsame`: of versions with the same second, size (and name) there is only one content. -/
theorem C125_tags {rx : Regex} {o : Oracle} {io : ContentIO ω} {fs : FS ω} {opt : StaticOptions ω} {name : Str} {e : Engine (Prog ω)}
    (ha : FileApp rx o io fs opt name e) (h200 : o.bad 200 = false) (h304 : o.bad 304 = false) (het : opt.etag ≠ 0)
    {info : CacheVisit ω → FileInfo} {data : CacheVisit ω → Str} {vs : List (CacheVisit ω)} {v : CacheVisit ω}
    (hv : ∀ u ∈ vs ++ [v], VisitOf fs io opt name u (info u) (data u))
    (hsame : ∀ u ∈ vs ++ [v], ∀ v' ∈ vs ++ [v], SameVersion opt.etag (info u) (info v') → data u = data v')
    {k : Option Copy} (hk : Cached false (answerAt rx o e) vs k) (hask : Asks k v.req) :
    (∃ k', refresh false k (answerAt rx o e v) = some k' ∧ k'.body = data v) ∧
    (received (answerAt rx o e v) = some 304 ↔ k ≠ none ∧ ∃ u, vs.getLast? = some u ∧ SameVersion opt.etag (info u) (info v)) ∧
    (received (answerAt rx o e v) ≠ some 304 → received (answerAt rx o e v) = some 200 ∧ receivedBody (answerAt rx o e v) = data v) := by
  have hinv := tagged_inv ha h200 h304 het (fun v hv' => hv v (List.mem_append_left _ hv'))
    (fun u hu v hv' => hsame u (List.mem_append_left _ hu) v (List.mem_append_left _ hv')) hk
  have hvv : v ∈ vs ++ [v] := by simp
  have hbody : ∀ k', refresh false k (answerAt rx o e v) = some k' → k'.body = data v := by
    intro k' h
    obtain ⟨u, hu, _, hb⟩ := tagged_inv ha h200 h304 het hv hsame (Cached.visit hk hask) k' h
    rw [List.getLast?_append] at hu
    cases hu
    exact hb
  have hfull : received (answerAt rx o e v) = some 200 → (∃ k', refresh false k (answerAt rx o e v) = some k') → receivedBody (answerAt rx o e v) = data v := by
    rintro h1 ⟨k', h2⟩
    have h3 := hbody k' h2
    unfold refresh at h2
    rw [h1] at h2
    cases hh : receivedHeader (answerAt rx o e v) with
    | none => rw [hh] at h2; cases h2
    | some h => rw [hh] at h2; cases h2; exact h3
  cases k with
  | none =>
    obtain ⟨⟨k1, h1, h2, h3⟩, h4, h5⟩ := tagged_step ha h200 h304 het (hv v hvv) hask (j := info v) (fun _ h => (nomatch h))
    refine ⟨⟨k1, h1, hbody k1 h1⟩, ⟨fun h => absurd rfl (h4.1 h).1, fun h => absurd rfl h.1⟩, fun h => ⟨h5 h, hfull (h5 h) ⟨k1, h1⟩⟩⟩
  | some k0 =>
    obtain ⟨u, hu, hu1, hu2⟩ := hinv k0 rfl
    obtain ⟨⟨k1, h1, h2, h3⟩, h4, h5⟩ := tagged_step ha h200 h304 het (hv v hvv) hask (j := info u) (fun _ h => by cases h; exact hu1)
    refine ⟨⟨k1, h1, hbody k1 h1⟩, h4.trans ⟨fun h => ⟨h.1, u, hu, h.2⟩, ?_⟩, fun h => ⟨h5 h, hfull (h5 h) ⟨k1, h1⟩⟩⟩
    rintro ⟨ha, u', hu', hs⟩
    rw [hu] at hu'
    cases hu'
    exact ⟨ha, hs⟩

/-! With dates -/

/-- one visit of a cache without a tag, that has a date of the second `n`, or none -/
theorem dated_step {rx : Regex} {o : Oracle} {io : ContentIO ω} {fs : FS ω} {opt : StaticOptions ω} {name : Str} {e : Engine (Prog ω)}
    (ha : FileApp rx o io fs opt name e) (h200 : o.bad 200 = false) (h304 : o.bad 304 = false) {strict : Bool} (hst : Tagless strict opt)
    {v : CacheVisit ω} {i : FileInfo} {d : Str} (hv : VisitOf fs io opt name v i d) (hd : Dated io i.modTime) {k : Option Copy} (hk : Asks k v.req)
    (hkt : ∀ k', k = some k' → k'.etag = none)
    {n : Int} (hkd : ∀ k' t, k = some k' → k'.date = some t → t ≠ [] ∧ io.parseTime t = some (n * 1000000000)) :
    (∃ k', refresh strict k (answerAt rx o e v) = some k' ∧ k'.etag = none ∧
      ((k'.body = d ∧ k'.date = (if isZeroTime i.modTime then none else some (io.formatTime i.modTime))) ∨
        ∃ k0, k = some k0 ∧ k'.body = k0.body ∧ second i.modTime ≤ n ∧ (k'.date = k0.date ∨ k'.date = some (io.formatTime i.modTime)))) ∧
    (received (answerAt rx o e v) = some 304 ↔ k.bind (·.date) ≠ none ∧ isZeroTime i.modTime = false ∧ second i.modTime ≤ n) ∧
    (received (answerAt rx o e v) ≠ some 304 → received (answerAt rx o e v) = some 200 ∧ receivedBody (answerAt rx o e v) = d) := by
  have hp := asks_plainly hk
  have hn : v.req.header.get b!"If-None-Match" = [] := by
    rw [hk.tag]
    cases k with
    | none => rfl
    | some k' => simp [hkt k' rfl]
  have hcond : ∀ et, checkPreconditions io.parseTime (condReq v.req) et i.modTime =
      if k.bind (·.date) ≠ none ∧ isZeroTime i.modTime = false ∧ second i.modTime ≤ n then .notModified else .go [] := by
    intro et
    rw [conditions_untagged hp hn, hk.date]
    cases k with
    | none => simp
    | some k0 =>
      cases hdate : k0.date with
      | none => simp [hdate]
      | some t =>
        obtain ⟨h1, h2⟩ := hkd k0 t rfl hdate
        simp only [Option.bind_some, hdate, Option.getD_some, ne_eq, h1, not_false_eq_true, true_and, h2, Option.some.injEq, exists_eq_left',
          reduceCtorEq]
        have : second i.modTime * 1000000000 ≤ n * 1000000000 ↔ second i.modTime ≤ n := by omega
        simp only [this]
  obtain ⟨w, hans⟩ := app_answer ha h200 h304 hv hp (Or.inl hn)
  generalize hL : answerAt rx o e v = L at hans ⊢
  have ht := field_tagged opt i w
  cases hans with
  | tag h1 h2 => rw [hn] at h2; exact absurd h2.symm (staticTag_ne_nil _ _)
  | old h1 h2 =>
    rw [hcond] at h2
    split at h2
    · rename_i hc
      obtain ⟨f1, f2⟩ := field_notModified io i.modTime ht.2 hc.2.1
      cases k with
      | none => exact absurd rfl hc.1
      | some k0 =>
        refine ⟨⟨_, rfl, ?_, Or.inr ⟨k0, rfl, rfl, hc.2.2, ?_⟩⟩, ⟨fun _ => hc, fun _ => rfl⟩, fun h => absurd rfl h⟩
        · show (tagOf strict _).or _ = none
          rw [tagOf_tagless hst (f1.trans ht.1), hkt k0 rfl]
          rfl
        · show (dateOf _).or _ = _ ∨ (dateOf _).or _ = _
          unfold dateOf
          rcases f2 with f2 | f2
          · left; rw [f2]; rfl
          · right; rw [f2]; rfl
    · cases h2
  | file h1 h2 =>
    rw [hcond] at h2
    split at h2
    · cases h2
    · rename_i hc
      obtain ⟨r1, r2, r3⟩ := received_sent 200 (wholeHeader io o name i.modTime d (taggedHeader opt i (startHeader opt w))) d
      obtain ⟨f1, f2⟩ := field_whole io o name i.modTime d ht.2
      refine ⟨⟨_, refresh_sent .., ?_, Or.inl ⟨rfl, f2⟩⟩, ⟨fun h => ?_, fun h => absurd h hc⟩, fun _ => ⟨r1, r3⟩⟩
      · exact tagOf_tagless hst (f1.trans ht.1)
      · rw [r1] at h; cases h

theorem dated_inv {rx : Regex} {o : Oracle} {io : ContentIO ω} {fs : FS ω} {opt : StaticOptions ω} {name : Str} {e : Engine (Prog ω)}
    (ha : FileApp rx o io fs opt name e) (h200 : o.bad 200 = false) (h304 : o.bad 304 = false) {strict : Bool} (hst : Tagless strict opt)
    {info : CacheVisit ω → FileInfo} {data : CacheVisit ω → Str} {vs : List (CacheVisit ω)}
    (hv : ∀ v ∈ vs, VisitOf fs io opt name v (info v) (data v)) (hd : ∀ v ∈ vs, Dated io (info v).modTime)
    (hsame : ∀ u ∈ vs, ∀ v ∈ vs, second (info u).modTime = second (info v).modTime → data u = data v)
    (hup : vs.Pairwise (fun u v => second (info u).modTime ≤ second (info v).modTime))
    {k : Option Copy} (hk : Cached strict (answerAt rx o e) vs k) :
    ∀ k', k = some k' → k'.etag = none ∧ ∃ u, vs.getLast? = some u ∧ k'.body = data u ∧
      ∀ t, k'.date = some t → t ≠ [] ∧ io.parseTime t = some (second (info u).modTime * 1000000000) := by
  induction hk with
  | nil => intro k' h; cases h
  | lose _ _ => intro k' h; cases h
  | @visit vs k v hc hask ih =>
    have ih := ih (fun v hv' => hv v (List.mem_append_left _ hv')) (fun v hv' => hd v (List.mem_append_left _ hv'))
      (fun u hu v hv' => hsame u (List.mem_append_left _ hu) v (List.mem_append_left _ hv')) (List.pairwise_append.1 hup).1
    intro k' hk'
    have hvv : v ∈ vs ++ [v] := by simp
    have hnew : ∀ t, (if isZeroTime (info v).modTime then none else some (io.formatTime (info v).modTime)) = some t →
        t ≠ [] ∧ io.parseTime t = some (second (info v).modTime * 1000000000) := by
      intro t ht
      split at ht
      · cases ht
      · cases ht; exact hd v hvv
    cases k with
    | none =>
      obtain ⟨⟨k1, h1, h2, h3⟩, _⟩ := dated_step ha h200 h304 hst (hv v hvv) (hd v hvv) hask (n := 0) (fun _ h => (nomatch h)) (fun _ _ h => (nomatch h))
      rw [h1] at hk'
      cases hk'
      refine ⟨h2, v, by simp, ?_⟩
      rcases h3 with ⟨h3, h4⟩ | ⟨_, h4, _⟩
      · exact ⟨h3, fun t ht => hnew t (h4 ▸ ht)⟩
      · cases h4
    | some k0 =>
      obtain ⟨hu0, u, hu, hu1, hu2⟩ := ih k0 rfl
      obtain ⟨⟨k1, h1, h2, h3⟩, _⟩ := dated_step ha h200 h304 hst (hv v hvv) (hd v hvv) hask (n := second (info u).modTime)
        (fun _ h => by cases h; exact hu0) (fun _ t h => by cases h; exact hu2 t)
      rw [h1] at hk'
      cases hk'
      refine ⟨h2, v, by simp, ?_⟩
      rcases h3 with ⟨h3, h4⟩ | ⟨k2, h4, h5, h6, h7⟩
      · exact ⟨h3, fun t ht => hnew t (h4 ▸ ht)⟩
      · cases h4
        have humem := List.mem_of_getLast? hu
        have hle : second (info u).modTime ≤ second (info v).modTime := (List.pairwise_append.1 hup).2.2 u humem v (by simp)
        have heq : second (info u).modTime = second (info v).modTime := by omega
        refine ⟨by rw [h5, hu1]; exact hsame u (List.mem_append_left _ humem) v hvv heq, fun t ht => ?_⟩
        rcases h7 with h7 | h7
        · rw [h7] at ht; rw [← heq]; exact hu2 t ht
        · rw [h7] at ht; cases ht; exact hd v hvv

/-- C125, without tags, or with a cache that does not take them for tags: a further visit shows the current contents if the time of the file never
goes back, and all contents of one second are the same. Missing from the full claim: that files are replaced by older ones, or twice in one
second; see `C125_refuted`. -/
theorem C125_dates_partial {rx : Regex} {o : Oracle} {io : ContentIO ω} {fs : FS ω} {opt : StaticOptions ω} {name : Str} {e : Engine (Prog ω)}
    (ha : FileApp rx o io fs opt name e) (h200 : o.bad 200 = false) (h304 : o.bad 304 = false) {strict : Bool} (hst : Tagless strict opt)
    {info : CacheVisit ω → FileInfo} {data : CacheVisit ω → Str} {vs : List (CacheVisit ω)} {v : CacheVisit ω}
    (hv : ∀ u ∈ vs ++ [v], VisitOf fs io opt name u (info u) (data u)) (hd : ∀ u ∈ vs ++ [v], Dated io (info u).modTime)
    (hsame : ∀ u ∈ vs ++ [v], ∀ v' ∈ vs ++ [v], second (info u).modTime = second (info v').modTime → data u = data v')
    (hup : (vs ++ [v]).Pairwise (fun u v => second (info u).modTime ≤ second (info v).modTime))
    {k : Option Copy} (hk : Cached strict (answerAt rx o e) vs k) (hask : Asks k v.req) :
    (∃ k', refresh strict k (answerAt rx o e v) = some k' ∧ k'.body = data v) ∧
    (received (answerAt rx o e v) = some 304 ↔ k.bind (·.date) ≠ none ∧ isZeroTime (info v).modTime = false ∧
      ∃ u, vs.getLast? = some u ∧ second (info u).modTime = second (info v).modTime) ∧
    (received (answerAt rx o e v) ≠ some 304 → received (answerAt rx o e v) = some 200 ∧ receivedBody (answerAt rx o e v) = data v) := by
  have hinv := dated_inv ha h200 h304 hst (fun v hv' => hv v (List.mem_append_left _ hv')) (fun v hv' => hd v (List.mem_append_left _ hv'))
    (fun u hu v hv' => hsame u (List.mem_append_left _ hu) v (List.mem_append_left _ hv')) (List.pairwise_append.1 hup).1 hk
  have hvv : v ∈ vs ++ [v] := by simp
  have hbody : ∀ k', refresh strict k (answerAt rx o e v) = some k' → k'.body = data v := by
    intro k' h
    obtain ⟨_, u, hu, hb, _⟩ := dated_inv ha h200 h304 hst hv hd hsame hup (Cached.visit hk hask) k' h
    rw [List.getLast?_append] at hu
    cases hu
    exact hb
  cases k with
  | none =>
    obtain ⟨⟨k1, h1, h2, h3⟩, h4, h5⟩ := dated_step ha h200 h304 hst (hv v hvv) (hd v hvv) hask (n := 0) (fun _ h => (nomatch h)) (fun _ _ h => (nomatch h))
    exact ⟨⟨k1, h1, hbody k1 h1⟩, ⟨fun h => absurd rfl (h4.1 h).1, fun h => absurd rfl h.1⟩, h5⟩
  | some k0 =>
    obtain ⟨hu0, u, hu, hu1, hu2⟩ := hinv k0 rfl
    obtain ⟨⟨k1, h1, h2, h3⟩, h4, h5⟩ := dated_step ha h200 h304 hst (hv v hvv) (hd v hvv) hask (n := second (info u).modTime)
        (fun _ h => by cases h; exact hu0) (fun _ t h => by cases h; exact hu2 t)
    have hle : second (info u).modTime ≤ second (info v).modTime := (List.pairwise_append.1 hup).2.2 u (List.mem_of_getLast? hu) v (by simp)
    refine ⟨⟨k1, h1, hbody k1 h1⟩, h4.trans ⟨fun h => ⟨h.1, h.2.1, u, hu, by have := h.2.2; omega⟩, ?_⟩, h5⟩
    rintro ⟨ha, hb, u', hu', hs⟩
    rw [hu] at hu'
    cases hu'
    exact ⟨ha, hb, by omega⟩

/-- C125: what exactly a cache with dates does at one visit, whatever the times are: if it has a date of the second `n`, it gets 304, and goes on
showing what it has, if the file is not younger than that. -/
theorem C125_date_exact {rx : Regex} {o : Oracle} {io : ContentIO ω} {fs : FS ω} {opt : StaticOptions ω} {name : Str} {e : Engine (Prog ω)}
    (ha : FileApp rx o io fs opt name e) (h200 : o.bad 200 = false) (h304 : o.bad 304 = false) {strict : Bool} (hst : Tagless strict opt)
    {v : CacheVisit ω} {i : FileInfo} {d : Str} (hv : VisitOf fs io opt name v i d) (hd : Dated io i.modTime) {k : Copy} (hk : Asks (some k) v.req)
    (hkt : k.etag = none) {n : Int} {t : Str} (hkd : k.date = some t ∧ t ≠ [] ∧ io.parseTime t = some (n * 1000000000)) :
    ∃ k', refresh strict (some k) (answerAt rx o e v) = some k' ∧
      k'.body = if isZeroTime i.modTime = false ∧ second i.modTime ≤ n then k.body else d := by
  obtain ⟨⟨k1, h1, h2, h3⟩, h4, h5⟩ := dated_step ha h200 h304 hst hv hd hk (n := n) (fun _ h => by cases h; exact hkt)
    (fun _ t' h ht => by cases h; rw [hkd.1] at ht; cases ht; exact hkd.2)
  refine ⟨k1, h1, ?_⟩
  have h6 : k.date ≠ none := by rw [hkd.1]; simp
  by_cases hc : isZeroTime i.modTime = false ∧ second i.modTime ≤ n
  · rw [if_pos hc]
    have := h4.2 ⟨h6, hc⟩
    unfold refresh at h1
    rw [this] at h1
    cases hh : receivedHeader (answerAt rx o e v) with
    | none => rw [hh] at h1; cases h1
    | some h => rw [hh] at h1; cases h1; rfl
  · rw [if_neg hc]
    have hne : received (answerAt rx o e v) ≠ some 304 := fun h => hc (h4.1 h).2
    obtain ⟨h7, h8⟩ := h5 hne
    unfold refresh at h1
    rw [h7] at h1
    cases hh : receivedHeader (answerAt rx o e v) with
    | none => rw [hh] at h1; cases h1
    | some h => rw [hh] at h1; cases h1; exact h8

/-! Examples and refutations -/

/-- A router with static files and nothing else. -/
theorem alone_app {rx : Regex} {o : Oracle} {io : ContentIO ω} {fs : FS ω} {http : Http ω} {opt : StaticOptions ω} {name : Str}
    {heap : Heap (Prog ω)} {e : Engine (Prog ω)} (hne : name ≠ []) (hl : name.getLast? ≠ some 47) (ho : ∀ s ∈ elems opt.pre, Ordinary s)
    (hc : http.serveContent = serveContentStd io o) (h : runOps [] (.newRouter :: staticOps 0 fs http opt) = .ok heap)
    (he : handler rx heap 0 [] = .ok e) : FileApp rx o io fs opt name e := by
  refine ⟨hne, hl, ho, [.newRouter], [], 0, http, heap, [], hc, by simpa using h, he, rfl, rfl, rfl, ?_⟩
  intro i l hi _ _
  have hm : made ([.newRouter] ++ staticOps 0 fs http opt ++ []) =
      [⟨none, [], [], []⟩, ⟨some 0, mGET, staticPattern opt.pre, [.ctxFunc (staticHandler fs http opt)]⟩,
        ⟨some 0, mHEAD, staticPattern opt.pre, [.ctxFunc (staticHandler fs http opt)]⟩] := rfl
  obtain ⟨⟨hlin, _⟩, c, hc1, hc2⟩ := hi
  have hpat : ∀ j, j = 1 ∨ j = 2 → patternOf ([.newRouter] ++ staticOps 0 fs http opt ++ []) j = staticPattern opt.pre := by
    rintro j (rfl | rfl) <;> rfl
  have h12 : i = 1 ∨ i = 2 := by
    rw [hm] at hc1
    match i, hc1 with
    | 0, hc1 => cases hc1; exact absurd rfl hc2
    | 1, _ => exact Or.inl rfl
    | 2, _ => exact Or.inr rfl
    | _ + 3, hc1 => cases hc1
  have hpar : ∀ c', (made ([.newRouter] ++ staticOps 0 fs http opt ++ []))[i]? = some c' → c'.parent = some 0 := by
    intro c' hc'
    rw [hm] at hc'
    rcases h12 with rfl | rfl <;> (cases hc'; rfl)
  cases hlin with
  | root h1 h2 => rw [hpar _ h1] at h2; cases h2
  | child h1 h2 h3 =>
    rw [hpar _ h1] at h2
    cases h2
    cases h3 with
    | child g1 g2 g3 => rw [hm] at g1; cases g1; cases g2
    | root g1 g2 =>
      have e0 : patternOf ([.newRouter] ++ staticOps 0 fs http opt ++ []) 0 = [] := rfl
      have e1 := hpat i h12
      generalize [Op.newRouter] ++ staticOps 0 fs http opt ++ [] = ops at e0 e1 ⊢
      show List.flatMap (fun j => trimSpace (patternOf ops j)) [0, i] = _
      rw [List.flatMap_cons, List.flatMap_cons, List.flatMap_nil, List.append_nil, e0, e1,
        staticPattern_eq (fun s hs => (ho s hs).noParent), trimSpace_pattern]
      rfl

namespace Demo

/-- a disk with one file; the world is its description and content -/
def oneFS : FS (FileInfo × Str) where
  openFile := fun name w => (w, if name = b!"f.txt" then some 0 else none)
  stat := fun _ w => (w, some w.1)
  close := fun _ w => w

/-- net/http for it, with the dates of 2017 and 2020 -/
def oneIO : ContentIO (FileInfo × Str) where
  formatTime := fun t => if second t = 1600000000 then b!"Sun, 13 Sep 2020 12:26:40 GMT" else b!"Fri, 14 Jul 2017 02:40:00 GMT"
  parseTime := fun s =>
    if s = b!"Sun, 13 Sep 2020 12:26:40 GMT" then some 1600000000000000000
    else if s = b!"Fri, 14 Jul 2017 02:40:00 GMT" then some 1500000000000000000
    else none
  typeOf := fun _ => b!"text/plain; charset=utf-8"
  read := fun _ w => w.2
  parts := fun _ _ _ => (b!"multipart/byteranges; boundary=x", [])

/-- the rest of net/http is not used -/
def oneHttp : Http (FileInfo × Str) where
  redirect := fun _ => .ret
  serveFile := fun _ => .ret
  serveContent := serveContentStd oneIO chainO

/-- the options -/
def oneOpt (etag : ETagType) : StaticOptions (FileInfo × Str) where
  pre := b!"/static"
  indexFile := []
  expires := none
  etag := etag
  fileSystem := some oneFS

/-- build the application and test it -/
def withOne (etag : ETagType) (p : Engine (Prog (FileInfo × Str)) → Bool) : Bool :=
  match runOps [] (.newRouter :: staticOps 0 oneFS oneHttp (oneOpt etag)) with
  | .error _ => false
  | .ok heap =>
    match handler rx heap 0 [] with
    | .error _ => false
    | .ok e => p e

theorem oneOrdinary (etag : ETagType) : ∀ s ∈ elems (oneOpt etag).pre, Ordinary s := by
  intro s hs
  have : s = b!"static" := by simpa [show elems b!"/static" = [b!"static"] by decide, oneOpt] using hs
  subst this
  exact ⟨by decide, by decide, by decide, by decide⟩

theorem withOne_spec {etag : ETagType} {p : Engine (Prog (FileInfo × Str)) → Bool} (h : withOne etag p = true) :
    ∃ e, FileApp rx chainO oneIO oneFS (oneOpt etag) b!"f.txt" e ∧ p e = true := by
  unfold withOne at h
  cases h1 : runOps [] (.newRouter :: staticOps 0 oneFS oneHttp (oneOpt etag)) with
  | error _ => rw [h1] at h; cases h
  | ok heap =>
    rw [h1] at h
    dsimp only at h
    cases h2 : handler rx heap 0 [] with
    | error _ => rw [h2] at h; cases h
    | ok e =>
      rw [h2] at h
      exact ⟨e, alone_app (by decide) (by decide) (oneOrdinary etag) rfl h1 h2, h⟩

/-- a visit of a cache that has `k` -/
def visitOne (k : Option Copy) (w : FileInfo × Str) : CacheVisit (FileInfo × Str) where
  req := { at' b!"/static/f.txt" with header := fun x =>
    if x = b!"If-None-Match" then (k.bind (·.etag)).map (fun t => [t]) else if x = b!"If-Modified-Since" then (k.bind (·.date)).map (fun t => [t]) else none }
  ctx := Ctx.new
  body := none
  world := w

theorem visitOne_asks (k : Option Copy) (w : FileInfo × Str) : Asks k (visitOne k w).req where
  method := rfl
  tag := by
    show Header.get _ _ = _
    unfold Header.get
    rw [show canonKey b!"If-None-Match" = b!"If-None-Match" by decide +kernel]
    rw [show (visitOne k w).req.header b!"If-None-Match" = (k.bind (·.etag)).map (fun t => [t]) from rfl]
    cases k.bind (·.etag) <;> rfl
  date := by
    show Header.get _ _ = _
    unfold Header.get
    rw [show canonKey b!"If-Modified-Since" = b!"If-Modified-Since" by decide +kernel]
    rw [show (visitOne k w).req.header b!"If-Modified-Since" = (k.bind (·.date)).map (fun t => [t]) from rfl]
    cases k.bind (·.date) <;> rfl
  others := by
    intro x hx
    simp only [List.mem_cons, List.not_mem_nil, or_false] at hx
    rcases hx with rfl | rfl | rfl | rfl <;> rfl

theorem visitOne_of (etag : ETagType) (k : Option Copy) (i : FileInfo) (d : Str) (hd : i.dir = false) :
    VisitOf oneFS oneIO (oneOpt etag) b!"f.txt" (visitOne k (i, d)) i d where
  routed := ⟨Or.inr ⟨rfl, Int.le_refl 1⟩, show b!"/static/f.txt" ≠ b!"*" by decide, List.mem_cons_self⟩
  path := show b!"/static/f.txt" = pathBelow (elems b!"/static") b!"f.txt" by decide +kernel
  file := ⟨_, _, _, rfl, rfl, hd, rfl⟩

/-- the file in 2020, and an older one that replaces it -/
def newInfo : FileInfo := ⟨false, 1600000000500000000, 3, b!"f.txt"⟩
/-- see `newInfo` -/
def oldInfo : FileInfo := ⟨false, 1500000000000000000, 8, b!"f.txt"⟩

end Demo

open Demo

/-! Three visits: the file, the same file, another file; with tags and with dates. -/
example : withOne 1 (fun e =>
    let a1 := answerAt rx chainO e (visitOne none (newInfo, b!"new"))
    let k1 := refresh false none a1
    let a2 := answerAt rx chainO e (visitOne k1 (newInfo, b!"new"))
    let k2 := refresh false k1 a2
    let a3 := answerAt rx chainO e (visitOne k2 (oldInfo, b!"old data"))
    let k3 := refresh false k2 a3
    received a1 == some 200 && k1 == some ⟨b!"new", some b!"5f5e1000-3", some b!"Sun, 13 Sep 2020 12:26:40 GMT"⟩ &&
    received a2 == some 304 && k2.map (·.body) == some b!"new" && received a3 == some 200 && k3.map (·.body) == some b!"old data") = true := by
  decide +kernel

example : withOne 0 (fun e =>
    let a1 := answerAt rx chainO e (visitOne none (oldInfo, b!"old data"))
    let k1 := refresh true none a1
    let a2 := answerAt rx chainO e (visitOne k1 (oldInfo, b!"old data"))
    let k2 := refresh true k1 a2
    let a3 := answerAt rx chainO e (visitOne k2 (newInfo, b!"new"))
    let k3 := refresh true k2 a3
    received a1 == some 200 && received a2 == some 304 && k2.map (·.body) == some b!"old data" && received a3 == some 200 &&
    k3.map (·.body) == some b!"new") = true := by decide +kernel

/-- C125 in full: for all kinds of tags, all times and all caches. -/
def C125_claim : Prop := ∀ (rx : Regex) (o : Oracle) (io : ContentIO (FileInfo × Str)) (fs : FS (FileInfo × Str)) (opt : StaticOptions (FileInfo × Str))
  (name : Str) (e : Engine (Prog (FileInfo × Str))), FileApp rx o io fs opt name e → o.bad 200 = false → o.bad 304 = false →
  ∀ (strict : Bool) (info : CacheVisit (FileInfo × Str) → FileInfo) (data : CacheVisit (FileInfo × Str) → Str) (vs : List (CacheVisit (FileInfo × Str)))
    (v : CacheVisit (FileInfo × Str)),
  (∀ u ∈ vs ++ [v], VisitOf fs io opt name u (info u) (data u)) → (∀ u ∈ vs ++ [v], Dated io (info u).modTime) →
  (∀ u ∈ vs ++ [v], ∀ v' ∈ vs ++ [v], SameVersion 2 (info u) (info v') → data u = data v') →
  ∀ k, Cached strict (answerAt rx o e) vs k → Asks k v.req → ∃ k', refresh strict k (answerAt rx o e v) = some k' ∧ k'.body = data v

/-- a file is replaced by an older one between two visits -/
theorem cache_refute {etag : ETagType} {strict : Bool} (hw : withOne etag (fun e =>
    let k1 := refresh strict none (answerAt rx chainO e (visitOne none (newInfo, b!"new")))
    (refresh strict k1 (answerAt rx chainO e (visitOne k1 (oldInfo, b!"old data")))).map (·.body) == some b!"new") = true) : ¬ C125_claim := by
  intro hall
  obtain ⟨e, happ, hp⟩ := withOne_spec hw
  dsimp only at hp
  have hk := Cached.visit (strict := strict) (answer := answerAt rx chainO e) (v := visitOne none (newInfo, b!"new")) .nil (visitOne_asks _ _)
  generalize refresh strict none (answerAt rx chainO e (visitOne none (newInfo, b!"new"))) = k1 at hp hk
  obtain ⟨k', h1, h2⟩ := hall rx chainO oneIO oneFS (oneOpt etag) b!"f.txt" e happ rfl rfl strict (fun v => v.world.1) (fun v => v.world.2)
    _ (visitOne k1 (oldInfo, b!"old data")) (by
      intro u hu
      simp only [List.nil_append, List.cons_append, List.mem_cons, List.not_mem_nil, or_false] at hu
      rcases hu with rfl | rfl
      · exact visitOne_of etag _ newInfo _ rfl
      · exact visitOne_of etag _ oldInfo _ rfl) (by
      intro u hu
      simp only [List.nil_append, List.cons_append, List.mem_cons, List.not_mem_nil, or_false] at hu
      rcases hu with rfl | rfl
      · exact show Dated oneIO newInfo.modTime from ⟨by decide +kernel, by decide +kernel⟩
      · exact show Dated oneIO oldInfo.modTime from ⟨by decide +kernel, by decide +kernel⟩) (by
      intro u hu v hv hs
      simp only [List.nil_append, List.cons_append, List.mem_cons, List.not_mem_nil, or_false] at hu hv
      rcases hu with rfl | rfl <;> rcases hv with rfl | rfl
      · rfl
      · exact absurd hs.1 (show ¬ newInfo.modTime / 1000000000 = oldInfo.modTime / 1000000000 by decide +kernel)
      · exact absurd hs.1 (show ¬ oldInfo.modTime / 1000000000 = newInfo.modTime / 1000000000 by decide +kernel)
      · rfl) k1 hk (visitOne_asks _ _)
  rw [h1] at hp
  simp only [Option.map_some, h2] at hp
  have : (some b!"old data" == some b!"new") = true := hp
  revert this
  decide

/-- C125 is false without tags: a file that is replaced by an older one, as by restoring a backup, or `mv`, is not sent; the cache goes on showing
what was there before. -/
theorem C125_refuted : ¬ C125_claim := cache_refute (etag := 0) (strict := false) (by decide +kernel)

/-- C125 is false with tags too if the cache is strict: tags without quotes are none. -/
theorem C125_refuted_strict : ¬ C125_claim := cache_refute (etag := 2) (strict := true) (by decide +kernel)

end Water
