import Verif.Lemmas.ServeFile
import Verif.Spec.Head
/-
Two runs of handler code, for a GET request and for the HEAD request (C135).
-/
namespace Water
open Spec
variable {ω : Type}

/-- the status lines of a log -/
def heads : List WEvent → List WEvent
  | [] => []
  | .status x c h :: es => .status x c h :: heads es
  | .body _ :: es => heads es

theorem heads_append (a b : List WEvent) : heads (a ++ b) = heads a ++ heads b := by
  induction a with
  | nil => rfl
  | cons x a ih => cases x <;> simp [heads, ih]

theorem received_heads (l : List WEvent) : received (heads l) = received l ∧ receivedHeader (heads l) = receivedHeader l := by
  induction l with
  | nil => exact ⟨rfl, rfl⟩
  | cons x l ih => cases x <;> simp [heads, received, receivedHeader, ih]

/-- Two writers that differ in bodies only. -/
structure SameHead (a b : Writer) : Prop where
  header : a.header = b.header
  heads : heads a.log = heads b.log
  empty : a.log = [] ↔ b.log = []

/-- Two states that differ in bodies, in the route, in the parameters other than the rest of the path (if that is known), and in what comes
from the form. -/
structure HeadAlike (hs : List (Prog ω)) (rest : Option Str) (s t : St ω) : Prop where
  handlers : s.ctx.handlers = hs ∧ t.ctx.handlers = hs
  environ : s.ctx.environ = t.ctx.environ
  params : ∀ n, rest = some n → s.ctx.params b!"*0" = some n ∧ t.ctx.params b!"*0" = some n
  index : s.ctx.index = t.ctx.index
  written : s.ctx.written = t.ctx.written
  status : s.ctx.status = t.ctx.status
  rw : SameHead s.rw t.rw
  body : s.body = t.body
  world : s.world = t.world

variable {hs : List (Prog ω)} {rest : Option Str}

theorem SameHead.isEmpty {a b : Writer} (h : SameHead a b) : a.log.isEmpty = b.log.isEmpty := by
  rw [Bool.eq_iff_iff, List.isEmpty_iff, List.isEmpty_iff]
  exact h.empty

theorem SameHead.writeHeader {a b : Writer} (h : SameHead a b) (bad : Int → Bool) (code : Int) :
    (a.writeHeader bad code).1 = (b.writeHeader bad code).1 ∧ SameHead (a.writeHeader bad code).2 (b.writeHeader bad code).2 := by
  unfold Writer.writeHeader
  rw [h.isEmpty]
  split
  · exact ⟨rfl, h⟩
  · refine ⟨rfl, h.header, ?_, by simp⟩
    simp only [heads_append, h.heads, h.header]

theorem SameHead.write {a b : Writer} (h : SameHead a b) (d : Str) : SameHead (a.write d) (b.write d) := by
  unfold Writer.write
  rw [h.isEmpty]
  split
  · exact ⟨h.header, by simp [h.header], by simp⟩
  · exact ⟨h.header, by simp only [heads_append, h.heads], by simp⟩

/-- a body behind a status line -/
theorem SameHead.more {a b : Writer} (h : SameHead a b) (hne : a.log ≠ []) (d : Str) : SameHead (a.write d) b := by
  unfold Writer.write
  rw [if_neg (by rw [List.isEmpty_iff]; exact hne)]
  refine ⟨h.header, ?_, ?_⟩
  · rw [heads_append, h.heads]
    exact List.append_nil _
  · rw [← h.empty]
    simp [hne]

theorem HeadAlike.setHeader {s t : St ω} (h : HeadAlike hs rest s t) (o : Oracle) (code : Int) :
    (s.writeHeader o code).1 = (t.writeHeader o code).1 ∧ HeadAlike hs rest (s.writeHeader o code).2 (t.writeHeader o code).2 := by
  unfold St.writeHeader
  rw [h.written]
  split
  · exact ⟨rfl, h⟩
  · have := h.rw.writeHeader o.bad code
    exact ⟨this.1, ⟨h.handlers, h.environ, h.params, h.index, rfl, rfl, this.2, h.body, h.world⟩⟩

theorem HeadAlike.withRw {s t : St ω} (h : HeadAlike hs rest s t) {a b : Writer} (hab : SameHead a b) : HeadAlike hs rest { s with rw := a } { t with rw := b } :=
  ⟨h.handlers, h.environ, h.params, h.index, h.written, h.status, hab, h.body, h.world⟩

theorem HeadAlike.put {s t : St ω} (h : HeadAlike hs rest s t) (f : Header → Header) :
    HeadAlike hs rest { s with rw := { s.rw with header := f s.rw.header } } { t with rw := { t.rw with header := f t.rw.header } } :=
  h.withRw ⟨by simp only [h.rw.header], h.rw.heads, h.rw.empty⟩

theorem HeadAlike.send {s t : St ω} (h : HeadAlike hs rest s t) (o : Oracle) (d : Str) :
    (s.write o d).1 = (t.write o d).1 ∧ HeadAlike hs rest (s.write o d).2 (t.write o d).2 := by
  unfold St.write
  rw [h.written]
  split
  · exact ⟨rfl, h.withRw (h.rw.write d)⟩
  · dsimp only
    have hst : HeadAlike hs rest (if d.length > 0 ∧ s.rw.header.get kContentType = [] then
          { s with rw := { s.rw with header := s.rw.header.put kContentType (o.detect d) } } else s)
        (if d.length > 0 ∧ t.rw.header.get kContentType = [] then
          { t with rw := { t.rw with header := t.rw.header.put kContentType (o.detect d) } } else t) := by
      rw [show s.rw.header.get kContentType = t.rw.header.get kContentType by rw [h.rw.header]]
      split
      · exact h.put (fun hd => hd.put kContentType (o.detect d))
      · exact h
    obtain ⟨h1, h2⟩ := hst.setHeader o 200
    revert h1 h2
    generalize St.writeHeader o _ 200 = x
    generalize St.writeHeader o _ 200 = y
    obtain ⟨a, s⟩ := x
    obtain ⟨b, t⟩ := y
    rintro (rfl : a = b) h2
    cases a
    · exact ⟨rfl, h2.withRw (h2.rw.write d)⟩
    · exact ⟨rfl, h2⟩

/-- Calls do the same in both. -/
theorem HeadAlike.doCall {req : Req} {o : Oracle} {c : Call ω} (hc : MethodBlindCall req c) {s t : St ω} (h : HeadAlike hs rest s t) :
    (doCall o req s c).1 = (doCall o (headOf req) t c).1 ∧ HeadAlike hs rest (doCall o req s c).2 (doCall o (headOf req) t c).2 := by
  cases c with
  | writeHeader code =>
    obtain ⟨h1, h2⟩ := h.setHeader o code
    simp only [Water.doCall]
    revert h1 h2
    cases s.writeHeader o code with
    | mk a s =>
      cases t.writeHeader o code with
      | mk b t => rintro (rfl : a = b) h2; cases a <;> exact ⟨rfl, h2⟩
  | write d =>
    obtain ⟨h1, h2⟩ := h.send o d
    simp only [Water.doCall]
    revert h1 h2
    cases s.write o d with
    | mk a s =>
      cases t.write o d with
      | mk b t => rintro (rfl : a = b) h2; cases a <;> exact ⟨rfl, h2⟩
  | setHeader k v => exact ⟨rfl, h.put (fun hd => hd.put k v)⟩
  | header f =>
    simp only [Water.doCall]
    exact ⟨by rw [h.rw.header], h.put (fun hd => (f hd).1)⟩
  | rawWriteHeader code =>
    obtain ⟨h1, h2⟩ := h.rw.writeHeader o.bad code
    simp only [Water.doCall]
    revert h1 h2
    cases s.rw.writeHeader o.bad code with
    | mk a x =>
      cases t.rw.writeHeader o.bad code with
      | mk b y => rintro (rfl : a = b) h2; cases a <;> exact ⟨rfl, h.withRw h2⟩
  | rawWrite d => exact ⟨rfl, h.withRw (h.rw.write d)⟩
  | written => exact ⟨by simp only [Water.doCall, h.written], h⟩
  | status => exact ⟨by simp only [Water.doCall, h.status], h⟩
  | fullPath => exact hc.elim
  | param k => exact hc.elim
  | envSet k v =>
    simp only [Water.doCall]
    rw [h.environ]
    split
    · exact ⟨rfl, h⟩
    · exact ⟨rfl, ⟨h.handlers, rfl, h.params, h.index, h.written, h.status, h.rw, h.body, h.world⟩⟩
  | envGet k =>
    simp only [Water.doCall]
    rw [h.environ]
    cases t.ctx.environ k <;> exact ⟨rfl, h⟩
  | envMaybe k => exact ⟨by simp only [Water.doCall, h.environ], h⟩
  | reqMethod => exact hc.elim
  | reqTexts f => exact ⟨by simp only [Water.doCall]; rw [show f req = f (headOf req) from hc], h⟩
  | reqPath => exact ⟨rfl, h⟩
  | reqHeader k => exact ⟨rfl, h⟩
  | readBody limit =>
    simp only [Water.doCall]
    rw [h.body]
    cases t.body
    · exact ⟨rfl, h⟩
    · exact ⟨rfl, ⟨h.handlers, h.environ, h.params, h.index, h.written, h.status, h.rw, rfl, h.world⟩⟩
  | hasBody => exact ⟨by simp only [Water.doCall, h.body], h⟩
  | setBody d => exact ⟨rfl, ⟨h.handlers, h.environ, h.params, h.index, h.written, h.status, h.rw, rfl, h.world⟩⟩
  | parseForm => exact hc.elim
  | readForm f => exact hc.elim
  | world f =>
    simp only [Water.doCall]
    rw [h.world]
    exact ⟨rfl, ⟨h.handlers, h.environ, h.params, h.index, h.written, h.status, h.rw, h.body, rfl⟩⟩

/-- What `ctx.run` does, in both. -/
def Follows (hs : List (Prog ω)) (rest : Option Str) (nx nx' : St ω → Out × St ω) : Prop :=
  ∀ s t, HeadAlike hs rest s t → (nx s).1 = (nx' t).1 ∧ HeadAlike hs rest (nx s).2 (nx' t).2

/-- The code `q` does for the HEAD request what `p` does for the other. -/
def Echoes (o : Oracle) (req : Req) (hs : List (Prog ω)) (rest : Option Str) (p q : Prog ω) : Prop :=
  ∀ nx nx' i, Follows hs rest nx nx' → Follows hs rest (exec o req nx i p) (exec o (headOf req) nx' i q)

section
variable {o : Oracle} {req : Req}

theorem Echoes.ret : Echoes o req hs rest .ret .ret := fun _ _ _ _ _ _ h => ⟨rfl, h⟩

theorem Echoes.panic (v : PVal) : Echoes o req hs rest (.panic v) (.panic v) := fun _ _ _ _ _ _ h => ⟨rfl, h⟩

theorem HeadAlike.logged {s t : St ω} (h : HeadAlike hs rest s t) (a b : Event) : HeadAlike hs rest (s.log a) (t.log b) :=
  ⟨h.handlers, h.environ, h.params, h.index, h.written, h.status, h.rw, h.body, h.world⟩

theorem HeadAlike.bumped {s t : St ω} (h : HeadAlike hs rest s t) : HeadAlike hs rest s.bump t.bump :=
  ⟨h.handlers, h.environ, h.params, by simp only [St.bump, h.index], h.written, h.status, h.rw, h.body, h.world⟩

theorem Echoes.next {p q : Prog ω} (hp : Echoes o req hs rest p q) : Echoes o req hs rest (.next p) (.next q) := by
  intro nx nx' i hn s t h
  simp only [exec]
  obtain ⟨h1, h2⟩ := hn _ _ (h.logged (.next i) (.next i)).bumped
  revert h1 h2
  cases nx (s.log (.next i)).bump with
  | mk a s =>
    cases nx' (t.log (.next i)).bump with
    | mk b t =>
      rintro (rfl : a = b) h2
      cases a with
      | ret => exact hp nx nx' i hn _ _ (h2.logged _ _)
      | panic v => exact ⟨rfl, h2.logged _ _⟩
      | fuel => exact ⟨rfl, h2⟩

theorem Echoes.call {c : Call ω} {k k' : Res → Prog ω} (hc : MethodBlindCall req c) (hk : ∀ r, Echoes o req hs rest (k r) (k' r)) :
    Echoes o req hs rest (.call c k) (.call c k') := by
  intro nx nx' i hn s t h
  simp only [exec]
  obtain ⟨h1, h2⟩ := h.doCall (o := o) hc
  revert h1 h2
  cases Water.doCall o req s c with
  | mk a s =>
    cases Water.doCall o (headOf req) t c with
    | mk b t =>
      rintro (rfl : a = b) h2
      cases a with
      | ok r => exact hk r nx nx' i hn _ _ h2
      | error v => exact ⟨rfl, h2⟩

/-- a call with different results -/
theorem Echoes.ask {f : Req → List Str} {k k' : Res → Prog ω} (hk : Echoes o req hs rest (k (.strs (f req))) (k' (.strs (f (headOf req))))) :
    Echoes o req hs rest (.call (.reqTexts f) k) (.call (.reqTexts f) k') := by
  intro nx nx' i hn s t h
  simp only [exec, Water.doCall]
  exact hk nx nx' i hn _ _ h

theorem Echoes.askMethod {k k' : Res → Prog ω} (hk : Echoes o req hs rest (k (.str req.method)) (k' (.str b!"HEAD"))) :
    Echoes o req hs rest (.call .reqMethod k) (.call .reqMethod k') := by
  intro nx nx' i hn s t h
  simp only [exec, Water.doCall]
  exact hk nx nx' i hn _ _ h

theorem Echoes.askRest {n : Str} {k k' : Res → Prog ω} (hk : Echoes o req hs (some n) (k (.str n)) (k' (.str n))) :
    Echoes o req hs (some n) (.call (.param b!"*0") k) (.call (.param b!"*0") k') := by
  intro nx nx' i hn s t h
  simp only [exec, Water.doCall, (h.params n rfl).1, (h.params n rfl).2]
  exact hk nx nx' i hn _ _ h

theorem Echoes.scope {p q : Prog ω} {fin fin' : Option PVal → Prog ω} (hp : Echoes o req hs rest p q) (hf : ∀ r, Echoes o req hs rest (fin r) (fin' r)) :
    Echoes o req hs rest (.scope p fin) (.scope q fin') := by
  intro nx nx' i hn s t h
  simp only [exec]
  obtain ⟨h1, h2⟩ := hp nx nx' i hn s t h
  revert h1 h2
  cases exec o req nx i p s with
  | mk a s =>
    cases exec o (headOf req) nx' i q t with
    | mk b t =>
      rintro (rfl : a = b) h2
      cases a with
      | ret => exact hf none nx nx' i hn _ _ h2
      | panic v => exact hf (some v) nx nx' i hn _ _ h2
      | fuel => exact ⟨rfl, h2⟩

/-- A body that is sent for the one request only. -/
theorem Echoes.bodyless (code : Int) (d : Str) : Echoes o req hs rest (.do (.rawWriteHeader code) (.do (.rawWrite d) .ret)) (.do (.rawWriteHeader code) .ret) := by
  intro nx nx' i hn s t h
  obtain ⟨h1, h2⟩ := h.rw.writeHeader o.bad code
  simp only [Prog.do, exec, Water.doCall]
  have hne : (s.rw.writeHeader o.bad code).1 = false → (s.rw.writeHeader o.bad code).2.log ≠ [] := by
    unfold Writer.writeHeader
    split <;> simp
  revert h1 h2 hne
  cases s.rw.writeHeader o.bad code with
  | mk a x =>
    cases t.rw.writeHeader o.bad code with
    | mk b y =>
      rintro (rfl : a = b) h2 hne
      cases a
      · exact ⟨rfl, h.withRw (h2.more (hne rfl) d)⟩
      · exact ⟨rfl, h.withRw h2⟩

theorem blind_echoes {p : Prog ω} (hp : MethodBlind req p) : Echoes o req hs rest p p := by
  induction hp with
  | ret => exact .ret
  | panic v => exact .panic v
  | next _ ih => exact ih.next
  | call hc _ ih => exact .call hc ih
  | scope _ _ ih1 ih2 => exact .scope ih1 ih2

theorem Echoes.do {c : Call ω} {p q : Prog ω} (hc : MethodBlindCall req c) (hp : Echoes o req hs rest p q) : Echoes o req hs rest (.do c p) (.do c q) :=
  .call hc (fun _ => hp)

theorem httpError_echoes (code : Int) (msg : Str) : Echoes o req hs rest (.httpError code msg) (.httpError code msg) := by
  unfold Prog.httpError
  exact .do trivial (.do trivial (.do trivial (.do trivial .ret)))

theorem sendContent_echoes (code : Int) (enc : Bool) (data : Str) (hm : req.method = b!"GET") :
    Echoes o req hs rest (sendContent req.method code enc data) (sendContent b!"HEAD" code enc data) := by
  have hrest : Echoes o req hs rest (.do (.rawWriteHeader code) (if req.method ≠ mHEAD ∧ data ≠ [] then .do (.rawWrite data) .ret else .ret))
      (.do (.rawWriteHeader code) (if b!"HEAD" ≠ mHEAD ∧ data ≠ [] then .do (.rawWrite data) .ret else .ret)) := by
    rw [if_neg (c := b!"HEAD" ≠ mHEAD ∧ data ≠ []) (fun h => h.1 rfl)]
    by_cases hd : data = []
    · rw [if_neg (fun h => h.2 hd)]
      exact .do trivial .ret
    · rw [if_pos ⟨by rw [hm]; decide, hd⟩]
      exact .bodyless code data
  unfold sendContent
  refine .do trivial ?_
  dsimp only
  split
  · exact hrest
  · exact .do trivial hrest

theorem sendRanges_echoes {io : ContentIO ω} (range ctype : Str) (enc : Bool) (data : Str) (hm : req.method = b!"GET") :
    Echoes o req hs rest (sendRanges io req.method range ctype enc data) (sendRanges io b!"HEAD" range ctype enc data) := by
  unfold sendRanges
  cases parseRange range data.length with
  | invalid => exact httpError_echoes _ _
  | noOverlap => exact .do trivial (httpError_echoes _ _)
  | ok rs =>
    dsimp only
    generalize (if (rs.map (·.2)).sum > data.length then [] else rs) = rs
    match rs with
    | [] => exact sendContent_echoes _ _ _ hm
    | [ra] => exact .do trivial (sendContent_echoes _ _ _ hm)
    | ra :: rb :: rs => exact .do trivial (sendContent_echoes _ _ _ hm)

theorem sendFile_echoes {io : ContentIO ω} (name : Str) (f : Nat) (range : Str) (hm : req.method = b!"GET") :
    Echoes o req hs rest (sendFile io o name f req.method range) (sendFile io o name f b!"HEAD" range) := by
  unfold sendFile
  refine .call trivial (fun r => ?_)
  cases r <;> try exact .ret
  refine .call trivial (fun r => ?_)
  split
  · exact sendRanges_echoes _ _ _ _ hm
  · exact .ret

theorem conditions_head {parse : Str → Option Int} {a b c d e g etag : Str} {t : Int} :
    checkPreconditions parse ⟨b!"GET", a, b, c, d, e, g⟩ etag t = checkPreconditions parse ⟨b!"HEAD", a, b, c, d, e, g⟩ etag t := rfl

theorem serveContent_echoes {io : ContentIO ω} (name : Str) (t : Int) (f : Nat) (hm : req.method = b!"GET") :
    Echoes o req hs rest (serveContentStd io o name t f) (serveContentStd io o name t f) := by
  unfold serveContentStd
  refine .call trivial (fun r => ?_)
  cases r <;> try exact .ret
  refine .ask ?_
  dsimp only [condReq, headOf]
  rw [hm, conditions_head]
  split
  · exact .do trivial .ret
  · exact .do trivial (.do trivial .ret)
  · rw [← hm]
    exact sendFile_echoes _ _ _ hm

theorem httpRedirect_echoes {env : RedirEnv} (url : Str) (code : Int) (hm : req.method = b!"GET") :
    Echoes o req hs rest (httpRedirect env true url code) (httpRedirect env true url code) := by
  unfold httpRedirect
  refine .call trivial (fun r => ?_)
  cases r <;> try exact .ret
  refine .askMethod ?_
  rw [hm]
  dsimp only
  simp only [show (b!"GET" = mGET ∨ b!"GET" = mHEAD) = True from eq_true (Or.inl rfl),
    show (b!"HEAD" = mGET ∨ b!"HEAD" = mHEAD) = True from eq_true (Or.inr rfl)]
  refine .call trivial (fun r => ?_)
  rw [if_neg (c := r = .bool false ∧ b!"HEAD" = mGET) (fun h => absurd h.2 (by decide))]
  simp only [if_true]
  by_cases hr : r = .bool false
  · rw [if_pos ⟨hr, rfl⟩]
    exact .bodyless _ _
  · rw [if_neg (fun h => hr h.1)]
    exact .do trivial .ret

theorem localRedirect_echoes (to : Str) : Echoes o req hs rest (localRedirect to) (localRedirect to) := by
  unfold localRedirect
  refine .call rfl (fun r => ?_)
  split
  · exact .do trivial (.do trivial .ret)
  · exact .ret

theorem closeAfter_echoes {fs : FS ω} {f : Nat} {p : Prog ω} (hp : Echoes o req hs rest p p) : Echoes o req hs rest (closeAfter fs f p) (closeAfter fs f p) := by
  unfold closeAfter
  refine .scope hp (fun r => .do trivial ?_)
  cases r
  · exact .ret
  · exact .panic _

theorem dirList_echoes {disk : OsFiles ω} (f : Nat) : Echoes o req hs rest (dirList disk f) (dirList disk f) := by
  unfold dirList
  refine .call trivial (fun r => ?_)
  cases r <;> try exact httpError_echoes _ _
  refine .do trivial (.do trivial ?_)
  rename_i names
  induction names with
  | nil => exact .do trivial .ret
  | cons n ns ih => exact .do trivial ih

theorem sendOpened_echoes {io : ContentIO ω} {disk : OsFiles ω} (f : Nat) (i : FileInfo) (hm : req.method = b!"GET") :
    Echoes o req hs rest (sendOpened io o disk f i) (sendOpened io o disk f i) := by
  unfold sendOpened
  split
  · refine .ask ?_
    dsimp only [headOf]
    rw [hm]
    rw [show checkIfModified io.parseTime ⟨b!"GET", [], [], [], req.header.get b!"If-Modified-Since", [], []⟩ i.modTime =
      checkIfModified io.parseTime ⟨b!"HEAD", [], [], [], req.header.get b!"If-Modified-Since", [], []⟩ i.modTime from rfl]
    split
    · exact .do trivial (.do trivial .ret)
    · exact .do trivial (dirList_echoes f)
  · exact serveContent_echoes _ _ _ hm

theorem serveOpened_echoes {io : ContentIO ω} {disk : OsFiles ω} (dir name path : Str) (f : Nat) (i : FileInfo) (hm : req.method = b!"GET") :
    Echoes o req hs rest (serveOpened io o disk dir name path f i) (serveOpened io o disk dir name path f i) := by
  unfold serveOpened
  split
  · split
    · exact localRedirect_echoes _
    · refine .call trivial (fun r => ?_)
      cases r <;> try exact sendOpened_echoes _ _ hm
      refine closeAfter_echoes (.call trivial (fun r => ?_))
      cases r <;> exact sendOpened_echoes _ _ hm
  · exact sendOpened_echoes _ _ hm

theorem serveFile_echoes {io : ContentIO ω} {disk : OsFiles ω} (name : Str) (hm : req.method = b!"GET") :
    Echoes o req hs rest (serveFileStd io o disk name) (serveFileStd io o disk name) := by
  unfold serveFileStd
  refine .call trivial (fun r => ?_)
  cases r <;> try exact .ret
  dsimp only
  split
  · exact httpError_echoes _ _
  · split
    · exact localRedirect_echoes _
    · refine .call trivial (fun r => ?_)
      cases r <;> first
        | exact .ret
        | exact httpError_echoes _ _
        | skip
      refine closeAfter_echoes (.call trivial (fun r => ?_))
      cases r <;> first
        | exact .ret
        | exact httpError_echoes _ _
        | exact serveOpened_echoes _ _ _ _ _ hm

theorem static_echoes {env : RedirEnv} {io : ContentIO ω} {disk : OsFiles ω} {fs : FS ω} {http : Http ω} {opt : StaticOptions ω} {name : Str}
    (hh : StdHttp env io o disk http) (hm : req.method = b!"GET") : Echoes o req hs (some name) (staticHandler fs http opt) (staticHandler fs http opt) := by
  obtain ⟨h1, h2, h3⟩ := hh
  have hrest : ∀ name f i, Echoes o req hs (some name) (staticFound http opt name f i) (staticFound http opt name f i) := by
    intro name f i
    have hr : Echoes o req hs (some name) (if i.dir = true then .call .reqPath (fun r => match r with | .str path => staticDir http opt name path | _ => .ret)
          else staticFile http opt name f i)
        (if i.dir = true then .call .reqPath (fun r => match r with | .str path => staticDir http opt name path | _ => .ret)
          else staticFile http opt name f i) := by
      split
      · refine .call trivial (fun r => ?_)
        cases r <;> try exact .ret
        dsimp only [staticDir]
        rw [h1, h2]
        split
        · split
          · exact httpRedirect_echoes _ _ hm
          · exact serveFile_echoes _ hm
        · split
          · exact httpRedirect_echoes _ _ hm
          · exact serveFile_echoes _ hm
      · unfold staticFile
        dsimp only
        rw [h3]
        split
        · refine .do trivial (.call trivial (fun r => ?_))
          split
          · exact .do trivial .ret
          · exact serveContent_echoes _ _ _ hm
        · exact serveContent_echoes _ _ _ hm
    unfold staticFound
    dsimp only
    split
    · exact hr
    · refine .call trivial (fun r => ?_)
      cases r <;> first
        | exact .ret
        | exact .do trivial hr
  unfold staticHandler
  refine .askRest ?_
  refine .call trivial (fun r => ?_)
  cases r <;> try exact .do trivial .ret
  refine .scope (.call trivial (fun r => ?_)) (fun r => .do trivial ?_)
  · cases r <;> first
      | exact .do trivial .ret
      | exact hrest _ _ _
  · cases r
    · exact .ret
    · exact .panic _

theorem run_echoes (hall : ∀ p ∈ hs, Echoes o req hs rest p p) (fuel : Nat) : Follows hs rest (run o req fuel) (run o (headOf req) fuel) := by
  induction fuel with
  | zero => intro s t h; exact ⟨rfl, h⟩
  | succ n ih =>
    intro s t h
    rw [run, run, h.handlers.1, h.handlers.2, h.index]
    cases hp : hs[t.ctx.index]? with
    | none => exact ⟨rfl, h⟩
    | some p =>
      dsimp only
      obtain ⟨h1, h2⟩ := hall p (List.mem_of_getElem? hp) _ _ t.ctx.index ih _ _ (h.logged (.start t.ctx.index) (.start t.ctx.index))
      revert h1 h2
      cases exec o req (run o req n) t.ctx.index p (s.log (.start t.ctx.index)) with
      | mk a s' =>
        cases exec o (headOf req) (run o (headOf req) n) t.ctx.index p (t.log (.start t.ctx.index)) with
        | mk b t' =>
          rintro (rfl : a = b) h2
          cases a with
          | ret =>
            dsimp only
            have h3 := (h2.logged (.stop t.ctx.index s'.ctx.written) (.stop t.ctx.index t'.ctx.written)).bumped
            have hw : (s'.log (.stop t.ctx.index s'.ctx.written)).bump.ctx.written = (t'.log (.stop t.ctx.index t'.ctx.written)).bump.ctx.written := h3.written
            rw [hw]
            split
            · exact ⟨rfl, h3⟩
            · exact ih _ _ h3
          | panic v => exact ⟨rfl, h2.logged _ _⟩
          | fuel => exact ⟨rfl, h2⟩

theorem runAll_echoes (hall : ∀ p ∈ hs, Echoes o req hs rest p p) {s t : St ω} (h : HeadAlike hs rest s t) :
    (runAll o req s).1 = (runAll o (headOf req) t).1 ∧ HeadAlike hs rest (runAll o req s).2 (runAll o (headOf req) t).2 := by
  unfold runAll
  rw [h.handlers.1, h.handlers.2]
  exact run_echoes hall _ s t h

end

end Water
