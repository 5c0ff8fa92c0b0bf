import Verif.Model.Files
import Verif.Model.Strconv
import Verif.Model.Util
/-
`http.ServeContent` as the static handler and `ctx.Download` call it (m_static.go:108, content.go:226): go 1.15, `net/http/fs.go`. This models
the standard library. Files do not change while they are sent, and reading and seeking do not fail.
-/
namespace Water
variable {ω : Type}

/-- What `http.ServeContent` takes from outside: `modtime.UTC().Format(http.TimeFormat)` and `http.ParseTime` (times in nanoseconds since
1970), `mime.TypeByExtension(filepath.Ext(name))`, what is in an open file, and how several ranges are sent: the Content-Type with its
boundary, and the body. -/
structure ContentIO (ω : Type) where
  formatTime : Int → Str
  parseTime : Str → Option Int
  typeOf : Str → Str
  read : Nat → ω → Str
  parts : Str → Str → List (Nat × Nat) → Str × Str

/-- `isZeroTime`: the zero `time.Time`, or the second 0 of 1970. -/
def isZeroTime (t : Int) : Bool := t == -62135596800000000000 || t == 0

/-- `time.Time.Truncate(time.Second)` -/
def truncSecond (t : Int) : Int := t / 1000000000 * 1000000000

/-- white space of `textproto.TrimString` -/
def asciiSpace (c : UInt8) : Bool := c == 32 || c == 9 || c == 10 || c == 13

/-- `textproto.TrimString` -/
def trimString (s : Str) : Str := ((s.dropWhile asciiSpace).reverse.dropWhile asciiSpace).reverse

/-- The loop of `scanETag` behind the opening quote: the text up to the closing quote and what follows it. -/
def scanQuoted : Str → Option (Str × Str)
  | [] => none
  | c :: cs =>
    if c = 34 then some ([34], cs)
    else if c = 33 ∨ (35 ≤ c ∧ c ≤ 126) ∨ 128 ≤ c then (scanQuoted cs).map (fun r => (c :: r.1, r.2))
    else none

/-- `scanETag`: the entity tag at the beginning and the rest; `none` is `"", ""`. -/
def scanETag (s : Str) : Option (Str × Str) :=
  let s := trimString s
  let (w, t) := if hasPrefix s b!"W/" then (b!"W/", s.drop 2) else ([], s)
  match t with
  | [] => none
  | [_] => none
  | c :: t => if c ≠ 34 then none else (scanQuoted t).map (fun r => (w ++ 34 :: r.1, r.2))

/-- `etagStrongMatch` -/
def etagStrongMatch (a b : Str) : Bool := a == b && a != [] && a.head? == some 34

/-- `etagWeakMatch` -/
def etagWeakMatch (a b : Str) : Bool := trimPrefix a b!"W/" == trimPrefix b b!"W/"

/-- The loop of `checkIfMatch` and `checkIfNoneMatch`: whether one of the listed tags matches. `fuel` bounds the number of steps. -/
def anyETag (hit : Str → Bool) : Nat → Str → Bool
  | 0, _ => false
  | fuel + 1, s =>
    match trimString s with
    | [] => false
    | c :: t =>
      if c = 44 then anyETag hit fuel t
      else if c = 42 then true
      else
        match scanETag (c :: t) with
        | none => false
        | some (tag, rest) => if hit tag then true else anyETag hit fuel rest

/-- what `r.Header` says about conditions and ranges -/
structure CondReq where
  method : Str
  ifMatch : Str
  ifUnmodified : Str
  ifNoneMatch : Str
  ifModified : Str
  range : Str
  ifRange : Str

/-- The conditions of a request. -/
def condReq (r : Req) : CondReq where
  method := r.method
  ifMatch := r.header.get b!"If-Match"
  ifUnmodified := r.header.get b!"If-Unmodified-Since"
  ifNoneMatch := r.header.get b!"If-None-Match"
  ifModified := r.header.get b!"If-Modified-Since"
  range := r.header.get b!"Range"
  ifRange := r.header.get b!"If-Range"

/-- `condResult`: `none` is `condNone`. -/
abbrev Cond := Option Bool

/-- `checkIfMatch`; `etag` is `w.Header().get("Etag")`. -/
def checkIfMatch (r : CondReq) (etag : Str) : Cond :=
  if r.ifMatch = [] then none else some (anyETag (fun t => etagStrongMatch t etag) (r.ifMatch.length + 1) r.ifMatch)

/-- `checkIfUnmodifiedSince` -/
def checkIfUnmodified (parse : Str → Option Int) (r : CondReq) (modTime : Int) : Cond :=
  if r.ifUnmodified = [] ∨ isZeroTime modTime then none
  else (parse r.ifUnmodified).map (fun t => decide (truncSecond modTime ≤ t))

/-- `checkIfNoneMatch` -/
def checkIfNoneMatch (r : CondReq) (etag : Str) : Cond :=
  if r.ifNoneMatch = [] then none else some (!anyETag (fun t => etagWeakMatch t etag) (r.ifNoneMatch.length + 1) r.ifNoneMatch)

/-- `checkIfModifiedSince` -/
def checkIfModified (parse : Str → Option Int) (r : CondReq) (modTime : Int) : Cond :=
  if r.method ≠ mGET ∧ r.method ≠ mHEAD then none
  else if r.ifModified = [] ∨ isZeroTime modTime then none
  else (parse r.ifModified).map (fun t => !decide (truncSecond modTime ≤ t))

/-- `checkIfRange` -/
def checkIfRange (parse : Str → Option Int) (r : CondReq) (etag : Str) (modTime : Int) : Cond :=
  if r.method ≠ mGET ∧ r.method ≠ mHEAD then none
  else if r.ifRange = [] then none
  else
    match scanETag r.ifRange with
    | some (tag, _) => some (etagStrongMatch tag etag)
    | none =>
      if modTime = -62135596800000000000 then some false
      else
        match parse r.ifRange with
        | none => some false
        | some t => some (decide (unixOf t = unixOf modTime))

/-- What `checkPreconditions` decides: 412, 304, or to go on with a Range header. -/
inductive Verdict where
  | failed
  | notModified
  | go (range : Str)
  deriving DecidableEq, Repr

/-- `checkPreconditions` -/
def checkPreconditions (parse : Str → Option Int) (r : CondReq) (etag : Str) (modTime : Int) : Verdict :=
  let ch := match checkIfMatch r etag with | none => checkIfUnmodified parse r modTime | c => c
  if ch = some false then .failed
  else
    let go : Verdict := .go (if r.range ≠ [] ∧ checkIfRange parse r etag modTime = some false then [] else r.range)
    match checkIfNoneMatch r etag with
    | some false => if r.method = mGET ∨ r.method = mHEAD then .notModified else .failed
    | none => if checkIfModified parse r modTime = some false then .notModified else go
    | some true => go

/-- What `parseRange` returns: ranges (start and length; no ranges mean the whole content), or one of its two errors. -/
inductive Ranges where
  | ok (rs : List (Nat × Nat))
  | invalid
  | noOverlap
  deriving DecidableEq, Repr

/-- One range of `parseRange`: `none` is an error, `some none` one that begins behind the end. A number of bytes from the end that is
negative is an error here; go 1.15 takes it for a range behind the end. -/
def parseRange1 (ra : Str) (size : Nat) : Option (Option (Nat × Nat)) :=
  match indexByte ra 45 with
  | none => none
  | some i =>
    let start := trimString (ra.take i)
    let fin := trimString (ra.drop (i + 1))
    if start = [] then
      match parseInt 64 fin with
      | (_, some _) => none
      | (n, none) => if n < 0 then none else some (some (size - min n.toNat size, min n.toNat size))
    else
      match parseInt 64 start with
      | (_, some _) => none
      | (n, none) =>
        if n < 0 then none
        else if n.toNat ≥ size then some none
        else if fin = [] then some (some (n.toNat, size - n.toNat))
        else
          match parseInt 64 fin with
          | (_, some _) => none
          | (m, none) => if m < n then none else some (some (n.toNat, min m.toNat (size - 1) - n.toNat + 1))

/-- The loop of `parseRange`. -/
def parseRanges (size : Nat) : List Str → Option (List (Nat × Nat) × Bool)
  | [] => some ([], false)
  | ra :: ras =>
    let ra := trimString ra
    if ra = [] then parseRanges size ras
    else
      match parseRange1 ra size with
      | none => none
      | some none => (parseRanges size ras).map (fun r => (r.1, true))
      | some (some x) => (parseRanges size ras).map (fun r => (x :: r.1, r.2))

/-- `parseRange` -/
def parseRange (s : Str) (size : Nat) : Ranges :=
  if s = [] then .ok []
  else if hasPrefix s b!"bytes=" = false then .invalid
  else
    match parseRanges size (splitB 44 (s.drop 6)) with
    | none => .invalid
    | some ([], true) => .noOverlap
    | some (rs, _) => .ok rs

/-- `http.Error` -/
def Prog.httpError (code : Int) (msg : Str) : Prog ω :=
  .do (.setHeader b!"Content-Type" b!"text/plain; charset=utf-8") <|
  .do (.setHeader b!"X-Content-Type-Options" b!"nosniff") <|
  .do (.rawWriteHeader code) <| .do (.rawWrite (msg ++ [10])) .ret

/-- `httpRange.contentRange` -/
def contentRange (ra : Nat × Nat) (size : Nat) : Str :=
  b!"bytes " ++ itoaNat ra.1 ++ b!"-" ++ itoa ((ra.1 : Int) + ra.2 - 1) ++ b!"/" ++ itoaNat size

/-- The end of `serveContent`: the status, and for other methods than HEAD the bytes. -/
def sendContent (method : Str) (code : Int) (encoded : Bool) (data : Str) : Prog ω :=
  .do (.setHeader b!"Accept-Ranges" b!"bytes") <|
  let rest : Prog ω := .do (.rawWriteHeader code) (if method ≠ mHEAD ∧ data ≠ [] then .do (.rawWrite data) .ret else .ret)
  if encoded then rest else .do (.setHeader b!"Content-Length" (itoaNat data.length)) rest

/-- `setLastModified` -/
def setLastModified (io : ContentIO ω) (modTime : Int) (h : Header) : Header :=
  if isZeroTime modTime then h else h.put b!"Last-Modified" (io.formatTime modTime)

/-- `delete(h, k)` -/
def Header.drop (h : Header) (k : Str) : Header := fun x => if x = k then none else h x

/-- `writeNotModified`: what it deletes -/
def notModifiedHeader (h : Header) : Header :=
  let h := (h.drop b!"Content-Type").drop b!"Content-Length"
  if h.get b!"Etag" ≠ [] then h.drop b!"Last-Modified" else h

/-- The Content-Type of `serveContent`: the one that is set, or else from the name, or else from the content. -/
def typedHeader (io : ContentIO ω) (o : Oracle) (name data : Str) (h : Header) : Header :=
  match h b!"Content-Type" with
  | some _ => h
  | none => h.put b!"Content-Type" (if io.typeOf name ≠ [] then io.typeOf name else o.detect (data.take 512))

/-- what `serveContent` does once the Content-Type is set: `encoded` is whether a Content-Encoding is set, `ctype` the Content-Type -/
def sendRanges (io : ContentIO ω) (method range ctype : Str) (encoded : Bool) (data : Str) : Prog ω :=
  match parseRange range data.length with
  | .invalid => .httpError 416 b!"invalid range"
  | .noOverlap =>
    .do (.setHeader b!"Content-Range" (b!"bytes */" ++ itoaNat data.length)) (.httpError 416 b!"invalid range: failed to overlap")
  | .ok rs =>
    let rs := if (rs.map (·.2)).sum > data.length then [] else rs
    match rs with
    | [] => sendContent method 200 encoded data
    | [ra] =>
      .do (.setHeader b!"Content-Range" (contentRange ra data.length)) (sendContent method 206 encoded ((data.drop ra.1).take ra.2))
    | rs => .do (.setHeader b!"Content-Type" (io.parts ctype data rs).1) (sendContent method 206 encoded (io.parts ctype data rs).2)

/-- The part of `serveContent` that sends something of the file. -/
def sendFile (io : ContentIO ω) (o : Oracle) (name : Str) (f : Nat) (method range : Str) : Prog ω :=
  .call (.world (fun w => (w, .str (io.read f w)))) (fun r => match r with
    | .str data =>
      .call (.header (fun h =>
        let h := typedHeader io o name data h
        (h, .strs [h.get b!"Content-Type", h.get b!"Content-Encoding"]))) (fun r => match r with
        | .strs [ctype, enc] => sendRanges io method range ctype (enc != []) data
        | _ => .ret)
    | _ => .ret)

/-- `http.ServeContent(w, req, name, modtime, content)` -/
def serveContentStd (io : ContentIO ω) (o : Oracle) (name : Str) (modTime : Int) (f : Nat) : Prog ω :=
  .call (.header (fun h =>
    let h := setLastModified io modTime h
    (h, .str (h.get b!"Etag")))) (fun r => match r with
    | .str etag =>
      .call (.reqTexts (fun r =>
        let c := condReq r
        [c.method, c.ifMatch, c.ifUnmodified, c.ifNoneMatch, c.ifModified, c.range, c.ifRange])) (fun r => match r with
        | .strs [m, a, b, c, d, e, g] =>
          match checkPreconditions io.parseTime ⟨m, a, b, c, d, e, g⟩ etag modTime with
          | .failed => .do (.rawWriteHeader 412) .ret
          | .notModified => .do (.header (fun h => (notModifiedHeader h, .unit))) (.do (.rawWriteHeader 304) .ret)
          | .go range => sendFile io o name f m range
        | _ => .ret)
    | _ => .ret)

/-- Code of net/http with `ctx` for its writer instead of `ctx.ResponseWriter` (content.go:195, 226, 238): statuses and bodies go through
`ctx.WriteHeader` and `ctx.Write` (context.go:71-90), the header map is the same. -/
def Prog.viaCtx : Prog ω → Prog ω
  | .ret => .ret
  | .panic v => .panic v
  | .next k => .next k.viaCtx
  | .call c k =>
    .call (match c with | .rawWriteHeader code => .writeHeader code | .rawWrite d => .write d | c => c) (fun r => (k r).viaCtx)
  | .scope p fin => .scope p.viaCtx (fun r => (fin r).viaCtx)

/-- `ctx.Attachment(name, modtime, content, inline...)` (content.go:231-239), where the open file `f` is the content. -/
def attachment (io : ContentIO ω) (o : Oracle) (name : Str) (modTime : Int) (f : Nat) (inline : List Bool) : Prog ω :=
  .do (.setHeader b!"Content-Disposition" (dispositionFor inline name)) (serveContentStd io o name modTime f).viaCtx

end Water
