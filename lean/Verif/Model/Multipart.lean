import Verif.Model.FormFile
import Verif.Model.Upload
/- How net/http reads a multipart form (Go 1.15): `mime.ParseMediaType`, `multipart.Reader` and `ReadForm`, reached from
content.go:153, content.go:336 and binding/form.go:59, 73. This replaces the parameters of `FMime`. -/
namespace Water

/-! ### mime/mediatype.go -/

/-- `isTSpecial` (mime/grammar.go) -/
def isTSpecial (c : UInt8) : Bool := b!"()<>@,;:\\\"/[]?=".contains c

/-- `isTokenChar` (mime/grammar.go). All characters above 0x7e are none, so bytes can be looked at. -/
def isTokenChar (c : UInt8) : Bool := 0x20 < c && c < 0x7f && !isTSpecial c

/-- `consumeToken` -/
def consumeToken (v : Str) : Str × Str := (v.takeWhile isTokenChar, v.dropWhile isTokenChar)

/-- The loop of `consumeValue` behind the opening quote: the value and the rest, unless the text has a line break or no
closing quote. -/
def quotedTail : Str → Option (Str × Str)
  | [] => none
  | c :: cs =>
    if c = 34 then some ([], cs)
    else if c = 92 then
      match cs with
      | [] => none
      | x :: xs =>
        if isTSpecial x then (quotedTail xs).map (fun r => (x :: r.1, r.2))
        else (quotedTail (x :: xs)).map (fun r => (c :: r.1, r.2))
    else if c = 13 ∨ c = 10 then none
    else (quotedTail cs).map (fun r => (c :: r.1, r.2))

/-- `consumeValue` -/
def consumeValue (v : Str) : Str × Str :=
  match v with
  | [] => ([], [])
  | c :: cs => if c ≠ 34 then consumeToken v else (quotedTail cs).getD ([], v)

/-- `consumeMediaParam`: the parameter in lower case, its value and the rest; `none` stands for an empty parameter, for which
the rest is the whole text. -/
def consumeMediaParam (v : Str) : Option (Str × Str × Str) :=
  match trimLeft v with
  | [] => none
  | c :: r1 =>
    if c ≠ 59 then none
    else
      let t := consumeToken (trimLeft r1)
      let key := toLower t.1
      if key = [] then none
      else
        match trimLeft t.2 with
        | [] => none
        | e :: r2 =>
          if e ≠ 61 then none
          else
            let r3 := trimLeft r2
            let w := consumeValue r3
            if w.1 = [] ∧ w.2 = r3 then none else some (key, w.1, w.2)

/-- `checkMediaTypeDisposition`: a token, or two with a slash between. -/
def checkMediaType (s : Str) : Bool :=
  let t := consumeToken s
  if t.1 = [] then false
  else if t.2 = [] then true
  else if t.2.head? ≠ some slash then false
  else
    let u := consumeToken t.2.tail
    if u.1 = [] then false else u.2.isEmpty

/-- The parameters of a media type, each once. -/
abbrev MParams := List (Str × Str)

/-- the value of a parameter; empty if there is none -/
def MParams.at (p : MParams) (k : Str) : Str := ((p.find? (fun e => e.1 == k)).map Prod.snd).getD []

/-- What `mime.ParseMediaType` returns: the type, the parameters (nil with an error), and whether there was an error. -/
structure MediaType where
  type : Str
  params : MParams
  fails : Bool
  deriving DecidableEq

/-- What is outside: how parameters whose name has a star are put together (RFC 2231), quoted-printable texts, whether bytes
can be stored in a temporary file, how many bytes of the body the buffer takes, and the memory given to `ParseMultipartForm`
(content.go:324, 336; router.go:323). -/
structure MimeEnv where
  stitch : MParams → MParams → MParams
  quoted : Str → Option Str
  spill : Str → Bool
  taken : Str → Nat
  memory : Nat

/-- The loop of `mime.ParseMediaType` over the parameters; `fuel` is at least the length of the text, and every turn takes
some of it. `ps` are the parameters so far, `cs` those with a star in the name. -/
def mediaParams (E : MimeEnv) (type : Str) : Nat → Str → MParams → MParams → MediaType
  | 0, _, ps, _ => ⟨type, ps, false⟩
  | fuel + 1, v, ps, cs =>
    let v := trimLeft v
    if v = [] then ⟨type, if cs = [] then ps else E.stitch cs ps, false⟩
    else
      match consumeMediaParam v with
      | none => if trimSpace v = [59] then ⟨type, ps, false⟩ else ⟨type, [], true⟩
      | some (key, value, rest) =>
        if key.contains star then
          if (cs.map Prod.fst).contains key then ⟨[], [], true⟩
          else mediaParams E type fuel rest ps (cs ++ [(key, value)])
        else if (ps.map Prod.fst).contains key then ⟨[], [], true⟩
        else mediaParams E type fuel rest (ps ++ [(key, value)]) cs

/-- `mime.ParseMediaType` -/
def parseMediaType (E : MimeEnv) (v : Str) : MediaType :=
  let i := (indexByte v 59).getD v.length
  let type := trimSpace (toLower (v.take i))
  if checkMediaType type then mediaParams E type (v.length + 1) (v.drop i) [] [] else ⟨[], [], true⟩

/-! ### mime/multipart/multipart.go -/

/-- `skipLWSPChar` -/
def skipLWSP (s : Str) : Str := s.dropWhile (fun c => c == 32 || c == 9)

/-- What `bufio.Reader.ReadSlice('\n')` returns with a buffer of 4096 bytes: a line with its end and what is behind it, all the
rest without a line end, or that the buffer is full. -/
inductive SliceOut where
  | line (text rest : Str)
  | eof (text : Str)
  | full
  deriving DecidableEq

/-- `peekBufferSize` -/
def peekBufferSize : Nat := 4096

/-- `ReadSlice('\n')` -/
def readSlice (s : Str) : SliceOut :=
  match indexByte s 10 with
  | some i => if i < peekBufferSize then .line (s.take (i + 1)) (s.drop (i + 1)) else .full
  | none => if peekBufferSize ≤ s.length then .full else .eof s

/-- `isFinalBoundary` -/
def isFinalBoundary (boundary nl line : Str) : Bool :=
  let p := b!"--" ++ boundary ++ b!"--"
  hasPrefix line p && (let rest := skipLWSP (line.drop p.length); rest.isEmpty || rest == nl)

/-- `isBoundaryDelimiterLine`: the answer, and the line end from now on. -/
def isDelimiterLine (boundary nl : Str) (first : Bool) (line : Str) : Bool × Str :=
  let p := b!"--" ++ boundary
  if hasPrefix line p then
    let rest := skipLWSP (line.drop p.length)
    let nl := if first && rest == [10] then nl.tail else nl
    (rest == nl, nl)
  else (false, nl)

/-- What comes next in a body: the end, an error, or a part (the line end from now on, and the text of the part). -/
inductive Next where
  | fin
  | err
  | part (nl rest : Str)
  deriving DecidableEq

/-- The loop of `nextPart` up to a boundary line; `first`: no part read yet; `expect`: the last line was empty. Every turn takes
a line, so `fuel` above the length of the text is enough. -/
def nextBoundary (boundary : Str) : Nat → Str → Bool → Bool → Str → Next
  | 0, _, _, _, _ => .err
  | fuel + 1, nl, first, expect, s =>
    match readSlice s with
    | .full => .err
    | .eof line => if isFinalBoundary boundary nl line then .fin else .err
    | .line line rest =>
      match isDelimiterLine boundary nl first line with
      | (true, nl) => .part nl rest
      | (false, nl) =>
        if isFinalBoundary boundary nl line then .fin
        else if expect then .err
        else if first then nextBoundary boundary fuel nl first expect rest
        else if line == nl then nextBoundary boundary fuel nl first true rest
        else .err

/-- `matchAfterPrefix`, when all of the text is there -/
def afterBoundary : Str → Bool
  | [] => true
  | c :: _ => c == 32 || c == 9 || c == 13 || c == 10 || c == 45

/-- `scanUntilBoundary` over the text of a part behind its beginning, `skip` bytes of which are passed over: the data, and the
rest, which begins with the line end before a boundary; `none`: there is no boundary (`io.ErrUnexpectedEOF`). The code looks at
what is in the buffer so far and waits if that may be the beginning of a boundary; here all of the text is there.
Simplified: a boundary longer than the buffer. -/
def scanData (nlDash : Str) : Nat → Str → Option (Str × Str)
  | _, [] => none
  | skip + 1, c :: cs => (scanData nlDash skip cs).map (fun r => (c :: r.1, r.2))
  | 0, c :: cs =>
    if nlDash.isPrefixOf (c :: cs) then
      if afterBoundary ((c :: cs).drop nlDash.length) then some ([], c :: cs)
      else (scanData nlDash (nlDash.length - 1) cs).map (fun r => (c :: r.1, r.2))
    else (scanData nlDash 0 cs).map (fun r => (c :: r.1, r.2))

/-- All of a part (`partReader`, read to its end): at the beginning a boundary needs no line end before it. -/
def partData (boundary nl s : Str) : Option (Str × Str) :=
  let dash := b!"--" ++ boundary
  if hasPrefix s dash then
    if afterBoundary (s.drop dash.length) then some ([], s) else scanData (nl ++ dash) dash.length s
  else scanData (nl ++ dash) 0 s

/-! ### net/textproto -/

/-- spaces and tabs -/
def blankB (c : UInt8) : Bool := c == 32 || c == 9

/-- `trim` (net/textproto): without spaces and tabs on both sides -/
def trimBlank (s : Str) : Str := ((s.dropWhile blankB).reverse.dropWhile blankB).reverse

/-- `readLineSlice`: a line without its end, and the rest; `none` at the end of the text. -/
def readLine (s : Str) : Option (Str × Str) :=
  match indexByte s 10 with
  | some i => some (trimSuffix (s.take i) [13], s.drop (i + 1))
  | none => if s = [] then none else some (s, [])

/-- The continuation lines of `readContinuedLineSlice`: those that begin with a space or tab. -/
def continued : Nat → Str → Str → Str × Str
  | 0, buf, s => (buf, s)
  | fuel + 1, buf, s =>
    if (s.head?.map blankB).getD false then
      match readLine (s.dropWhile blankB) with
      | none => (buf, [])
      | some (line, rest) => continued fuel (buf ++ [32] ++ trimBlank line) rest
    else (buf, s)

/-- The end of `ReadMIMEHeader`: a header and what is behind it, an error, or the end of the text (`io.EOF`). -/
inductive HeadOut where
  | ok (h : Header) (rest : Str)
  | err
  | eof

/-- The loop of `ReadMIMEHeader`; every turn takes a line. -/
def mimeHeaderLoop : Nat → Header → Str → HeadOut
  | 0, _, _ => .err
  | fuel + 1, h, s =>
    match readLine s with
    | none => .eof
    | some (line, rest) =>
      if line = [] then .ok h rest
      else if !line.contains colon then .err
      else
        let kv := continued rest.length (trimBlank line) rest
        let i := (indexByte kv.1 colon).getD 0
        let key := kv.1.take i
        if key = [] then mimeHeaderLoop fuel h kv.2
        else mimeHeaderLoop fuel (h.add key ((kv.1.drop (i + 1)).dropWhile blankB)) kv.2

/-- `ReadMIMEHeader`: the first line must not begin with a space or tab. -/
def readMIMEHeader (s : Str) : HeadOut :=
  if (s.head?.map blankB).getD false then .err else mimeHeaderLoop (s.length + 1) Map.empty s

/-! ### mime/multipart/formdata.go -/

/-- A part with all of its data. -/
structure RawPart where
  header : Header
  data : Str

/-- `NextPart` until the end, with the data of each part; `none` is an error. A text that ends within the header of a part
counts as the end: `populateHeaders` returns `io.EOF`, and `nextPart` hands it on. -/
def rawParts (boundary : Str) : Nat → Str → Bool → Str → Option (List RawPart)
  | 0, _, _, _ => none
  | fuel + 1, nl, first, s =>
    match nextBoundary boundary (s.length + 1) nl first false s with
    | .fin => some []
    | .err => none
    | .part nl rest =>
      match readMIMEHeader rest with
      | .err => none
      | .eof => some []
      | .ok h rest =>
        match partData boundary nl rest with
        | none => none
        | some (data, rest) => (rawParts boundary fuel nl false rest).map (⟨h, data⟩ :: ·)

/-- letters in lower case, for `strings.EqualFold` with a text without k and s -/
def asciiLower (s : Str) : Str := s.map (fun c => if 65 ≤ c && c ≤ 90 then c + 32 else c)

/-- The bytes a part gives (`newPart`): quoted-printable texts are decoded. -/
def RawPart.content (E : MimeEnv) (p : RawPart) : Option Str :=
  if asciiLower (p.header.get b!"Content-Transfer-Encoding") = b!"quoted-printable" then E.quoted p.data else some p.data

/-- `parseContentDisposition` -/
def RawPart.disposition (E : MimeEnv) (p : RawPart) : MediaType := parseMediaType E (p.header.get b!"Content-Disposition")

/-- `FormName` -/
def RawPart.formName (E : MimeEnv) (p : RawPart) : Str :=
  let d := p.disposition E
  if d.type ≠ b!"form-data" then [] else d.params.at b!"name"

/-- `FileName` -/
def RawPart.fileName (E : MimeEnv) (p : RawPart) : Str := (p.disposition E).params.at b!"filename"

/-- A file of the form (`multipart.FileHeader`): `spilled` if its bytes are in a temporary file. -/
structure FileGot where
  filename : Str
  header : Header
  content : Str
  spilled : Bool

/-- What `ReadForm` has gathered: the values, the names with the numbers of their files, the files, and the memory left for
files and for values. -/
structure Gathered where
  values : Form
  names : FormFiles
  files : List FileGot
  mem : Nat
  left : Int

/-- `File[name] = append(File[name], fh)` -/
def FormFiles.append : FormFiles → Str → Nat → FormFiles
  | [], k, n => [(k, [n])]
  | (k', ns) :: f, k, n => if k' = k then (k', ns ++ [n]) :: f else (k', ns) :: FormFiles.append f k n

/-- One turn of the loop of `ReadForm`. A file that fits is taken whatever is left for values, so `left` can become negative, and then
no further value is taken, not even an empty one. -/
def gather (E : MimeEnv) (g : Gathered) (p : RawPart) : Option Gathered :=
  let name := p.formName E
  if name = [] then some g
  else
    match p.content E with
    | none => none
    | some data =>
      let filename := p.fileName E
      if filename = [] then
        if (data.length : Int) ≤ g.left then some { g with values := g.values.append name [data], left := g.left - data.length } else none
      else if data.length ≤ g.mem then
        some { g with
          names := g.names.append name g.files.length
          files := g.files ++ [⟨filename, p.header, data, false⟩]
          mem := g.mem - data.length
          left := g.left - data.length }
      else if E.spill data then
        some { g with
          names := g.names.append name g.files.length
          files := g.files ++ [⟨filename, p.header, data, true⟩] }
      else none

/-- `ReadForm` -/
def readForm (E : MimeEnv) (boundary body : Str) : Option Gathered :=
  if boundary = [] then none
  else
    match rawParts boundary (body.length + 1) b!"\r\n" true body with
    | none => none
    | some ps => ps.foldlM (gather E) ⟨[], [], [], E.memory, E.memory + 10 * 2 ^ 20⟩

/-- The second half of `multipartReader` (net/http) with `ReadForm`: the boundary must be given. -/
def readBody (E : MimeEnv) (ct body : Str) : Option Gathered :=
  let mt := parseMediaType E ct
  if (mt.params.map Prod.fst).contains b!"boundary" then readForm E (mt.params.at b!"boundary") body else none

/-- The files of a form, by their numbers. -/
def receivedFiles (E : MimeEnv) (ct body : Str) : List FileGot := ((readBody E ct body).map (·.files)).getD []

/-- Both for `FMime` (and so for `Forms`). -/
def stdMime (E : MimeEnv) : FMime where
  mediaType ct := let mt := parseMediaType E ct; (mt.type, mt.fails)
  parts ct body := ((readBody E ct body).map (fun g => (g.values, g.names)), E.taken body)

/-- What `FileHeader.Open` reads: the bytes in memory or the temporary file, which has this name. -/
def FileGot.upload (path : Str) (f : FileGot) : Upload := if f.spilled then .temp path else .memory f.content

end Water
