import Verif.Model.Values
import Verif.Model.Util
/-
What `ctx.Request.ParseForm` and `ParseMultipartForm` (called at content.go:336, 340) do: the code of net/url and net/http
of Go 1.15 (go.mod:3) from the raw query and the body to `Request.Form`. `mime.ParseMediaType` and the reading of the parts
of a multipart body are parameters.
-/
namespace Water

/-- `ishex` (net/url). -/
def ishex (c : UInt8) : Bool := (48 ≤ c && c ≤ 57) || (97 ≤ c && c ≤ 102) || (65 ≤ c && c ≤ 70)

/-- `unhex` (net/url). -/
def unhex (c : UInt8) : UInt8 :=
  if 48 ≤ c ∧ c ≤ 57 then c - 48
  else if 97 ≤ c ∧ c ≤ 102 then c - 97 + 10
  else if 65 ≤ c ∧ c ≤ 70 then c - 65 + 10
  else 0

/-- The first loop of `unescape` (net/url): whether every percent sign is followed by two hexadecimal digits. -/
def escapesOk : Str → Bool
  | [] => true
  | c :: s =>
    if c = 37 then
      match s with
      | a :: b :: s => ishex a && ishex b && escapesOk s
      | _ => false
    else escapesOk s

/-- The second loop of `unescape` (net/url) in the mode `encodeQueryComponent`. -/
def decodeQuery : Str → Str
  | [] => []
  | c :: s =>
    if c = 37 then
      match s with
      | a :: b :: s => (unhex a <<< 4 ||| unhex b) :: decodeQuery s
      | _ => []
    else (if c = 43 then 32 else c) :: decodeQuery s

/-- `url.QueryUnescape`; `none` is an error. -/
def queryUnescape (s : Str) : Option Str := if escapesOk s then some (decodeQuery s) else none

/-- whether `url.QueryEscape` keeps the byte: letters, digits and `-_.~` -/
def keptByQuery (c : UInt8) : Bool :=
  (97 ≤ c && c ≤ 122) || (65 ≤ c && c ≤ 90) || (48 ≤ c && c ≤ 57) || c == 45 || c == 95 || c == 46 || c == 126

/-- `url.QueryEscape`: what a client written in Go sends. -/
def queryEscape (s : Str) : Str :=
  s.flatMap (fun c => if c = 32 then [43] else if keptByQuery c then [c]
    else [37, upperHex (c.toNat / 16), upperHex (c.toNat % 16)])

/-- `Form[k] = append(Form[k], vs...)` -/
def Form.append : Form → Str → List Str → Form
  | [], k, vs => [(k, vs)]
  | (k', vs') :: f, k, vs => if k' = k then (k', vs' ++ vs) :: f else (k', vs') :: Form.append f k vs

/-- The pieces between the separators `&` and `;`. -/
def cuts : Str → List Str
  | [] => [[]]
  | c :: s =>
    if c = 38 ∨ c = 59 then [] :: cuts s
    else match cuts s with
      | [] => [[c]]
      | p :: ps => (c :: p) :: ps

/-- One turn of the loop of `parseQuery` (net/url); the flag tells whether an error was recorded. -/
def readPiece (acc : Form × Bool) (piece : Str) : Form × Bool :=
  if piece = [] then acc
  else
    let kv := match indexByte piece 61 with
      | some i => (piece.take i, piece.drop (i + 1))
      | none => (piece, [])
    match queryUnescape kv.1 with
    | none => (acc.1, true)
    | some k =>
      match queryUnescape kv.2 with
      | none => (acc.1, true)
      | some v => (acc.1.append k [v], acc.2)

/-- `url.ParseQuery`. The loop of the code cuts off one piece in each turn. -/
def parseQuery (q : Str) : Form × Bool := (cuts q).foldl readPiece ([], false)

/-- `copyValues` (net/http), for one order of the entries. -/
def copyValues (dst src : Form) : Form := src.foldl (fun f e => f.append e.1 e.2) dst

/-- What is taken from outside: `mime.ParseMediaType` (the media type, and whether there was an error) and the reading of
the parts of a multipart body given the Content-Type (the values, or an error, and how many bytes were read). -/
structure Mime where
  mediaType : Str → Str × Bool
  parts : Str → Str → Option Form × Nat

/-- `maxFormSize` (net/http): 10 MiB. -/
def maxFormSize : Nat := 10 * 2 ^ 20

/-- `parsePostForm` (net/http); the result is empty if nil. -/
def parsePostForm (m : Mime) (req : Req) (body : Option Str) : Parsed :=
  match body with
  | none => ⟨[], false, 0⟩
  | some d =>
    let ct := req.header.get kContentType
    let mt := m.mediaType (if ct = [] then b!"application/octet-stream" else ct)
    if mt.1 = b!"application/x-www-form-urlencoded" then
      if d.length > maxFormSize then ⟨[], true, maxFormSize + 1⟩
      else
        let r := parseQuery d
        ⟨r.1, mt.2 || r.2, d.length⟩
    else ⟨[], mt.2, 0⟩

/-- `Request.ParseForm` (net/http), called at content.go:340. -/
def parsePlain (m : Mime) (req : Req) (body : Option Str) : Parsed :=
  let p : Parsed := if req.method = mPOST ∨ req.method = mPUT ∨ req.method = mPATCH then parsePostForm m req body
    else ⟨[], false, 0⟩
  let q := parseQuery req.rawQuery
  ⟨copyValues p.form q.1, p.fails || q.2, p.read⟩

/-- `Request.ParseMultipartForm` (net/http), called at content.go:336, with `multipartReader`. -/
def parseMulti (m : Mime) (req : Req) (body : Option Str) : Parsed :=
  let p := parsePlain m req body
  if p.fails then p
  else
    let ct := req.header.get kContentType
    if ct = [] ∨ (m.mediaType ct).2 = true ∨ (m.mediaType ct).1 ≠ b!"multipart/form-data" then { p with fails := true }
    else
      match m.parts ct ((body.getD []).drop p.read) with
      | (none, n) => { p with fails := true, read := p.read + n }
      | (some vs, n) => ⟨copyValues p.form vs, false, p.read + n⟩

/-- Both, as the context calls them. -/
def parseRequest (m : Mime) (req : Req) (multi : Bool) (body : Option Str) : Parsed :=
  if multi then parseMulti m req body else parsePlain m req body

end Water
