import Verif.Model.Url
import Verif.Model.Binding
/- `FormFile` (content.go:152-154) beside the accessors of query.go on one request: what net/http (Go 1.15) keeps in the request
between the calls. -/
namespace Water

/-- What is taken from outside: as in `Mime`, but the parts of a multipart body also have files (each given by a number). -/
structure FMime where
  mediaType : Str → Str × Bool
  parts : Str → Str → Option (Form × FormFiles) × Nat

/-- without the files -/
def FMime.toMime (m : FMime) : Mime := ⟨m.mediaType, fun ct b => ((m.parts ct b).1.map Prod.fst, (m.parts ct b).2)⟩

/-- `Request.Form`, `Request.MultipartForm`, what is left of the body, and `ctx.parsedParams`. (`Request.PostForm` is nil exactly
as long as `Form` is.) -/
structure Forms where
  form : Option Form
  multi : Option (Form × FormFiles)
  body : Option Str
  parsed : Bool

/-- a request at the start -/
def Forms.fresh (body : Option Str) : Forms := ⟨none, none, body, false⟩

/-- `Request.ParseForm`; the flag is an error. -/
def Forms.parseForm (m : FMime) (req : Req) (s : Forms) : Bool × Forms :=
  match s.form with
  | some _ => (false, s)
  | none =>
    let p := parsePlain m.toMime req s.body
    (p.fails, { s with form := some p.form, body := s.body.map (·.drop p.read) })

/-- the second half of `Request.ParseMultipartForm`, with `multipartReader` and `ReadForm` -/
def Forms.readParts (m : FMime) (req : Req) (s : Forms) : Bool × Forms :=
  match s.multi with
  | some _ => (false, s)
  | none =>
    let ct := req.header.get kContentType
    if ct = [] ∨ (m.mediaType ct).2 = true ∨ (m.mediaType ct).1 ≠ b!"multipart/form-data" then (true, s)
    else
      match m.parts ct (s.body.getD []) with
      | (none, n) => (true, { s with body := s.body.map (·.drop n) })
      | (some (vs, fs), n) =>
        (false, { s with form := some (copyValues (s.form.getD []) vs), multi := some (vs, fs), body := s.body.map (·.drop n) })

/-- `Request.ParseMultipartForm` -/
def Forms.parseMulti (m : FMime) (req : Req) (s : Forms) : Bool × Forms :=
  match s.parseForm m req with
  | (true, s) => (true, s)
  | (false, s) => s.readParts m req

/-- `ParseFormOrMultipartForm` (content.go:328-344); the flag is a panic. -/
def Forms.prepare (m : FMime) (req : Req) (s : Forms) : Bool × Forms :=
  if s.parsed then (false, s)
  else
    let s := { s with parsed := true }
    if wantsMultipart req then s.parseMulti m req else s.parseForm m req

/-- `Query` (query.go:22-30); `none` is a panic. -/
def Forms.query (m : FMime) (req : Req) (name : Str) (s : Forms) : Option Str × Forms :=
  match s.prepare m req with
  | (true, s) => (none, s)
  | (false, s) => (some ((s.form.getD []).query name), s)

/-- Errors of `FormFile`: the form cannot be read; `http.ErrMissingFile`. -/
inductive FileErr where
  | form
  | missing
  deriving DecidableEq, Repr

/-- `Request.FormFile`, up to opening the file (`Upload`): the header of the file. -/
def Forms.formFile (m : FMime) (req : Req) (name : Str) (s : Forms) : Except FileErr Nat × Forms :=
  let r : Bool × Forms := match s.multi with
    | some _ => (false, s)
    | none => s.parseMulti m req
  match r with
  | (true, s) => (.error .form, s)
  | (false, s) =>
    match s.multi with
    | none => (.error .missing, s)
    | some (_, fs) =>
      match fs.at name with
      | some (x :: _) => (.ok x, s)
      | _ => (.error .missing, s)

/-- The calls a handler can make about its form. -/
inductive FOp where
  | prepare
  | query (name : Str)
  | file (name : Str)
  deriving DecidableEq

/-- a call -/
def Forms.step (m : FMime) (req : Req) (s : Forms) : FOp → Forms
  | .prepare => (s.prepare m req).2
  | .query name => (s.query m req name).2
  | .file name => (s.formFile m req name).2

/-- the calls made so far -/
def Forms.after (m : FMime) (req : Req) (s : Forms) (ops : List FOp) : Forms := ops.foldl (Forms.step m req) s

end Water
