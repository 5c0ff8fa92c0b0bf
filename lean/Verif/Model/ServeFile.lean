import Verif.Model.Content
import Verif.Model.Redirect
import Verif.Model.Util
/-
`http.ServeFile` as `ctx.File` and `ctx.ServeFile` call it (content.go:148-150, 194-196; m_static.go:88, 136): go 1.15, `net/http/fs.go`, on
Unix. This models the standard library. What is said of files in Model/Content holds here as well.
-/
namespace Water
variable {ω : Type}

/-- `isSlashRune` -/
def isSlash (c : UInt8) : Bool := c == 47 || c == 92

/-- `strings.FieldsFunc(v, isSlashRune)`; `cur` is the field begun, if it is not empty. -/
def slashFields (cur : Str) : Str → List Str
  | [] => if cur = [] then [] else [cur]
  | c :: cs =>
    if isSlash c then (if cur = [] then slashFields [] cs else cur :: slashFields [] cs)
    else slashFields (cur ++ [c]) cs

/-- `containsDotDot` -/
def containsDotDot (v : Str) : Bool :=
  if containsStr v b!".." = false then false else (slashFields [] v).any (· == b!"..")

/-- What `path.Split` returns besides the directory: what is behind the last slash. -/
def splitFile (p : Str) : Str := (p.reverse.takeWhile (· != slash)).reverse

/-- `path.Base` -/
def pathBase (p : Str) : Str :=
  if p = [] then b!"."
  else
    let p := trimRightSlashes p
    let p := splitFile p
    if p = [] then b!"/" else p

/-- What can be wrong with a file: `os.IsNotExist`, `os.IsPermission`, or something else. -/
inductive OpenErr where
  | notExist
  | permission
  | other
  deriving DecidableEq, Repr

/-- The code of `toHTTPError` -/
def errCode : OpenErr → Int
  | .notExist => 404
  | .permission => 403
  | .other => 500

/-- The text of `toHTTPError` for the code -/
def errText (code : Int) : Str :=
  if code = 404 then b!"404 page not found" else if code = 403 then b!"403 Forbidden" else b!"500 Internal Server Error"

/-- The files of the operating system: `fs` opens, describes and closes them; why `http.Dir.Open` (that is `os.Open` and
`mapDirOpenError`) or `Stat` fails, if they do; and what is in a directory (`Readdir`, sorted by name): names, and which of them are
directories. -/
structure OsFiles (ω : Type) where
  fs : FS ω
  openErr : Str → ω → OpenErr
  statErr : Nat → ω → OpenErr
  entries : Nat → ω → ω × Option (List (Str × Bool))

/-- `http.Dir(dir).Open(name)`, as the handler sees it -/
def OsFiles.openIn (disk : OsFiles ω) (dir name : Str) : Call ω :=
  .world (fun w =>
    let (w, x) := disk.fs.openFile (dirPath dir name) w
    (w, match x with | some f => .other f | none => .int (errCode (disk.openErr (dirPath dir name) w))))

/-- `f.Stat()`, as the handler sees it -/
def OsFiles.describe (disk : OsFiles ω) (f : Nat) : Call ω :=
  .world (fun w =>
    let (w, x) := disk.fs.stat f w
    (w, match x with | some i => .info i | none => .int (errCode (disk.statErr f w))))

/-- `defer f.Close()` -/
def closeAfter (fs : FS ω) (f : Nat) (p : Prog ω) : Prog ω :=
  .scope p (fun r => .do (.world (fun w => (fs.close f w, .unit))) (match r with | none => .ret | some v => .panic v))

/-- `localRedirect` -/
def localRedirect (to : Str) : Prog ω :=
  .call (.reqTexts (fun r => [r.rawQuery])) (fun r => match r with
    | .strs [q] => .do (.setHeader b!"Location" (if q ≠ [] then to ++ b!"?" ++ q else to)) (.do (.rawWriteHeader 301) .ret)
    | _ => .ret)

/-- `shouldEscape(c, encodePath)` of net/url -/
def escapesPath (c : UInt8) : Bool :=
  if (97 ≤ c && c ≤ 122) || (65 ≤ c && c ≤ 90) || (48 ≤ c && c ≤ 57) then false
  else if b!"-_.~".contains c then false
  else if b!"$&+,/:;=?@".contains c then c == 63
  else true

/-- `escape(s, encodePath)` of net/url -/
def escapePath (s : Str) : Str :=
  s.flatMap (fun c => if escapesPath c then [37, upperHex (c.toNat / 16), upperHex (c.toNat % 16)] else [c])

/-- `(&url.URL{Path: p}).String()` -/
def pathUrl (p : Str) : Str :=
  let e := if p = b!"*" then b!"*" else escapePath p
  match indexByte e 58 with
  | none => e
  | some i => if (e.take i).contains 47 then e else b!"./" ++ e

/-- The line of `dirList` for an entry. -/
def listLine (name : Str) : Str := b!"<a href=\"" ++ pathUrl name ++ b!"\">" ++ htmlEscape name ++ b!"</a>\n"

/-- `dirList` -/
def dirList (disk : OsFiles ω) (f : Nat) : Prog ω :=
  .call (.world (fun w =>
    let (w, x) := disk.entries f w
    (w, match x with | some l => .strs (l.map (fun e => if e.2 then e.1 ++ b!"/" else e.1)) | none => .unit))) (fun r => match r with
    | .strs names =>
      .do (.setHeader b!"Content-Type" b!"text/html; charset=utf-8") <| .do (.rawWrite b!"<pre>\n") <|
      names.foldr (fun n k => .do (.rawWrite (listLine n)) k) (.do (.rawWrite b!"</pre>\n") .ret)
    | _ => .httpError 500 b!"Error reading directory")

/-- The end of `serveFile`: a directory is listed, a file is sent. -/
def sendOpened (io : ContentIO ω) (o : Oracle) (disk : OsFiles ω) (f : Nat) (i : FileInfo) : Prog ω :=
  if i.dir then
    .call (.reqTexts (fun r => [r.method, r.header.get b!"If-Modified-Since"])) (fun r => match r with
      | .strs [m, d] =>
        if checkIfModified io.parseTime ⟨m, [], [], [], d, [], []⟩ i.modTime = some false then
          .do (.header (fun h => (notModifiedHeader h, .unit))) (.do (.rawWriteHeader 304) .ret)
        else .do (.header (fun h => (setLastModified io i.modTime h, .unit))) (dirList disk f)
      | _ => .ret)
  else serveContentStd io o i.name i.modTime f

/-- `serveFile` once the file is open and described. -/
def serveOpened (io : ContentIO ω) (o : Oracle) (disk : OsFiles ω) (dir name path : Str) (f : Nat) (i : FileInfo) : Prog ω :=
  if i.dir then
    if path = [] ∨ path.getLast? ≠ some slash then localRedirect (pathBase path ++ b!"/")
    else
      .call (disk.openIn dir (trimSuffix name b!"/" ++ b!"/index.html")) (fun r => match r with
        | .other ff => closeAfter disk.fs ff (.call (disk.describe ff) (fun r => match r with
          | .info ii => sendOpened io o disk ff ii
          | _ => sendOpened io o disk f i))
        | _ => sendOpened io o disk f i)
  else sendOpened io o disk f i

/-- `http.ServeFile(w, req, name)`, where `w` is `ctx.ResponseWriter` (content.go:149). -/
def serveFileStd (io : ContentIO ω) (o : Oracle) (disk : OsFiles ω) (name : Str) : Prog ω :=
  .call .reqPath (fun r => match r with
    | .str path =>
      if containsDotDot path then .httpError 400 b!"invalid URL path"
      else if hasSuffix path b!"/index.html" then localRedirect b!"./"
      else
        .call (disk.openIn (splitDir name) (splitFile name)) (fun r => match r with
          | .other f => closeAfter disk.fs f (.call (disk.describe f) (fun r => match r with
            | .info i => serveOpened io o disk (splitDir name) (splitFile name) path f i
            | .int code => .httpError code (errText code)
            | _ => .ret))
          | .int code => .httpError code (errText code)
          | _ => .ret)
    | _ => .ret)

/-- `ctx.File(filepath)` (content.go:148-150) -/
def ctxFile (io : ContentIO ω) (o : Oracle) (disk : OsFiles ω) (filepath : Str) : Prog ω := serveFileStd io o disk filepath

/-- `ctx.ServeFile(filePath)` (content.go:194-196) -/
def ctxServeFile (io : ContentIO ω) (o : Oracle) (disk : OsFiles ω) (filePath : Str) : Prog ω := (serveFileStd io o disk filePath).viaCtx

end Water
