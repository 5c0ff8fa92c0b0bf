import Verif.Model.Router
import Verif.Model.Context
/-
Static files: m_static.go, the ETag functions of util.go:110-119, and `path.Clean`/`filepath.Join` of the standard
library.
-/
namespace Water
variable {ω : Type}

/-- One element in `path.Clean`: empty elements and `.` are dropped, `..` removes the element before it, is dropped
at the root and kept at the start of a relative path. -/
def cleanStep (rooted : Bool) (out : List Str) (e : Str) : List Str :=
  if e = [] ∨ e = b!"." then out
  else if e = b!".." then
    match out.getLast? with
    | none => if rooted then out else out ++ [e]
    | some l => if l = b!".." then out ++ [e] else out.dropLast
  else out ++ [e]

/-- `path.Clean` and, on Unix, `filepath.Clean` (m_static.go:76, 88, 111; util.go:31), element by element. The
standard library works on bytes in one pass; this follows its documentation. -/
def pathClean (p : Str) : Str :=
  if p = [] then b!"."
  else
    let rooted := p.head? == some slash
    let es := (splitB slash p).foldl (cleanStep rooted) []
    if rooted then slash :: join [slash] es
    else if es = [] then b!"." else join [slash] es

/-- `filepath.Join(a, b)` on Unix (m_static.go:88, 111, 112). -/
def pathJoin (a b : Str) : Str :=
  if a ≠ [] then pathClean (a ++ [slash] ++ b)
  else if b ≠ [] then pathClean b
  else []

/-- `cleanPath` (util.go:21-32). -/
def cleanPath (p : Str) : Str :=
  if p = [] then [slash]
  else if p.head? ≠ some slash then pathClean (slash :: p)
  else pathClean p

/-- A lowercase hexadecimal digit. -/
def hexDigit (d : Nat) : UInt8 := if d < 10 then UInt8.ofNat (48 + d) else UInt8.ofNat (87 + d)

/-- Hexadecimal digits of a natural number; `fuel` bounds the number of digits. -/
def hexDigitsF : Nat → Nat → Str
  | 0, _ => []
  | f + 1, n => if n < 16 then [hexDigit n] else hexDigitsF f (n / 16) ++ [hexDigit (n % 16)]

/-- `%x` of a natural number (util.go:113, 118). -/
def hexNat (n : Nat) : Str := hexDigitsF (n + 1) n

/-- `%x` of an integer: a minus sign and the absolute value. -/
def hexInt (i : Int) : Str := if i < 0 then 45 :: hexNat i.natAbs else hexNat i.toNat

/-- `%x` of a string: two digits for every byte (util.go:118). -/
def hexStr (s : Str) : Str := s.flatMap (fun c => [hexDigit (c.toNat / 16), hexDigit (c.toNat % 16)])

/-- `time.Time.Unix` of a time in nanoseconds: whole seconds, rounded down. -/
def unixOf (t : Int) : Int := t / 1000000000

/-- `GenerateETag` (util.go:112-114). -/
def generateETag (modTime size : Int) : Str := hexInt (unixOf modTime) ++ [45] ++ hexInt size

/-- `GenerateETag2` (util.go:117-119). -/
def generateETag2 (modTime size : Int) (name : Str) : Str :=
  hexInt (unixOf modTime) ++ [45] ++ hexInt size ++ [45] ++ hexStr name

/-- An `http.FileSystem` and the files it opens (m_static.go:56-69). Files are numbers; an error is `none`. What
these calls do to the rest of the world is arbitrary; they do not panic. -/
structure FS (ω : Type) where
  openFile : Str → ω → ω × Option Nat
  stat : Nat → ω → ω × Option FileInfo
  close : Nat → ω → ω

/-- The functions of net/http that answer for the static handler. They are given as arbitrary code:
`http.Redirect(.., url, 302)` (m_static.go:84), `http.ServeFile(.., path)` in `ctx.File` (content.go:148-150), and
`http.ServeContent(.., name, modTime, f)` (m_static.go:108). -/
structure Http (ω : Type) where
  redirect : Str → Prog ω
  serveFile : Str → Prog ω
  serveContent : Str → Int → Nat → Prog ω

/-- `ETagType` (m_static.go:10-16): 0 is none, 1 is `ETagType1`, everything else behaves like `ETagType2`. -/
abbrev ETagType := UInt8

/-- `StaticOptions` (m_static.go:19-31). `hasIndex` is never read. -/
structure StaticOptions (ω : Type) where
  pre : Str
  indexFile : Str
  expires : Option (ω → ω × Str)
  etag : ETagType
  fileSystem : Option (FS ω)

/-- The normalised prefix (m_static.go:45-50). -/
def normPrefix (p : Str) : Str :=
  if p = [] then p
  else trimRightSlashes (if p.head? ≠ some slash then slash :: p else p)

/-- The pattern that is registered (m_static.go:111-112). -/
def staticPattern (p : Str) : Str := pathJoin (normPrefix p) b!"/*"

/-- `"*0"` -/
def kRest : Str := b!"*0"
/-- `"ETag"` -/
def kETag : Str := b!"ETag"
/-- `"If-None-Match"` -/
def kIfNoneMatch : Str := b!"If-None-Match"
/-- `"Expires"` -/
def kExpires : Str := b!"Expires"

/-- The directory branch (m_static.go:75-90). -/
def staticDir (http : Http ω) (opt : StaticOptions ω) (name path : Str) : Prog ω :=
  let redirPath := pathClean path
  let redirPath := if hasSuffix path [slash] then redirPath ++ [slash] else redirPath
  if !hasSuffix redirPath [slash] then http.redirect (redirPath ++ [slash])
  else http.serveFile (pathJoin name opt.indexFile)

/-- The tag of a file (m_static.go:93-99). -/
def staticTag (etag : ETagType) (i : FileInfo) : Str :=
  if etag = 1 then generateETag i.modTime i.size else generateETag2 i.modTime i.size i.name

/-- The file branch (m_static.go:92-108). -/
def staticFile (http : Http ω) (opt : StaticOptions ω) (name : Str) (f : Nat) (i : FileInfo) : Prog ω :=
  let serve := http.serveContent name i.modTime f
  if opt.etag ≠ 0 then
    let tag := staticTag opt.etag i
    .do (.setHeader kETag tag) (.call (.reqHeader kIfNoneMatch) (fun r =>
      if r = .str tag then .do (.writeHeader 304) .ret else serve))
  else serve

/-- The handler once the file has been described (m_static.go:71-108). -/
def staticFound (http : Http ω) (opt : StaticOptions ω) (name : Str) (f : Nat) (i : FileInfo) : Prog ω :=
  let rest : Prog ω :=
    if i.dir then .call .reqPath (fun r => match r with | .str path => staticDir http opt name path | _ => .ret)
    else staticFile http opt name f i
  match opt.expires with
  | none => rest
  | some e =>
    .call (.world (fun w => let (w, s) := e w; (w, .str s)))
      (fun r => match r with | .str s => .do (.setHeader kExpires s) rest | _ => .ret)

/-- What `Open` and `Stat` return to the handler. -/
def openRes : Option Nat → Res | some f => .other f | none => .unit
/-- see `openRes` -/
def statRes : Option FileInfo → Res | some i => .info i | none => .unit

/-- The handler `h` (m_static.go:55-109). -/
def staticHandler (fs : FS ω) (http : Http ω) (opt : StaticOptions ω) : Prog ω :=
  .call (.param kRest) (fun r => match r with
    | .str name =>
      .call (.world (fun w => let (w, x) := fs.openFile name w; (w, openRes x))) (fun r => match r with
        | .other f =>
          .scope
            (.call (.world (fun w => let (w, x) := fs.stat f w; (w, statRes x))) (fun r => match r with
              | .info i => staticFound http opt name f i
              | _ => .do (.writeHeader 404) .ret))
            (fun r => .do (.world (fun w => (fs.close f w, .unit)))
              (match r with | none => .ret | some v => .panic v))
        | _ => .do (.writeHeader 404) .ret)
    | _ => .ret)

/-- The registrations made by `StaticAdvance` (m_static.go:111-112). -/
def staticOps (r : Nat) (fs : FS ω) (http : Http ω) (opt : StaticOptions ω) : List (Op (Prog ω)) :=
  let h := staticHandler fs http opt
  [.handle r mGET (staticPattern opt.pre) [.ctxFunc h], .handle r mHEAD (staticPattern opt.pre) [.ctxFunc h]]

/-- `StaticAdvance` (m_static.go:36-113) on the router `r`. The option struct is also updated in place, by
`normPrefix`, which does not change an already normalised prefix. -/
def staticAdvance (http : Http ω) (heap : Heap (Prog ω)) (r : Nat) (opt : StaticOptions ω) :
    Except Panic (Heap (Prog ω)) :=
  match heap[r]? with
  | none => .error .noSuchRouter
  | some n =>
    if n.parent ≠ none then .error .subRouter
    else
      match opt.fileSystem with
      | none => .error .noFileSystem
      | some fs => runOps heap (staticOps r fs http opt)

/-- The path `http.Dir(root).Open(name)` gives to the operating system, on Unix (Go 1.15 `net/http/fs.go`;
m_static.go:122). -/
def dirPath (root name : Str) : Str := pathJoin (if root = [] then b!"." else root) (pathClean (slash :: name))

/-- `http.Dir(root)` over the files of the operating system. -/
def dirFS (os : FS ω) (root : Str) : FS ω := { os with openFile := fun name => os.openFile (dirPath root name) }

/-- The options of `Static(uri, root)` (m_static.go:119-126); `dir root` is `http.Dir(root)`. -/
def staticOptions (dir : Str → FS ω) (uri root : Str) : StaticOptions ω :=
  { pre := uri, indexFile := [], expires := none, etag := 0, fileSystem := some (dir root) }

/-- `Static` (m_static.go:119-126) on the router `r`; `os` are the files of the operating system. -/
def routerStatic (http : Http ω) (os : FS ω) (heap : Heap (Prog ω)) (r : Nat) (uri root : Str) : Except Panic (Heap (Prog ω)) :=
  staticAdvance http heap r (staticOptions (dirFS os) uri root)

/-- The registrations made by `StaticFile` (m_static.go:135-140); the handler calls `ctx.File` (content.go:148-150). -/
def singleOps (r : Nat) (http : Http ω) (pattern path : Str) : List (Op (Prog ω)) :=
  let h := http.serveFile path
  [.handle r mGET pattern [.ctxFunc h], .handle r mHEAD pattern [.ctxFunc h]]

/-- `StaticFile` (m_static.go:130-141). -/
def staticFileAt (http : Http ω) (heap : Heap (Prog ω)) (r : Nat) (pattern path : Str) : Except Panic (Heap (Prog ω)) :=
  match heap[r]? with
  | none => .error .noSuchRouter
  | some n =>
    if n.parent ≠ none then .error .subRouter
    else runOps heap (singleOps r http pattern path)

end Water
