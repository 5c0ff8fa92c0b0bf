import Verif.Model.Clean
/-
Redirects: `ctx.MovedPermanently`, `ctx.Found` (content.go:43-51), the redirect of a static directory (m_static.go:84), and
`http.Redirect` of the standard library (Go 1.15 net/http/server.go), which they call.
-/
namespace Water
variable {ω : Type}

/-- `hexEscapeNonASCII` of net/http: bytes outside ASCII become `%` and two lowercase digits. -/
def hexEscapeNonASCII (s : Str) : Str :=
  s.flatMap (fun c => if c ≥ 0x80 then [37, hexDigit (c.toNat / 16), hexDigit (c.toNat % 16)] else [c])

/-- `htmlReplacer` of net/http, for one byte. -/
def htmlByte (c : UInt8) : Str :=
  if c = 38 then b!"&amp;" else if c = 60 then b!"&lt;" else if c = 62 then b!"&gt;"
  else if c = 34 then b!"&#34;" else if c = 39 then b!"&#39;" else [c]

/-- `htmlEscape` of net/http. -/
def htmlEscape (s : Str) : Str := s.flatMap htmlByte

/-- The directory `path.Split` returns: everything up to the last slash. -/
def splitDir (p : Str) : Str := (p.reverse.dropWhile (· != slash)).reverse

/-- What `http.Redirect` takes from outside: whether `url.Parse` accepts a text and finds neither scheme nor host in it, and
`http.StatusText`. -/
structure RedirEnv where
  isLocal : Str → Bool
  statusText : Int → Str

/-- `?` -/
def quest : UInt8 := 63

/-- `path.Clean` that keeps a trailing slash, as `http.Redirect` does it. -/
def cleanKeep (p : Str) : Str :=
  if hasSuffix p [slash] ∧ ¬ hasSuffix (goClean p) [slash] then goClean p ++ [slash] else goClean p

/-- The text `http.Redirect` sends as location, before escaping. -/
def redirectTarget (env : RedirEnv) (reqPath url : Str) : Str :=
  if env.isLocal url then
    let oldpath := if reqPath = [] then [slash] else reqPath
    let url := if url.head? ≠ some slash then splitDir oldpath ++ url else url
    cleanKeep (url.takeWhile (· != quest)) ++ url.dropWhile (· != quest)
  else url

/-- `"Location"` -/
def kLocation : Str := b!"Location"

/-- `fmt.Fprintln(w, body)` in `http.Redirect`. -/
def redirectBody (env : RedirEnv) (url : Str) (code : Int) : Str :=
  b!"<a href=\"" ++ htmlEscape url ++ b!"\">" ++ env.statusText code ++ b!"</a>.\n\n"

/-- `http.Redirect(w, r, url, code)`. The writer is the context (content.go:44, 49) or, if `raw`, the `ResponseWriter` in it
(m_static.go:84). The lookup `h["Content-Type"]` is of the canonical key. -/
def httpRedirect (env : RedirEnv) (raw : Bool) (url : Str) (code : Int) : Prog ω :=
  .call .reqPath (fun r => match r with
    | .str path =>
      let url := redirectTarget env path url
      .call .reqMethod (fun r => match r with
        | .str m =>
          .call (.header (fun h =>
            let hadCT := (h kContentType).isSome
            let h := h.put kLocation (hexEscapeNonASCII url)
            (if !hadCT ∧ (m = mGET ∨ m = mHEAD) then h.put kContentType mimeHTML else h, .bool hadCT)))
            (fun r =>
              .do (if raw then .rawWriteHeader code else .writeHeader code)
                (if r = .bool false ∧ m = mGET then
                  .do (if raw then .rawWrite (redirectBody env url code) else .write (redirectBody env url code)) .ret
                else .ret))
        | _ => .ret)
    | _ => .ret)

/-- `ctx.MovedPermanently` (content.go:43-45). -/
def movedPermanently (env : RedirEnv) (uri : Str) : Prog ω := httpRedirect env false uri 301

/-- `ctx.Found` (content.go:48-50). -/
def found (env : RedirEnv) (uri : Str) : Prog ω := httpRedirect env false uri 302

/-- The functions of net/http for the static handler, with its redirect as it is (m_static.go:84). -/
def withRedirect (env : RedirEnv) (http : Http ω) : Http ω := { http with redirect := fun url => httpRedirect env true url 302 }

end Water
