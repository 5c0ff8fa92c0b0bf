import Verif.Model.Util
import Verif.Model.Files
/- `ctx.Download` (content.go:198-229) as handler code, with the files it opens and closes. -/
namespace Water
variable {ω : Type}

/-- The headers of a download, then `http.ServeContent` (content.go:213-226). -/
def downloadBody (http : Http ω) (f : Nat) (fi : FileInfo) (inline : List Bool) : Prog ω :=
  .do (.setHeader b!"Content-Description" b!"File Transfer") <|
  .do (.setHeader b!"Content-Type" b!"application/octet-stream") <|
  .do (.setHeader b!"Content-Transfer-Encoding" b!"binary") <|
  .do (.setHeader b!"Expires" b!"0") <|
  .do (.setHeader b!"Cache-Control" b!"must-revalidate") <|
  .do (.setHeader b!"Pragma" b!"public") <|
  .do (.setHeader b!"Content-Disposition" (dispositionFor inline fi.name)) <|
  http.serveContent fi.name fi.modTime f

/-- `ctx.Download(fpath, inline...)` (content.go:198-229); `k` goes on with whether the result was nil. `os.Open`, `Stat`
and `Close` do not panic, so that the deferred `Close` (content.go:203) is run after `Stat` or after the content. -/
def Prog.download (fs : FS ω) (http : Http ω) (fpath : Str) (inline : List Bool) (k : Bool → Prog ω) : Prog ω :=
  .call (.world (fun w => let (w, x) := fs.openFile fpath w; (w, openRes x))) (fun r => match r with
    | .other f =>
      let close (k : Prog ω) : Prog ω := .do (.world (fun w => (fs.close f w, .unit))) k
      .call (.world (fun w => let (w, x) := fs.stat f w; (w, statRes x))) (fun r => match r with
        | .info fi =>
          if fi.dir then close (k false)
          else .scope (downloadBody http f fi inline) (fun r => close (match r with | none => k true | some v => .panic v))
        | _ => close (k false))
    | _ => k false)

end Water
