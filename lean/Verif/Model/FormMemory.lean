import Verif.Model.Multipart
/- How much memory the form of a request may take: `FormFile` (content.go:152-154) reads it with the limit of net/http,
`ParseFormOrMultipartForm` (content.go:328-344) with `MaxMultipartMemory` (option.go:31-36, router.go:323). -/
namespace Water

/-- `defaultMaxMemory` (net/http/request.go, Go 1.15), with which `Request.FormFile` calls `ParseMultipartForm` -/
def httpMemory : Nat := 32 * 2 ^ 20

/-- the reader with another limit -/
def MimeEnv.withMemory (E : MimeEnv) (n : Nat) : MimeEnv := { E with memory := n }

/-- The limit that a call gives to `ParseMultipartForm`: `n` is `defaultMultipartMemory` (content.go:324, router.go:323).
Simplified: it is not negative. -/
def memoryOf (n : Nat) : FOp → Nat
  | .prepare => n
  | .query _ => n
  | .file _ => httpMemory

/-- A request with the files it holds. -/
structure Held where
  forms : Forms
  files : List FileGot

/-- a request at the start -/
def Held.fresh (body : Option Str) : Held := ⟨Forms.fresh body, []⟩

/-- A call. If it reads the parts, the files are there from then on; `ParseForm` may have read the body before. -/
def Held.step (E : MimeEnv) (n : Nat) (req : Req) (h : Held) (op : FOp) : Held :=
  let E := E.withMemory (memoryOf n op)
  let s := h.forms.step (stdMime E) req op
  ⟨s, if h.forms.multi.isNone && s.multi.isSome then
      receivedFiles E (req.header.get kContentType) ((h.forms.parseForm (stdMime E) req).2.body.getD [])
    else h.files⟩

/-- the calls made so far -/
def Held.after (E : MimeEnv) (n : Nat) (req : Req) (h : Held) (ops : List FOp) : Held := ops.foldl (Held.step E n req) h

end Water
