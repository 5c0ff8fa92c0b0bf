import Verif.Model.Serve
/- The build with the tag `extended` (response_advanced.go): `ResponseWriter` also asks for `CloseNotify`, `Flush` and `Hijack`. -/
namespace Water
variable {ω : Type}

/-- What the writer given to `ServeHTTP` can do besides `Header`, `Write` and `WriteHeader` (response_advanced.go:11-13). -/
structure WriterCaps where
  closeNotifier : Bool
  flusher : Bool
  hijacker : Bool

/-- `rw.(ResponseWriter)` succeeds (engine.go:99 with response_advanced.go:9-14). -/
def WriterCaps.extended (k : WriterCaps) : Bool := k.closeNotifier && k.flusher && k.hijacker

/-- The writers of net/http (Go 1.15): `response` (HTTP/1) can do all; `http2responseWriter` has no `Hijack`. -/
def netHttpCaps (req : Req) : WriterCaps := ⟨true, true, !decide (req.protoMajor > 1)⟩

/-- The writer `httptest.NewRecorder` returns (Go 1.15): it has `Flush` only. -/
def recorderCaps : WriterCaps := ⟨false, true, false⟩

/-- `ServeHTTP` (engine.go:84-132) in the build with the tag `extended`: the type assertion of engine.go:99 panics if the writer
lacks one of the methods. By then the context has been taken from the pool (engine.go:96); nothing puts it back. -/
def serveExt (k : WriterCaps) (rx : Regex) (o : Oracle) (e : Engine (Prog ω)) (c : Ctx ω) (req : Req) (rw : Writer) (body : Option Str)
    (w : ω) : Served ω :=
  if !protoAtLeast11 req || req.requestURI == b!"*" || req.method == b!"CONNECT" then
    let (p, rw) := rw.writeHeader o.bad 406
    { out := if p then .panic callPanic else .ret, rw, world := w, forms := [], trace := [], took := false, puts := [] }
  else
    match methodIndex req.method with
    | none =>
      let (p, rw) := rw.writeHeader o.bad 405
      { out := if p then .panic callPanic else .ret, rw, world := w, forms := [], trace := [], took := false, puts := [] }
    | some i =>
      if k.extended then serveRouted o e c req rw body w (lookup rx e i req.path).1 (lookup rx e i req.path).2
      else { out := .panic callPanic, rw, world := w, forms := [], trace := [], took := true, puts := [] }

/-- `ctx.Flush()` in that build: the method of the embedded writer (context.go:19, response_advanced.go:12), so `ctx` does not see
it. net/http's `Flush` (Go 1.15) writes the head with code 200 if it has not been written; pushing out what is buffered
is not modelled (a write of no bytes has the same effect on the answer). -/
def Prog.flush (k : Prog ω) : Prog ω := .do (.rawWrite []) k

end Water
