import Verif.Model.Header
import Verif.Model.Engine
/-
`Context` and the handler chain: context.go, the part of content.go/environ.go/params.go that handlers call on
a context, and handlers themselves.

A handler is arbitrary Go code. Here it is a program that may call the methods of the context, call
`ctx.Next`, panic, run deferred functions and recover, and do anything else to the rest of the world, `ω`
(an arbitrary type). It branches on everything the calls return. Not modelled: goroutines that outlive the
handler and `runtime.Goexit`. Handlers that assign to the exported fields of the context are in Open.lean.
-/
namespace Water

/-- A panic value: `panic(nil)`, or anything else with its printed form. Under `go 1.15` (go.mod:3)
`recover` returns nil for `panic(nil)`. -/
inductive PVal where
  | nil
  | val (msg : Str)
  deriving DecidableEq, Repr

/-- A value in `Environ` (environ.go:5) by dynamic type. -/
inductive EVal where
  | bool (b : Bool)
  | int (i : Int)
  | int64 (i : Int)
  | uint (n : Nat)
  | uint64 (n : Nat)
  | float64 (bits : UInt64)
  | string (s : Str)
  | other (id : Nat)
  deriving DecidableEq, Repr

/-- `os.FileInfo`, the parts that are read (m_static.go:75, 95-98): whether it is a directory, the modification
time in nanoseconds since 1970, size and name. -/
structure FileInfo where
  dir : Bool
  modTime : Int
  size : Int
  name : Str
  deriving DecidableEq, Repr

/-- What a call returns to a handler. -/
inductive Res where
  | unit
  | bool (b : Bool)
  | int (i : Int)
  | str (s : Str)
  | strs (l : List Str)
  | env (v : Option EVal)
  | info (i : FileInfo)
  | other (id : Nat)
  deriving DecidableEq, Repr

/-- `ctx.Request.Form`, a `url.Values`: the entries in some iteration order. A nil form is an empty one: both have no
entries. -/
abbrev Form := List (Str × List Str)

/-- A request (the parts that are read). -/
structure Req where
  protoMajor : Int
  protoMinor : Int
  requestURI : Str
  method : Str
  path : Str
  header : Header
  rawQuery : Str := []
  remoteAddr : Str := []
  urlText : Str := []

/-- The calls a handler can make, other than `Next`. -/
inductive Call (ω : Type) where
  /-- `ctx.WriteHeader`, `ctx.Abort` -/
  | writeHeader (code : Int)
  /-- `ctx.Write` -/
  | write (data : Str)
  /-- `ctx.Header().Set`, `ctx.SetHeader` -/
  | setHeader (k v : Str)
  /-- any other use of the map `ctx.Header()` -/
  | header (f : Header → Header × Res)
  /-- `ctx.ResponseWriter.WriteHeader`, as done by `http.ServeFile(ctx.ResponseWriter, ..)` in `ctx.File` -/
  | rawWriteHeader (code : Int)
  /-- `ctx.ResponseWriter.Write` -/
  | rawWrite (data : Str)
  /-- `ctx.Written` -/
  | written
  /-- `ctx.Status` -/
  | status
  /-- `ctx.FullPath` -/
  | fullPath
  /-- `ctx.Param` -/
  | param (k : Str)
  /-- `ctx.Set` -/
  | envSet (k : Str) (v : EVal)
  /-- `ctx.Get` -/
  | envGet (k : Str)
  /-- `ctx.GetMaybe` -/
  | envMaybe (k : Str)
  /-- `ctx.Request.Method` -/
  | reqMethod
  /-- other things read from the request, as texts -/
  | reqTexts (f : Req → List Str)
  /-- `ctx.Request.URL.Path` -/
  | reqPath
  /-- `ctx.GetHeader` -/
  | reqHeader (k : Str)
  /-- read all that is left of `ctx.Request.Body`, or at most `limit` bytes; nothing if the body is nil -/
  | readBody (limit : Option Nat)
  /-- whether `ctx.Request.Body` is not nil -/
  | hasBody
  /-- assign a buffer to `ctx.Request.Body` -/
  | setBody (data : Str)
  /-- `ctx.ParseFormOrMultipartForm` -/
  | parseForm
  /-- `ctx.Query…` and `ctx.DefaultQuery…` (query.go): parse the form if that was not done, then read it -/
  | readForm (f : Form → Res)
  /-- anything else -/
  | world (f : ω → ω × Res)

/-- Handler code. `scope body fin` is a function body with a deferred function: `body` is run, and when it
returns (`none`) or panics (`some v`) the deferred function `fin` is run with what `recover` would see; `fin`
goes on with whatever follows, or panics (again). -/
inductive Prog (ω : Type) where
  | ret
  | panic (v : PVal)
  | next (k : Prog ω)
  | call (c : Call ω) (k : Res → Prog ω)
  | scope (body : Prog ω) (fin : Option PVal → Prog ω)

/-- What happens in the chain, for the record: handler `i` starts, returns (with the `written` flag at that
moment) or panics; handler `i` calls `Next`, which returns or panics. Not part of the Go program. -/
inductive Event where
  | start (i : Nat)
  | stop (i : Nat) (written : Bool)
  | crash (i : Nat)
  | next (i : Nat)
  | back (i : Nat)
  | thrown (i : Nat)
  deriving DecidableEq, Repr

/-- `Context` (context.go:15-31). `fullPath` is `endNode.matchNode.uri` (nil if there is no end node);
`handlersLength` is the length of `handlers` (engine.go:127). `Request` and `ResponseWriter` are in `St` and
`Req`. -/
structure Ctx (ω : Type) where
  environ : Map Str EVal
  params : Params
  handlers : List (Prog ω)
  index : Nat
  written : Bool
  status : Int
  fullPath : Option Str
  parsedParams : Bool

/-- What parsing a form leads to: the form, whether there was an error, and how many bytes of the body were read. -/
structure Parsed where
  form : Form
  fails : Bool
  read : Nat

/-- What the model takes from outside: which status codes `WriteHeader` rejects, `http.DetectContentType`, the
text `Recovery` builds from a panic value and the call stack, whether `water.Status` is `Stable`, and what
parsing a form (multipart or not) with a given body does (`Url.lean` has the parser for plain forms). -/
structure Oracle where
  bad : Int → Bool
  detect : Str → Str
  crashText : PVal → Str
  stable : Bool
  parse : Req → Bool → Option Str → Parsed

/-- The state of serving one request. `form` is `ctx.Request.Form`; `forms` records the form parsings done (`true`: multipart), `trace` what
happened in the chain. -/
structure St (ω : Type) where
  ctx : Ctx ω
  rw : Writer
  body : Option Str
  forms : List Bool
  world : ω
  trace : List Event
  form : Form := []

variable {ω : Type}

/-- `newContext` (context.go:33-35). -/
def Ctx.new : Ctx ω where
  environ := Map.empty
  params := Map.empty
  handlers := []
  index := 0
  written := false
  status := 0
  fullPath := none
  parsedParams := false

/-- `reset` (context.go:37-45). -/
def Ctx.reset (c : Ctx ω) : Ctx ω :=
  { c with index := 0, written := false, status := 0, fullPath := none, parsedParams := false }

/-- `ctx.WriteHeader` (context.go:71-79). The result tells whether the underlying writer panicked. -/
def St.writeHeader (o : Oracle) (s : St ω) (code : Int) : Bool × St ω :=
  if s.ctx.written then (false, s)
  else
    let s := { s with ctx := { s.ctx with written := true, status := code } }
    let (p, rw) := s.rw.writeHeader o.bad code
    (p, { s with rw })

/-- `"Content-Type"` -/
def kContentType : Str := b!"Content-Type"

/-- `ctx.Write` (context.go:81-90). -/
def St.write (o : Oracle) (s : St ω) (data : Str) : Bool × St ω :=
  if s.ctx.written then (false, { s with rw := s.rw.write data })
  else
    let s := if data.length > 0 ∧ s.rw.header.get kContentType = [] then
        { s with rw := { s.rw with header := s.rw.header.put kContentType (o.detect data) } }
      else s
    match s.writeHeader o 200 with
    | (true, s) => (true, s)
    | (false, s) => (false, { s with rw := s.rw.write data })

/-- Whether `ParseFormOrMultipartForm` parses as multipart (content.go:334-335). -/
def wantsMultipart (req : Req) : Bool :=
  (req.method == mPOST || req.method == mPUT || req.method == mPATCH) &&
    containsStr (req.header.get kContentType) b!"multipart/form-data"

/-- `ParseFormOrMultipartForm` (content.go:328-344). -/
def St.parseForm (o : Oracle) (req : Req) (s : St ω) : Bool × St ω :=
  if s.ctx.parsedParams then (false, s)
  else
    let m := wantsMultipart req
    let p := o.parse req m s.body
    (p.fails, { s with ctx := { s.ctx with parsedParams := true }, forms := s.forms ++ [m], form := p.form, body := s.body.map (·.drop p.read) })

/-- the panic value of a failing call; its text is not modelled -/
def callPanic : PVal := .val b!"panic"

/-- The effect of a call. A call that panics may already have changed the state. -/
def doCall (o : Oracle) (req : Req) (s : St ω) : Call ω → Except PVal Res × St ω
  | .writeHeader code =>
    match s.writeHeader o code with
    | (true, s) => (.error callPanic, s)
    | (false, s) => (.ok .unit, s)
  | .write data =>
    match s.write o data with
    | (true, s) => (.error callPanic, s)
    | (false, s) => (.ok .unit, s)
  | .setHeader k v => (.ok .unit, { s with rw := { s.rw with header := s.rw.header.put k v } })   -- content.go:24-26
  | .header f => (.ok (f s.rw.header).2, { s with rw := { s.rw with header := (f s.rw.header).1 } })
  | .rawWriteHeader code =>
    match s.rw.writeHeader o.bad code with
    | (true, rw) => (.error callPanic, { s with rw })
    | (false, rw) => (.ok .unit, { s with rw })
  | .rawWrite data => (.ok .unit, { s with rw := s.rw.write data })
  | .written => (.ok (.bool s.ctx.written), s)                     -- context.go:63-65
  | .status => (.ok (.int s.ctx.status), s)                        -- context.go:67-69
  | .fullPath => (.ok (.str (s.ctx.fullPath.getD [])), s)          -- content.go:314-320
  | .param k =>                                                    -- params.go:15-27
    match s.ctx.params k with
    | some v => (.ok (.str v), s)
    | none => (.error callPanic, s)
  | .envSet k v =>                                                 -- environ.go:59-65
    if (s.ctx.environ k).isSome then (.error callPanic, s)
    else (.ok .unit, { s with ctx := { s.ctx with environ := Map.set s.ctx.environ k v } })
  | .envGet k =>                                                   -- environ.go:68-73
    match s.ctx.environ k with
    | some v => (.ok (.env (some v)), s)
    | none => (.error callPanic, s)
  | .envMaybe k => (.ok (.env (s.ctx.environ k)), s)               -- environ.go:77-80
  | .reqMethod => (.ok (.str req.method), s)
  | .reqTexts f => (.ok (.strs (f req)), s)
  | .reqPath => (.ok (.str req.path), s)
  | .reqHeader k => (.ok (.str (req.header.get k)), s)             -- content.go:20-22
  | .readBody limit =>
    match s.body with
    | none => (.ok (.str []), s)
    | some b =>
      let n := limit.getD b.length
      (.ok (.str (b.take n)), { s with body := some (b.drop n) })
  | .hasBody => (.ok (.bool s.body.isSome), s)
  | .setBody data => (.ok .unit, { s with body := some data })
  | .parseForm =>
    match s.parseForm o req with
    | (true, s) => (.error callPanic, s)
    | (false, s) => (.ok .unit, s)
  | .readForm f =>
    match s.parseForm o req with
    | (true, s) => (.error callPanic, s)
    | (false, s) => (.ok (f s.form), s)
  | .world f =>
    let (w, r) := f s.world
    (.ok r, { s with world := w })

/-- How a piece of handler code ended. `fuel`: the model's bound on nested calls was too small; this never
happens, see `C28_terminates`. -/
inductive Out where
  | ret
  | panic (v : PVal)
  | fuel
  deriving DecidableEq, Repr

/-- record an event -/
def St.log (s : St ω) (e : Event) : St ω := { s with trace := s.trace ++ [e] }

/-- `ctx.index += 1` -/
def St.bump (s : St ω) : St ω := { s with ctx := { s.ctx with index := s.ctx.index + 1 } }

/-- Run the code of handler `i`; `nx` is what `ctx.run()` does. -/
def exec (o : Oracle) (req : Req) (nx : St ω → Out × St ω) (i : Nat) : Prog ω → St ω → Out × St ω
  | .ret, s => (.ret, s)
  | .panic v, s => (.panic v, s)
  | .next k, s =>                                                  -- context.go:47-50
    match nx (s.log (.next i)).bump with
    | (.ret, s) => exec o req nx i k (s.log (.back i))
    | (.panic v, s) => (.panic v, s.log (.thrown i))
    | (.fuel, s) => (.fuel, s)
  | .call c k, s =>
    match doCall o req s c with
    | (.ok r, s) => exec o req nx i (k r) s
    | (.error v, s) => (.panic v, s)
  | .scope body fin, s =>
    match exec o req nx i body s with
    | (.ret, s) => exec o req nx i (fin none) s
    | (.panic v, s) => exec o req nx i (fin (some v)) s
    | (.fuel, s) => (.fuel, s)

/-- `ctx.run` (context.go:52-61). -/
def run (o : Oracle) (req : Req) : Nat → St ω → Out × St ω
  | 0, s => (.fuel, s)
  | fuel + 1, s =>
    match s.ctx.handlers[s.ctx.index]? with
    | none => (.ret, s)
    | some h =>
      let i := s.ctx.index
      match exec o req (run o req fuel) i h (s.log (.start i)) with
      | (.ret, s) =>
        let s := (s.log (.stop i s.ctx.written)).bump
        if s.ctx.written then (.ret, s) else run o req fuel s
      | (.panic v, s) => (.panic v, s.log (.crash i))
      | (.fuel, s) => (.fuel, s)

/-- Run a chain from its first handler. -/
def runAll (o : Oracle) (req : Req) (s : St ω) : Out × St ω := run o req (s.ctx.handlers.length + 1) s

/-! ### Response helpers (content.go, render.go) as handler code -/

/-- a call whose result is not used -/
def Prog.do (c : Call ω) (k : Prog ω) : Prog ω := .call c (fun _ => k)

/-- `MIMETextPlainCharsetUTF8` (const.go:17) -/
def mimeText : Str := b!"text/plain; charset=utf-8"
/-- `MIMETextHTMLCharsetUTF8` (const.go:15) -/
def mimeHTML : Str := b!"text/html; charset=utf-8"
/-- `MIMEApplicationJSONCharsetUTF8` (const.go:11) -/
def mimeJSON : Str := b!"application/json; charset=utf-8"
/-- `MIMEApplicationXMLCharsetUTF8` (const.go:13) -/
def mimeXML : Str := b!"application/xml; charset=utf-8"

/-- `ctx.Data` (content.go:255-259). -/
def Prog.data (code : Int) (ctype data : Str) (k : Prog ω) : Prog ω :=
  .do (.writeHeader code) (.do (.setHeader kContentType ctype) (.do (.write data) k))

/-- `ctx.String` (content.go:249-253). -/
def Prog.string (code : Int) (str : Str) (k : Prog ω) : Prog ω := .data code mimeText str k

/-- `ctx.HTMLRaw` (content.go:261-266). -/
def Prog.htmlRaw (code : Int) (str : Str) (k : Prog ω) : Prog ω := .data code mimeHTML str k

/-- `ctx.JSON` (content.go:268-276); `enc` are the chunks the encoder writes. -/
def Prog.json (code : Int) (enc : List Str) (k : Prog ω) : Prog ω :=
  .do (.writeHeader code) (.do (.setHeader kContentType mimeJSON) (enc.foldr (fun d k => .do (.write d) k) k))

/-- `ctx.XML` (content.go:278-286). -/
def Prog.xml (code : Int) (enc : List Str) (k : Prog ω) : Prog ω :=
  .do (.writeHeader code) (.do (.setHeader kContentType mimeXML) (enc.foldr (fun d k => .do (.write d) k) k))

/-- `ctx.HTML`/`ctx.HTMLSet` with the default render (render.go:15-18). -/
def Prog.html (code : Int) (k : Prog ω) : Prog ω :=
  .do (.writeHeader code) (.do (.setHeader kContentType mimeHTML) k)

/-- `ctx.Stream` (content.go:241-247); `chunks` are what `io.Copy` writes. -/
def Prog.stream (ctype : Str) (chunks : List Str) (k : Prog ω) : Prog ω :=
  .do (.setHeader kContentType ctype) (chunks.foldr (fun d k => .do (.write d) k) k)

/-- `ctx.File` (content.go:147-150) on an existing file: `http.ServeFile` sends status, headers and content through
`ctx.ResponseWriter`. -/
def Prog.file (code : Int) (hdr : Header → Header) (content : Str) (k : Prog ω) : Prog ω :=
  .do (.header (fun h => (hdr h, .unit))) (.do (.rawWriteHeader code) (.do (.rawWrite content) k))

/-- `Recovery` (m_recovery.go:12-47). -/
def recovery (o : Oracle) : Prog ω :=
  .scope (.next .ret) (fun r =>
    match r with
    | some (.val msg) =>
      .call .written (fun w =>
        let rest : Prog ω := if o.stable then .ret else .string 500 (o.crashText (.val msg)) .ret
        if w = .bool false then .do (.writeHeader 500) rest else rest)
    | _ =>
      .call .written (fun w => if w = .bool false then .do (.writeHeader 200) .ret else .ret))

end Water
