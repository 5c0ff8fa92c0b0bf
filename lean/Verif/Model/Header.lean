import Verif.Model.Str
/-
`http.Header` and the underlying `http.ResponseWriter`. These model the Go standard library as far as /repo
uses it; the call sites are cited.
-/
namespace Water

/-- `textproto.validHeaderFieldByte`: the token characters of RFC 7230. -/
def validHeaderByte (c : UInt8) : Bool :=
  (48 ≤ c && c ≤ 57) || (65 ≤ c && c ≤ 90) || (97 ≤ c && c ≤ 122) || b!"!#$%&'*+-.^_`|~".contains c

/-- The loop of `textproto.CanonicalMIMEHeaderKey`: upper case at the start and after a dash, else lower case. -/
def canonLoop : Bool → Str → Str
  | _, [] => []
  | up, c :: cs =>
    let c' := if up && 97 ≤ c && c ≤ 122 then c - 32 else if !up && 65 ≤ c && c ≤ 90 then c + 32 else c
    c' :: canonLoop (c' == 45) cs

/-- `textproto.CanonicalMIMEHeaderKey`: keys with an invalid byte are left alone. -/
def canonKey (k : Str) : Str := if k.all validHeaderByte then canonLoop true k else k

/-- `http.Header`: `map[string][]string`. -/
abbrev Header := Map Str (List Str)

/-- `Header.Get` (content.go:21, 335; context.go:84). -/
def Header.get (h : Header) (k : Str) : Str :=
  match h (canonKey k) with
  | some (v :: _) => v
  | _ => []

/-- `Header.Set` (content.go:25, 242, 251, ..; context.go:85). -/
def Header.put (h : Header) (k v : Str) : Header := Map.set h (canonKey k) [v]

/-- `Header.Add` (m_cors.go:98; cookie.go:109). -/
def Header.add (h : Header) (k v : Str) : Header := Map.set h (canonKey k) ((h (canonKey k)).getD [] ++ [v])

/-- What reaches the client's side of an `http.ResponseWriter`: a status line with a copy of the header map at
that moment (`explicit`: sent by a `WriteHeader` call, otherwise implied by `Write`), or body bytes. -/
inductive WEvent where
  | status (explicit : Bool) (code : Int) (header : Header)
  | body (data : Str)

/-- The underlying `http.ResponseWriter`: the header map it hands out and what it was told to send. -/
structure Writer where
  header : Header
  log : List WEvent

/-- A fresh response writer. -/
def Writer.new : Writer := { header := Map.empty, log := [] }

/-- `http.ResponseWriter.WriteHeader`: panics on an invalid code (`bad`) if nothing has been sent yet (net/http
server.go `checkWriteHeaderCode`); later calls are recorded too, net/http ignores them as superfluous. The
result tells whether it panicked. -/
def Writer.writeHeader (bad : Int → Bool) (w : Writer) (code : Int) : Bool × Writer :=
  if w.log.isEmpty && bad code then (true, w)
  else (false, { w with log := w.log ++ [.status true code w.header] })

/-- `http.ResponseWriter.Write`: sends status 200 first if nothing was sent yet. -/
def Writer.write (w : Writer) (data : Str) : Writer :=
  if w.log.isEmpty then { w with log := [.status false 200 w.header, .body data] }
  else { w with log := w.log ++ [.body data] }

end Water
