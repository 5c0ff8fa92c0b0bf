import Verif.Model.Middleware
/- Reading the body of a request piece by piece, with connections that fail: content.go:126-145 and m_logger.go:62-71, with
`ioutil.ReadAll`, `io.LimitedReader`, `bytes.Buffer` and the body of net/http (Go 1.15). `Context` has bodies that are read
without errors; `Props/Body.lean` says when that is the same. -/
namespace Water

/-- Errors of `Read`: `io.EOF`, an error of the connection (or of the chunk encoding), `http.ErrBodyReadAfterClose`. -/
inductive RdErr where
  | eof
  | failed (e : Str)
  | closed
  deriving DecidableEq, Repr

/-- What the network does at the `k`-th read: at most `chunk k` bytes are there, the end is told together with the last bytes
(`early`) or afterwards; and what room a growing buffer has (`bytes.Buffer.ReadFrom`: at least 512 bytes). -/
structure Sched where
  chunk : Nat → Nat
  early : Nat → Bool
  room : Nat → Nat

/-- `ctx.Request.Body`: the body net/http gives, of which `rest` will come before its end (`fin = none`) or before the
connection fails; or the buffer Logger puts in its place (m_logger.go:67-68), which is also how `http.NoBody` behaves. -/
inductive Body where
  | net (rest : Str) (fin : Option Str) (closed : Bool)
  | buf (rest : Str)
  deriving DecidableEq, Repr

/-- how a body ends -/
def finErr : Option Str → RdErr
  | none => .eof
  | some e => .failed e

/-- `Body.Read` with a buffer of `n` bytes. -/
def Body.read (q : Sched) (k n : Nat) : Body → (Str × Option RdErr) × Body
  | .net rest fin closed =>
    if closed then (([], some .closed), .net rest fin closed)
    else if rest = [] then (([], some (finErr fin)), .net rest fin closed)
    else
      let m := min n (q.chunk k)
      ((rest.take m, if rest.drop m = [] ∧ q.early k = true then some (finErr fin) else none), .net (rest.drop m) fin closed)
  | .buf rest => if rest = [] then (([], some .eof), .buf rest) else ((rest.take n, none), .buf (rest.drop n))

/-- `Body.Close`: `ioutil.NopCloser` for the buffer. -/
def Body.close : Body → Body
  | .net rest fin _ => .net rest fin true
  | .buf rest => .buf rest

/-- `io.LimitedReader.Read`: `N` bytes are left. -/
def limitedRead (q : Sched) (k n : Nat) : Body × Nat → (Str × Option RdErr) × (Body × Nat)
  | (b, left) =>
    if left = 0 then (([], some .eof), (b, left))
    else
      let r := b.read q k (min n left)
      (r.1, (r.2, left - r.1.1.length))

/-- `ioutil.ReadAll` (the loop of `bytes.Buffer.ReadFrom`) over a `Read`; `none`: still reading after `fuel` reads. The end of
the text is no error. -/
def readAllF {σ : Type} (rd : Nat → Nat → σ → (Str × Option RdErr) × σ) (q : Sched) : Nat → Nat → σ → Str → Option ((Str × Option RdErr) × σ)
  | 0, _, _, _ => none
  | f + 1, k, b, acc =>
    match rd k (512 + q.room k) b with
    | ((d, none), b') => readAllF rd q f (k + 1) b' (acc ++ d)
    | ((d, some .eof), b') => some ((acc ++ d, none), b')
    | ((d, some e), b') => some ((acc ++ d, some e), b')

/-- `BodyBytes` and `BodyString` (content.go:126-140): on an error nothing is returned and the body is not closed. -/
def bodyBytesF (q : Sched) (fuel : Nat) (b : Body) : Option ((Str × Option RdErr) × Body) :=
  match readAllF (Body.read q) q fuel 0 b [] with
  | none => none
  | some ((d, none), b') => some ((d, none), b'.close)
  | some ((_, some e), b') => some (([], some e), b')

/-- Logger's reading of a JSON body (m_logger.go:62-71): the text for the log, and the body put in place of the old one, which
is closed. The error of `ReadAll` is thrown away. -/
def logBodyF (q : Sched) (fuel : Nat) (b : Body) : Option (Str × Body) :=
  match readAllF (limitedRead q) q fuel 0 (b, logLimit) [] with
  | none => none
  | some ((d, _), _) => some (10 :: d, .buf d)

/-- Logger at the start of a request (m_logger.go:60-71), then `BodyBytes` in a handler. -/
def loggedBytesF (q q' : Sched) (fuel : Nat) (json : Bool) (b : Body) : Option ((Str × Option RdErr) × Body) :=
  if json then
    match logBodyF q fuel b with
    | none => none
    | some (_, b') => bodyBytesF q' fuel b'
  else bodyBytesF q' fuel b

end Water
