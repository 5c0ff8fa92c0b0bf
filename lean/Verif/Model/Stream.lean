import Verif.Model.Body
/- `ctx.Stream` (content.go:241-247) with readers that fail, and `io.Copy` (Go 1.15). `Prog.stream` (Context.lean) has readers that do not. -/
namespace Water
variable {ω : Type}

/-- One turn of the loop of `io.Copy`: what `Read` returns, its error, and, if it is to fail, after how many bytes the write of
them fails and how. -/
structure CopyTurn where
  data : Str
  readErr : Option RdErr
  writeErr : Option (Nat × Str)

/-- `io.Copy(ctx, r)` (content.go:244): `ctx` has no `ReadFrom`; a reader with `WriteTo` writes its pieces itself, which is a list of
turns too. Nothing is written if nothing was read; a write that fails ends the loop at once; the end of the text is no error. A
reader that has nothing more to say is at its end. -/
def Prog.copy : List CopyTurn → (Option RdErr → Prog ω) → Prog ω
  | [], k => k none
  | t :: ts, k =>
    let next : Prog ω := match t.readErr with
      | none => Prog.copy ts k
      | some .eof => k none
      | some e => k (some e)
    if t.data.length > 0 then
      match t.writeErr with
      | none => .do (.write t.data) next
      | some (n, e) => .do (.write (t.data.take n)) (k (some (.failed e)))
    else next

/-- `ctx.Stream` (content.go:241-247); `k` gets the error it returns. -/
def Prog.streamFrom (ctype : Str) (ts : List CopyTurn) (k : Option RdErr → Prog ω) : Prog ω :=
  .do (.setHeader kContentType ctype) (.copy ts k)

end Water
