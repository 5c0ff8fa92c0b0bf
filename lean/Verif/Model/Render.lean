import Verif.Model.Context
/- `ctx.HTML`, `ctx.HTMLSet` and `SetRender` (render.go), in a process with several applications. Simplified: requests come one after the
other, and none of them calls `SetRender` itself. -/
namespace Water
variable {ω δ : Type}

/-- A value of type `Render` (render.go:24-26) that is not nil: the code of its `HTMLSet`, with what comes after the call. `δ` are the data. -/
abbrev RenderCode (δ ω : Type) := Int → Str → Str → δ → Prog ω → Prog ω

/-- `defaultRender.HTMLSet` (render.go:15-18). -/
def defaultRender : RenderCode δ ω := fun code _ _ _ k => .html code k

/-- `renderHTML` (render.go:38-40) with the value of `_render` at the time of the call: the call of a method of a nil interface panics. -/
def Prog.renderHTML (g : Option (RenderCode δ ω)) (code : Int) (set tpl : Str) (data : δ) (k : Prog ω) : Prog ω :=
  match g with
  | none => .panic callPanic
  | some r => r code set tpl data k

/-- `ctx.HTML` (render.go:29-31). -/
def Prog.htmlPage (g : Option (RenderCode δ ω)) (code : Int) (name : Str) (data : δ) (k : Prog ω) : Prog ω :=
  .renderHTML g code b!"" name data k

/-- `ctx.HTMLSet` (render.go:34-36). -/
def Prog.htmlSet (g : Option (RenderCode δ ω)) (code : Int) (set tpl : Str) (data : δ) (k : Prog ω) : Prog ω :=
  .renderHTML g code set tpl data k

/-- What happens in a process, and which application does it: a call of `SetRender` (render.go:9-11), perhaps with nil, or a request,
for which a chain of handlers runs that may call `HTML`. -/
inductive ProcOp (δ ω : Type) where
  | setRender (app : Nat) (r : Option (RenderCode δ ω))
  | request (app : Nat) (req : Req) (start : St ω) (chain : Option (RenderCode δ ω) → List (Prog ω))

/-- the application -/
def ProcOp.app : ProcOp δ ω → Nat
  | .setRender a _ => a
  | .request a _ _ _ => a

/-- The process: `_render` is one variable (render.go:7); the results of the requests, with the application that was asked. -/
def runProc (o : Oracle) : Option (RenderCode δ ω) → List (ProcOp δ ω) → List (Nat × Out × St ω)
  | _, [] => []
  | _, .setRender _ r :: ops => runProc o r ops
  | g, .request a req s chain :: ops => (a, runAll o req { s with ctx := { s.ctx with handlers := chain g } }) :: runProc o g ops

/-- A process begins with the default render (render.go:20-22). -/
def process (o : Oracle) (ops : List (ProcOp δ ω)) : List (Nat × Out × St ω) := runProc o (some defaultRender) ops

end Water
