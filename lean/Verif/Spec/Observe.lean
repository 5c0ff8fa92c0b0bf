import Verif.Spec.Chain
/-
The trace is recorded by the model. To show that it is what really happens, let the handlers keep a diary of
their own: every handler is wrapped so that it notes in the world when it starts, calls `Next`, and ends.
-/
namespace Water.Spec
variable {ω : Type}

/-- Note an event in the diary. -/
def note (e : Event) (k : Prog (ω × List Event)) : Prog (ω × List Event) :=
  .call (.world (fun (w, l) => ((w, l ++ [e]), .unit))) (fun _ => k)

/-- A call of the original handler; the diary is out of its reach. -/
def liftCall : Call ω → Call (ω × List Event)
  | .writeHeader c => .writeHeader c
  | .write d => .write d
  | .setHeader k v => .setHeader k v
  | .header f => .header f
  | .rawWriteHeader c => .rawWriteHeader c
  | .rawWrite d => .rawWrite d
  | .written => .written
  | .status => .status
  | .fullPath => .fullPath
  | .param k => .param k
  | .envSet k v => .envSet k v
  | .envGet k => .envGet k
  | .envMaybe k => .envMaybe k
  | .reqMethod => .reqMethod
  | .reqTexts f => .reqTexts f
  | .reqPath => .reqPath
  | .reqHeader k => .reqHeader k
  | .readBody l => .readBody l
  | .hasBody => .hasBody
  | .setBody d => .setBody d
  | .parseForm => .parseForm
  | .readForm f => .readForm f
  | .world f => .world (fun (w, l) => let (w', r) := f w; ((w', l), r))

/-- The body of handler `i`, noting its calls of `Next`. -/
def liftBody (i : Nat) : Prog ω → Prog (ω × List Event)
  | .ret => .ret
  | .panic v => .panic v
  | .next k => note (.next i) (.scope (.next .ret) (fun r =>
      match r with
      | none => note (.back i) (liftBody i k)
      | some v => note (.thrown i) (.panic v)))
  | .call c k => .call (liftCall c) (fun r => liftBody i (k r))
  | .scope b f => .scope (liftBody i b) (fun r => liftBody i (f r))

/-- Handler `i` with a diary. -/
def diary (i : Nat) (h : Prog ω) : Prog (ω × List Event) :=
  note (.start i) (.scope (liftBody i h) (fun r =>
    match r with
    | none => .call .written (fun w => note (.stop i (w == .bool true)) .ret)
    | some v => note (.crash i) (.panic v)))

end Water.Spec
