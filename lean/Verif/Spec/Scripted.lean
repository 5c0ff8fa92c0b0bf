import Verif.Spec.Reference
/-
A request alone, in a world that gives a list of answers one after another, whatever it is asked.
-/
namespace Water.Spec
open Water
variable {ω : Type}

/-- The call, with what is asked of the world replaced by the next answer of the list. -/
def scriptCall : Call ω → Call (List Res)
  | .writeHeader code => .writeHeader code
  | .write data => .write data
  | .setHeader k v => .setHeader k v
  | .header f => .header f
  | .rawWriteHeader code => .rawWriteHeader code
  | .rawWrite data => .rawWrite data
  | .written => .written
  | .status => .status
  | .fullPath => .fullPath
  | .param k => .param k
  | .envSet k v => .envSet k v
  | .envGet k => .envGet k
  | .envMaybe k => .envMaybe k
  | .reqMethod => .reqMethod
  | .reqTexts f => .reqTexts f
  | .reqPath => .reqPath
  | .reqHeader k => .reqHeader k
  | .readBody limit => .readBody limit
  | .hasBody => .hasBody
  | .setBody data => .setBody data
  | .parseForm => .parseForm
  | .readForm f => .readForm f
  | .world _ => .world (fun l => (l.tail, l.headD .unit))

/-- The handler, asking the list. -/
def scriptProg : Prog ω → Prog (List Res)
  | .ret => .ret
  | .panic v => .panic v
  | .next k => .next (scriptProg k)
  | .call c k => .call (scriptCall c) (fun r => scriptProg (k r))
  | .scope body fin => .scope (scriptProg body) (fun v => scriptProg (fin v))

open Classical in
/-- What a chain of handlers does alone when the world answers `script`, of which it leaves `rest`. If it leaves anything else this is no
answer at all. The world itself is left alone. -/
noncomputable def aloneWith (chain : Req → List (Prog (List Res)) → St (List Res) → Out × St (List Res)) (script rest : List Res) (req : Req)
    (hs : List (Prog ω)) (s : St ω) : Out × St ω :=
  let r := chain req (hs.map scriptProg) (fresh s.ctx.fullPath s.ctx.params s.rw s.body script)
  if r.2.world = rest then (r.1, { s with rw := r.2.rw, forms := r.2.forms }) else (.fuel, s)

end Water.Spec
