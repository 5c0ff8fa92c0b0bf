import Verif.Spec.ServeFile
import Verif.Model.Redirect
/-
HEAD requests for static files: what C135 is about. Nothing of this is in /repo.
-/
namespace Water.Spec
open Water
variable {ω : Type}

/-- The HEAD request for what `req` asks for (RFC 7231, 4.3.2): nothing but the method differs. -/
def headOf (req : Req) : Req := { req with method := b!"HEAD" }

/-- A call that does not ask for the method, the route, its parameters, or the form. -/
def MethodBlindCall (req : Req) : Call ω → Prop
  | .reqMethod => False
  | .reqTexts f => f req = f (headOf req)
  | .fullPath => False
  | .param _ => False
  | .parseForm => False
  | .readForm _ => False
  | _ => True

/-- Handler code with such calls only. -/
inductive MethodBlind (req : Req) : Prog ω → Prop where
  | ret : MethodBlind req .ret
  | panic (v : PVal) : MethodBlind req (.panic v)
  | next {k : Prog ω} : MethodBlind req k → MethodBlind req (.next k)
  | call {c : Call ω} {k : Res → Prog ω} : MethodBlindCall req c → (∀ r, MethodBlind req (k r)) → MethodBlind req (.call c k)
  | scope {p : Prog ω} {fin : Option PVal → Prog ω} : MethodBlind req p → (∀ r, MethodBlind req (fin r)) → MethodBlind req (.scope p fin)

/-- the functions of net/http that static routes use -/
def StdHttp (env : RedirEnv) (io : ContentIO ω) (o : Oracle) (disk : OsFiles ω) (http : Http ω) : Prop :=
  http.redirect = (fun url => httpRedirect env true url 302) ∧ http.serveFile = serveFileStd io o disk ∧ http.serveContent = serveContentStd io o

/-- The application `e` serves what is below the prefix of `opt` by `StaticAdvance`. The middleware on its router does not look at what
`MethodBlind` says, and the endpoints registered elsewhere do not accept the path of the request. -/
def HeadApp (rx : Regex) (env : RedirEnv) (o : Oracle) (io : ContentIO ω) (disk : OsFiles ω) (fs : FS ω) (opt : StaticOptions ω) (req : Req)
    (e : Engine (Prog ω)) : Prop :=
  (∀ s ∈ elems opt.pre, Ordinary s) ∧
  ∃ (a b : List (Op (Prog ω))) (r : Nat) (http : Http ω) (heap : Heap (Prog ω)) (opts : List (Opt (Prog ω))),
    StdHttp env io o disk http ∧ runOps [] (a ++ staticOps r fs http opt ++ b) = .ok heap ∧ handler rx heap r opts = .ok e ∧ staticOf opts = false ∧
    (∀ p ∈ (beforesOf (a ++ staticOps r fs http opt ++ b) r ++ usesOf (a ++ staticOps r fs http opt ++ b) r).filterMap payload, MethodBlind req p) ∧
    ∀ i l, Endpoint (a ++ staticOps r fs http opt ++ b) r i l →
      methodOf (a ++ staticOps r fs http opt ++ b) i = b!"GET" ∨ methodOf (a ++ staticOps r fs http opt ++ b) i = b!"HEAD" →
      Accepts rx (routeSegs (fullPath (a ++ staticOps r fs http opt ++ b) l)) (pathSegs req.path) →
      fullPath (a ++ staticOps r fs http opt ++ b) l = pathBelow (elems opt.pre) [42]

/-- The same with a route made by `StaticFile(pattern, file)`. -/
def HeadFileApp (rx : Regex) (o : Oracle) (io : ContentIO ω) (disk : OsFiles ω) (pattern file : Str) (req : Req) (e : Engine (Prog ω)) : Prop :=
  ∃ (a b : List (Op (Prog ω))) (r : Nat) (http : Http ω) (heap : Heap (Prog ω)) (opts : List (Opt (Prog ω))),
    http.serveFile = serveFileStd io o disk ∧ runOps [] (a ++ singleOps r http pattern file ++ b) = .ok heap ∧ handler rx heap r opts = .ok e ∧
    staticOf opts = false ∧
    (∀ p ∈ (beforesOf (a ++ singleOps r http pattern file ++ b) r ++ usesOf (a ++ singleOps r http pattern file ++ b) r).filterMap payload, MethodBlind req p) ∧
    Accepts rx (routeSegs (trimSpace pattern)) (pathSegs req.path) ∧
    ∀ i l, Endpoint (a ++ singleOps r http pattern file ++ b) r i l →
      methodOf (a ++ singleOps r http pattern file ++ b) i = b!"GET" ∨ methodOf (a ++ singleOps r http pattern file ++ b) i = b!"HEAD" →
      Accepts rx (routeSegs (fullPath (a ++ singleOps r http pattern file ++ b) l)) (pathSegs req.path) →
      fullPath (a ++ singleOps r http pattern file ++ b) l = trimSpace pattern

end Water.Spec
