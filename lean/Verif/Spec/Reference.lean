import Verif.Spec.Compose
import Verif.Spec.Params
import Verif.Spec.Static
/-
A reference server: how a request is answered, read off the list of registrations. There is no tree, no map of static routes, no pool and
no reused context; the only thing carried from one request to another is what the static-route option leaves in `Params`.
-/
namespace Water.Spec
open Water
variable {ω : Type}

/-- What a request leads to: how serving ended, the response, the world after it, and the forms parsed. -/
structure Answer (ω : Type) where
  out : Out
  rw : Writer
  world : ω
  forms : List Bool

/-- What can be observed of a served request. -/
def answerOf (sv : Served ω) : Answer ω := ⟨sv.out, sv.rw, sv.world, sv.forms⟩

/-- A status line and nothing else. -/
def statusOnly (rw : Writer) (w : ω) (code : Int) : Answer ω := ⟨.ret, { rw with log := rw.log ++ [.status true code rw.header] }, w, []⟩

/-- The answer given by a chain of handlers. -/
def chainAnswer (r : Out × St ω) : Answer ω := ⟨r.1, r.2.rw, r.2.world, r.2.forms⟩

/-- A registered server: its routes in the order of registration, what it does when nothing is found, and the static-route option. -/
structure Site (ω : Type) where
  routes : List (Route (Prog ω))
  noFound : List (Prog ω)
  static : Bool

/-- The request can be routed. -/
def Routable (req : Req) : Prop :=
  (req.protoMajor > 1 ∨ req.protoMajor = 1 ∧ req.protoMinor ≥ 1) ∧ req.requestURI ≠ b!"*" ∧ req.method ≠ b!"CONNECT"

def Supported (m : Str) : Prop := m ∈ [b!"GET", b!"POST", b!"DELETE", b!"PUT", b!"PATCH", b!"HEAD", b!"OPTIONS"]

/-- The path is served by the static map. -/
def Direct (site : Site ω) (req : Req) : Prop := site.static = true ∧ StaticAt site.routes req.method req.path

/-- How the site answers a request. `chain` says what a list of handlers does; `prev` are parameters left by an earlier request. The last
two are the answer and the parameters left behind. -/
inductive Reference (rx : Regex) (chain : Req → List (Prog ω) → St ω → Out × St ω) (site : Site ω) (req : Req) (prev : Params) (rw : Writer)
    (body : Option Str) (w : ω) : Answer ω → Params → Prop where
  | notAcceptable : ¬ Routable req → Reference rx chain site req prev rw body w (statusOnly rw w 406) prev
  | notAllowed : Routable req → ¬ Supported req.method → Reference rx chain site req prev rw body w (statusOnly rw w 405) prev
  | direct {hs : List (Prog ω)} {u : Str} : Routable req → Supported req.method → Direct site req →
      FirstHandlers (tableFor req.method site.routes) (routeSegs req.path) hs →
      LastUri (tableFor req.method site.routes) (routeSegs req.path) u →
      Reference rx chain site req prev rw body w (chainAnswer (chain req hs (fresh (some u) prev rw body w))) prev
  | found {r : List Str} {hs : List (Prog ω)} {u : Str} {ps : Params} : Routable req → Supported req.method → ¬ Direct site req →
      Best rx (tableFor req.method site.routes) (pathSegs req.path) r → FirstHandlers (tableFor req.method site.routes) r hs →
      LastUri (tableFor req.method site.routes) r u →
      (∀ x v, ps x = some v ↔ ParamIs rx (tableFor req.method site.routes) (pathSegs req.path) (some r) x v) →
      Reference rx chain site req prev rw body w (chainAnswer (chain req hs (fresh (some u) ps rw body w))) ps
  | missing {ps : Params} : Routable req → Supported req.method → ¬ Direct site req →
      (∀ x ∈ tableFor req.method site.routes, ¬ Accepts rx x.segs (pathSegs req.path)) →
      (∀ x v, ps x = some v ↔ Newest rx (tableFor req.method site.routes) (pathSegs req.path) none x v) →
      Reference rx chain site req prev rw body w
        (if site.noFound = [] then statusOnly rw w 404 else chainAnswer (chain req site.noFound (fresh none ps rw body w))) ps

/-- A sequence of requests, each with its answer. `left` are the parameters earlier requests left behind: a request may find any of
them, or none. -/
inductive Session (rx : Regex) (chain : Req → List (Prog ω) → St ω → Out × St ω) (site : Site ω) :
    List Params → ω → List (Req × Writer × Option Str × Answer ω) → Prop where
  | done {left : List Params} {w : ω} : Session rx chain site left w []
  | request {left : List Params} {prev ps : Params} {w : ω} {req : Req} {rw : Writer} {body : Option Str} {a : Answer ω}
      {rest : List (Req × Writer × Option Str × Answer ω)} :
      prev = Map.empty ∨ prev ∈ left → Reference rx chain site req prev rw body w a ps →
      Session rx chain site (ps :: left) a.world rest → Session rx chain site left w ((req, rw, body, a) :: rest)

/-- The same for the engine: a request gets a new context or one that an earlier request put back. -/
inductive Serving (rx : Regex) (o : Oracle) (e : Engine (Prog ω)) :
    List (Ctx ω) → ω → List (Req × Writer × Option Str × Answer ω) → Prop where
  | done {pool : List (Ctx ω)} {w : ω} : Serving rx o e pool w []
  | request {pool pool' : List (Ctx ω)} {c : Ctx ω} {w : ω} {req : Req} {rw : Writer} {body : Option Str}
      {rest : List (Req × Writer × Option Str × Answer ω)} :
      c = Ctx.new ∨ c ∈ pool → (∀ c' ∈ pool', c' ∈ pool ∨ c' ∈ (serve rx o e c req rw body w).puts) →
      Serving rx o e pool' (serve rx o e c req rw body w).world rest →
      Serving rx o e pool w ((req, rw, body, answerOf (serve rx o e c req rw body w)) :: rest)

end Water.Spec
