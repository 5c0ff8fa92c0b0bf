import Verif.Model.Middleware
import Verif.Spec.Chain
/- What CORS and Logger are meant to do. -/
namespace Water.Spec
open Water
variable {ω : Type}

/-- The list entry lets the origin in. -/
def LetsIn (origin o : Str) : Prop := o = b!"*" ∨ o = origin

/-- `v` is the value of Access-Control-Allow-Origin for a request from `origin`: the first entry of the list that lets
it in, or empty. -/
def Allowed (origins : List Str) (origin v : Str) : Prop :=
  (∃ pre post, origins = pre ++ v :: post ∧ LetsIn origin v ∧ ∀ o ∈ pre, ¬ LetsIn origin o) ∨
  (v = [] ∧ ∀ o ∈ origins, ¬ LetsIn origin o)

/-- the configured origins; all if none are given -/
def originsOf (c : CORSConfig) : List Str := if c.allowOrigins = [] then [b!"*"] else c.allowOrigins

/-- the configured methods, with a default -/
def methodsOf (c : CORSConfig) : List Str :=
  if c.allowMethods = [] then [b!"GET", b!"POST", b!"PUT", b!"PATCH", b!"DELETE", b!"HEAD"] else c.allowMethods

/-- `h'` is the header map `h` as CORS completes it for a request that is no preflight. -/
structure SimpleHeaders (c : CORSConfig) (req : Req) (h h' : Header) : Prop where
  vary : h' b!"Vary" = some ((h b!"Vary").getD [] ++ [b!"Origin"])
  origin : ∃ v, h' b!"Access-Control-Allow-Origin" = some [v] ∧ Allowed (originsOf c) (req.header.get b!"Origin") v
  credentials : h' b!"Access-Control-Allow-Credentials" =
    if c.allowCredentials then some [b!"true"] else h b!"Access-Control-Allow-Credentials"
  expose : h' b!"Access-Control-Expose-Headers" =
    if join b!"," c.exposeHeaders = [] then h b!"Access-Control-Expose-Headers" else some [join b!"," c.exposeHeaders]
  others : ∀ k, k ∉ [b!"Vary", b!"Access-Control-Allow-Origin", b!"Access-Control-Allow-Credentials",
    b!"Access-Control-Expose-Headers"] → h' k = h k

/-- the same for a preflight request -/
structure PreflightHeaders (c : CORSConfig) (req : Req) (h h' : Header) : Prop where
  vary : h' b!"Vary" = some ((h b!"Vary").getD [] ++
    [b!"Origin", b!"Access-Control-Request-Method", b!"Access-Control-Request-Headers"])
  origin : ∃ v, h' b!"Access-Control-Allow-Origin" = some [v] ∧ Allowed (originsOf c) (req.header.get b!"Origin") v
  methods : h' b!"Access-Control-Allow-Methods" = some [join b!"," (methodsOf c)]
  credentials : h' b!"Access-Control-Allow-Credentials" =
    if c.allowCredentials then some [b!"true"] else h b!"Access-Control-Allow-Credentials"
  headers : h' b!"Access-Control-Allow-Headers" =
    if join b!"," c.allowHeaders ≠ [] then some [join b!"," c.allowHeaders]
    else if req.header.get b!"Access-Control-Request-Headers" ≠ [] then
      some [req.header.get b!"Access-Control-Request-Headers"]
    else h b!"Access-Control-Allow-Headers"
  maxAge : h' b!"Access-Control-Max-Age" = if c.maxAge > 0 then some [itoa c.maxAge] else h b!"Access-Control-Max-Age"
  others : ∀ k, k ∉ [b!"Vary", b!"Access-Control-Allow-Origin", b!"Access-Control-Allow-Methods",
    b!"Access-Control-Allow-Credentials", b!"Access-Control-Allow-Headers", b!"Access-Control-Max-Age"] → h' k = h k

/-- `s` with other response headers -/
def withHeader (s : St ω) (h : Header) : St ω := { s with rw := { s.rw with header := h } }

/-- The call leaves the response header `key` alone. -/
def Keeps (key : Str) : Call ω → Prop
  | .setHeader k _ => canonKey k ≠ key
  | .header f => ∀ h, (f h).1 key = h key
  | _ => True

/-- The body the handlers behind an open Logger read: cut off after 1 MiB if it is logged. -/
def loggedBody (withBody : Bool) (req : Req) (body : Option Str) : Option Str :=
  if withBody && containsStr (req.header.get kContentType) b!"application/json" then body.map (fun d => d.take logLimit) else body

/-- Logger leaves the request body as it is. -/
def BodyKept (closed withBody : Bool) (req : Req) (body : Option Str) : Prop :=
  closed = true ∨ withBody = false ∨ body = none ∨
    (¬ ∃ a b, req.header.get b!"Content-Type" = a ++ b!"application/json" ++ b) ∨ ∃ d, body = some d ∧ d.length ≤ 2 ^ 20

/-- Handler `k` left out of the record: its own events are dropped and the later handlers move up. -/
def dropEv (k : Nat) : Event → Option Event
  | .start i => if i = k then none else some (.start (if k < i then i - 1 else i))
  | .stop i w => if i = k then none else some (.stop (if k < i then i - 1 else i) w)
  | .crash i => if i = k then none else some (.crash (if k < i then i - 1 else i))
  | .next i => if i = k then none else some (.next (if k < i then i - 1 else i))
  | .back i => if i = k then none else some (.back (if k < i then i - 1 else i))
  | .thrown i => if i = k then none else some (.thrown (if k < i then i - 1 else i))

/-- The code never calls `Next`. -/
def NoNext : Prog ω → Prop
  | .ret => True
  | .panic _ => True
  | .next _ => False
  | .call _ k => ∀ r, NoNext (k r)
  | .scope b f => NoNext b ∧ ∀ r, NoNext (f r)

/-- The code calls `Next` at most once, and makes only calls satisfying `A` before. -/
def Once (A : Call ω → Prop) : Prog ω → Prop
  | .ret => True
  | .panic _ => True
  | .next k => NoNext k
  | .call c k => A c ∧ ∀ r, Once A (k r)
  | .scope b f => (Once A b ∧ ∀ r, NoNext (f r)) ∨ (NoNext b ∧ CallsIn A b ∧ ∀ r, Once A (f r))

/-- The call writes no response. -/
def Unwriting : Call ω → Prop
  | .writeHeader _ => False
  | .write _ => False
  | _ => True

/-- The call does not replace the request body, and does not see the difference between related worlds. -/
def Unaware (R : ω → ω → Prop) : Call ω → Prop
  | .setBody _ => False
  | .world f => ∀ w w', R w w' → R (f w).1 (f w').1 ∧ (f w').2 = (f w).2
  | _ => True

end Water.Spec
