import Verif.Model.Router
import Verif.Spec.Routing
/-
Specification of route registration, read off the history of calls only: no heap, no tree of routers.
The calls `NewRouter`, `Group` and `GET/POST/..` make things, numbered in the order they are made.
-/
namespace Water.Spec
open Water
variable {α : Type}

/-- What a call makes: a root, a group or an endpoint. -/
structure Made (α : Type) where
  parent : Option Nat
  method : Str
  pattern : Str
  handlers : List (HVal α)

/-- What one call makes, if anything. -/
def madeBy : Op α → Option (Made α)
  | .newRouter => some ⟨none, [], [], []⟩
  | .group r p => some ⟨some r, [], p, []⟩
  | .handle r m p hs => some ⟨some r, m, p, hs⟩
  | _ => none

/-- Everything made by a history, in order. -/
def made (ops : List (Op α)) : List (Made α) := ops.filterMap madeBy

/-- What one call gives router `r` as middleware: `Use`, and the middleware arguments of `r.Group`. -/
def usesBy (r : Nat) : Op α → List (HVal α)
  | .use r' hs => if r' = r then hs else []
  | .groupMw r' h => if r' = r then [.ctxFunc h] else []
  | _ => []

/-- The middleware of router `r` over the whole history, in call order. -/
def usesOf (ops : List (Op α)) (r : Nat) : List (HVal α) := ops.flatMap (usesBy r)

/-- What one call gives root `r` as global middleware. -/
def beforesBy (r : Nat) : Op α → List (HVal α)
  | .before r' hs => if r' = r then hs else []
  | _ => []

/-- The `Before` middleware of root `r` over the whole history, in call order. -/
def beforesOf (ops : List (Op α)) (r : Nat) : List (HVal α) := ops.flatMap (beforesBy r)

/-- `Lineage ms i l`: `l` lists the enclosing routers of `i` from its root down to `i` itself. -/
inductive Lineage (ms : List (Made α)) : Nat → List Nat → Prop where
  | root {i : Nat} {c : Made α} : ms[i]? = some c → c.parent = none → Lineage ms i [i]
  | child {i p : Nat} {c : Made α} {l : List Nat} : ms[i]? = some c → c.parent = some p →
      Lineage ms p l → Lineage ms i (l ++ [i])

/-- `i` was made below root `r`, with lineage `l`. -/
def Under (ops : List (Op α)) (r i : Nat) (l : List Nat) : Prop := Lineage (made ops) i l ∧ l.head? = some r

/-- `i` is an endpoint (made by `GET/POST/..`) below root `r`. -/
def Endpoint (ops : List (Op α)) (r i : Nat) (l : List Nat) : Prop :=
  Under ops r i l ∧ ∃ c, (made ops)[i]? = some c ∧ c.method ≠ []

/-- Nothing was made inside `i`. -/
def Childless (ops : List (Op α)) (i : Nat) : Prop := ∀ c ∈ made ops, c.parent ≠ some i

/-- `i` was made with this method -/
def methodOf (ops : List (Op α)) (i : Nat) : Str := (((made ops)[i]?).map (·.method)).getD []
/-- `i` was made with this pattern -/
def patternOf (ops : List (Op α)) (i : Nat) : Str := (((made ops)[i]?).map (·.pattern)).getD []
/-- `i` was made with these handlers -/
def handlersOf (ops : List (Op α)) (i : Nat) : List (HVal α) := (((made ops)[i]?).map (·.handlers)).getD []

/-- The full path: the trimmed patterns from the root to the endpoint. -/
def fullPath (ops : List (Op α)) (l : List Nat) : Str := l.flatMap (fun j => trimSpace (patternOf ops j))

/-- The chain of an endpoint: the root's `Before` handlers, then the middleware of every enclosing router from
the root inwards, then its own handlers. -/
def chainOf (ops : List (Op α)) (r i : Nat) (l : List Nat) : List (HVal α) :=
  beforesOf ops r ++ l.flatMap (usesOf ops) ++ handlersOf ops i

/-- The handler in a handler value; `none` for unsupported values. -/
def payload : HVal α → Option α
  | .handler a => some a
  | .ctxFunc a => some a
  | .httpHandler a => some a
  | .httpFunc a => some a
  | .nil => none
  | .other => none

/-- The route an endpoint stands for. -/
def routeFor (ops : List (Op α)) (r : Nat) (e : Nat × List Nat) : Route α :=
  { method := methodOf ops e.1, uri := fullPath ops e.2, variant := [],
    handlers := (chainOf ops r e.1 e.2).filterMap payload }

/-- Depth-first order: two lineages branch at a router, and `a` goes into the child made first. -/
def Precedes (a b : List Nat) : Prop := ∃ c x s y t, a = c ++ x :: s ∧ b = c ++ y :: t ∧ x < y

/-- A registered path has the right outer form: `/`, or it begins with a slash and does not end with one. -/
def PathForm (uri : Str) : Prop := uri = [slash] ∨ (uri.head? = some slash ∧ uri.getLast? ≠ some slash)

/-- A pattern segment is well formed: no surrounding white space; and it begins with `*`, or has no angle
bracket, or is bracketed by `<` and `>`; a regexp segment has its `~` before the first `>`, has as many
groups as names if the segment has any parenthesis, and the regexp compiles. -/
def WellFormed (rx : Regex) (p : Str) : Prop :=
  trimSpace p = p ∧
    (p.head? = some star ∨ (lt ∉ p ∧ gt ∉ p) ∨
      (p.head? = some lt ∧ p.getLast? = some gt ∧
        (kind p = .regexp → tilde ∈ p.takeWhile (· != gt) ∧
          (lparen ∈ p ∨ rparen ∈ p → (regexText p).count lparen = (regexNames p).length ∧
            (regexText p).count rparen = (regexNames p).length) ∧
          rx.compiles (regexText p) = true)))

/-- The setting of the static-route option: the last one given, off by default. -/
def staticOf (opts : List (Opt α)) : Bool :=
  (opts.filterMap (fun o => match o with | .staticRouter b => some b | _ => none)).getLast?.getD false

/-- The multipart memory option: the last one given, if any. -/
def memOf (opts : List (Opt α)) : Option Int :=
  (opts.filterMap (fun o => match o with | .maxMultipart m => some m | _ => none)).getLast?

/-- The not-found handlers given: the last such option, if any. -/
def noFoundGiven (opts : List (Opt α)) : Option (List (HVal α)) :=
  (opts.filterMap (fun o => match o with | .noFound hs => some hs | _ => none)).getLast?

/-- The not-found chain: the root's `Before` handlers and then the given ones; none at all by default. -/
def noFoundOf (ops : List (Op α)) (r : Nat) (opts : List (Opt α)) : List (HVal α) :=
  match noFoundGiven opts with
  | none => []
  | some hs => beforesOf ops r ++ hs

end Water.Spec
