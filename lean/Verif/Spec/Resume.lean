import Verif.Spec.Cache
import Verif.Model.Download
/-
A client that takes up a broken download where it stopped (RFC 7233). Nothing of this is in /repo.
-/
namespace Water.Spec
open Water
variable {ω : Type}

/-- What a client has of a download: the bytes that came, what it tells the version by, and whether it came to the end. -/
structure Part where
  got : Str
  check : Option Str
  done : Bool
  deriving DecidableEq

/-- where the client goes on, and with which version: if it has something, but not all, and can tell the version -/
def goesOn (p : Option Part) : Option (Str × Str) :=
  match p with
  | some ⟨got, some c, false⟩ => if got = [] then none else some (got, c)
  | _ => none

/-- The request of the client: for the rest behind the bytes it has, if the version is the same, or else for all. -/
structure Resumes (p : Option Part) (req : Req) : Prop where
  method : req.method = b!"GET"
  range : req.header.get b!"Range" = match goesOn p with | some (got, _) => b!"bytes=" ++ itoaNat got.length ++ b!"-" | none => []
  check : req.header.get b!"If-Range" = match goesOn p with | some (_, c) => c | none => []
  others : ∀ x ∈ [b!"If-Match", b!"If-None-Match", b!"If-Modified-Since", b!"If-Unmodified-Since"], req.header.get x = []

/-- what tells the version: the tag, or else the date -/
def checkOf (strict : Bool) (h : Header) : Option Str := (tagOf strict h).or (dateOf h)

/-- What the client makes of the answer if its connection breaks after `cut` bytes of the body: 200 is the beginning of the file, 206 the
rest behind what it has, if it says so. Anything else is no file. -/
def takeUp (strict : Bool) (p : Option Part) (log : List WEvent) (cut : Nat) : Option Part :=
  let body := receivedBody log
  match received log, receivedHeader log with
  | some 200, some h => some ⟨body.take cut, checkOf strict h, decide (body.length ≤ cut)⟩
  | some 206, some h =>
    match goesOn p with
    | some (got, c) =>
      if (b!"bytes " ++ itoaNat got.length ++ b!"-").isPrefixOf ((fieldOf h b!"Content-Range").getD []) then
        some ⟨got ++ body.take cut, some c, decide (body.length ≤ cut)⟩
      else none
    | none => none
  | _, _ => none

/-- What the client has after the visits, each of which breaks off somewhere, or not. It may begin anew at any time. A request without any
answer changes nothing, and is no visit. -/
inductive Fetched (strict : Bool) (answer : CacheVisit ω → List WEvent) : List (CacheVisit ω) → Option Part → Prop where
  | nil : Fetched strict answer [] none
  | anew {vs p} : Fetched strict answer vs p → Fetched strict answer vs none
  | visit {vs p v} (cut : Nat) : Fetched strict answer vs p → Resumes p v.req → Fetched strict answer (vs ++ [v]) (takeUp strict p (answer v) cut)

/-- The file `fpath` in the world `w`, as `ctx.Download` finds it. -/
def HasDownload (fs : FS ω) (read : Nat → ω → Str) (w : ω) (fpath : Str) (i : FileInfo) (d : Str) : Prop :=
  ∃ w1 f w2, fs.openFile fpath w = (w1, some f) ∧ fs.stat f w1 = (w2, some i) ∧ i.dir = false ∧ read f w2 = d

/-- The application `e` has an endpoint for `path` with a handler that calls `ctx.Download(fpath, inline...)` and does no more if that
succeeds, without middleware. -/
def DownloadApp (rx : Regex) (o : Oracle) (io : ContentIO ω) (fs : FS ω) (fpath : Str) (path : Str) (e : Engine (Prog ω)) : Prop :=
  ∃ (ops : List (Op (Prog ω))) (r i : Nat) (l : List Nat) (http : Http ω) (heap : Heap (Prog ω)) (opts : List (Opt (Prog ω))) (inline : List Bool)
    (k : Bool → Prog ω),
    http.serveContent = (fun name modTime f => (serveContentStd io o name modTime f).viaCtx) ∧ k true = .ret ∧ runOps [] ops = .ok heap ∧ handler rx heap r opts = .ok e ∧ staticOf opts = false ∧
    Endpoint ops r i l ∧ methodOf ops i = b!"GET" ∧ chainOf ops r i l = [.ctxFunc (.download fs http fpath inline k)] ∧
    Accepts rx (routeSegs (fullPath ops l)) (pathSegs path) ∧
    ∀ j l', Endpoint ops r j l' → methodOf ops j = b!"GET" → Accepts rx (routeSegs (fullPath ops l')) (pathSegs path) → fullPath ops l' = fullPath ops l

end Water.Spec
