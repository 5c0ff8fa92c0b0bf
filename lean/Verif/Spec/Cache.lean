import Verif.Spec.Files
import Verif.Spec.Fetch
import Verif.Spec.Response
import Verif.Model.Content
/-
Clients that keep files: a cache that asks whether what it has is still right (RFC 7232, RFC 7234 4.3), and one that takes up a broken
download where it stopped (RFC 7233). Nothing of this is in /repo.
-/
namespace Water.Spec
open Water
variable {ω : Type}

/-- `name` is a file in the world `w`: `i` is its description and `d` what is in it (when the handler comes to read it, after it asked for
the Expires header). -/
def HasFile (fs : FS ω) (read : Nat → ω → Str) (opt : StaticOptions ω) (w : ω) (name : Str) (i : FileInfo) (d : Str) : Prop :=
  ∃ w1 f w2, fs.openFile name w = (w1, some f) ∧ fs.stat f w1 = (w2, some i) ∧ i.dir = false ∧
    read f (match opt.expires with | none => w2 | some e => (e w2).1) = d

/-- The second of a time. -/
def second (t : Int) : Int := t / 1000000000

/-- What a date says: dates are written with whole seconds, and read back. -/
def Dated (io : ContentIO ω) (t : Int) : Prop :=
  io.formatTime t ≠ [] ∧ io.parseTime (io.formatTime t) = some (second t * 1000000000)

/-- the bytes of an entity tag between the quotes, RFC 7232, 2.3 -/
def tagByte (c : UInt8) : Bool := c == 33 || (35 ≤ c && c ≤ 126) || 128 ≤ c

/-- An entity tag: text in quotes, perhaps with `W/` in front. -/
def entityTag (s : Str) : Bool :=
  let t := if s.take 2 = b!"W/" then s.drop 2 else s
  decide (2 ≤ t.length) && t.head? == some 34 && t.getLast? == some 34 && (t.drop 1).dropLast.all tagByte

/-- The application `e` serves the file `name` by `StaticAdvance` with these options: it is a router with the static files among other
endpoints (none of which has the path of the file), without middleware on the router itself. -/
def FileApp (rx : Regex) (o : Oracle) (io : ContentIO ω) (fs : FS ω) (opt : StaticOptions ω) (name : Str) (e : Engine (Prog ω)) : Prop :=
  name ≠ [] ∧ name.getLast? ≠ some 47 ∧ (∀ s ∈ elems opt.pre, Ordinary s) ∧
  ∃ (a b : List (Op (Prog ω))) (r : Nat) (http : Http ω) (heap : Heap (Prog ω)) (opts : List (Opt (Prog ω))),
    http.serveContent = serveContentStd io o ∧ runOps [] (a ++ staticOps r fs http opt ++ b) = .ok heap ∧ handler rx heap r opts = .ok e ∧
    staticOf opts = false ∧ beforesOf (a ++ staticOps r fs http opt ++ b) r = [] ∧ usesOf (a ++ staticOps r fs http opt ++ b) r = [] ∧
    ∀ i l, Endpoint (a ++ staticOps r fs http opt ++ b) r i l → methodOf (a ++ staticOps r fs http opt ++ b) i = b!"GET" →
      Accepts rx (routeSegs (fullPath (a ++ staticOps r fs http opt ++ b) l)) (pathSegs (pathBelow (elems opt.pre) name)) →
      fullPath (a ++ staticOps r fs http opt ++ b) l = pathBelow (elems opt.pre) [42]

/-- What a cache keeps of a response: the body, its tag and its date. -/
structure Copy where
  body : Str
  etag : Option Str
  date : Option Str
  deriving DecidableEq

/-- The tag of a response. A strict client takes no notice of a tag that is none. -/
def tagOf (strict : Bool) (h : Header) : Option Str := (fieldOf h b!"Etag").filter (fun t => !strict || entityTag t)

/-- The date of a response. -/
def dateOf (h : Header) : Option Str := fieldOf h b!"Last-Modified"

/-- The request of the cache: with the tag and the date, if it has them. -/
structure Asks (k : Option Copy) (req : Req) : Prop where
  method : req.method = b!"GET"
  tag : req.header.get b!"If-None-Match" = (k.bind (·.etag)).getD []
  date : req.header.get b!"If-Modified-Since" = (k.bind (·.date)).getD []
  others : ∀ x ∈ [b!"If-Match", b!"If-Unmodified-Since", b!"Range", b!"If-Range"], req.header.get x = []

/-- What the cache makes of the answer: 200 is a new response; 304 means that what it has is right, and brings it up to date. Anything else
is no file. -/
def refresh (strict : Bool) (k : Option Copy) (log : List WEvent) : Option Copy :=
  match received log, receivedHeader log with
  | some 200, some h => some ⟨receivedBody log, tagOf strict h, dateOf h⟩
  | some 304, some h => k.map (fun k => { k with etag := (tagOf strict h).or k.etag, date := (dateOf h).or k.date })
  | _, _ => none

/-- A visit: the request, and what it finds: the context, the body of the request, and the rest of the world with all files. -/
structure CacheVisit (ω : Type) where
  req : Req
  ctx : Ctx ω
  body : Option Str
  world : ω

/-- What the cache has after the visits. It may lose it at any time. -/
inductive Cached (strict : Bool) (answer : CacheVisit ω → List WEvent) : List (CacheVisit ω) → Option Copy → Prop where
  | nil : Cached strict answer [] none
  | lose {vs k} : Cached strict answer vs k → Cached strict answer vs none
  | visit {vs k v} : Cached strict answer vs k → Asks k v.req → Cached strict answer (vs ++ [v]) (refresh strict k (answer v))

end Water.Spec
