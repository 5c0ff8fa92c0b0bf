import Verif.Spec.Resume
import Verif.Model.ServeFile
/-
Single files: what C134 is about. Nothing of this is in /repo.
-/
namespace Water.Spec
open Water
variable {ω : Type}

/-- a slash or a backslash -/
def AnySlash (c : UInt8) : Prop := c = 47 ∨ c = 92

/-- `..` stands in the path as an element, between slashes or backslashes or at an end. -/
def HasDotDot (p : Str) : Prop :=
  ∃ a b, p = a ++ b!".." ++ b ∧ (∀ c, a.getLast? = some c → AnySlash c) ∧ (∀ c, b.head? = some c → AnySlash c)

/-- The path ends with the element `index.html`. -/
def NamesIndex (p : Str) : Prop := ∃ a, p = a ++ b!"/index.html"

/-- A request for a whole file, without conditions. -/
structure PlainGet (req : Req) : Prop where
  method : req.method = b!"GET"
  others : ∀ x ∈ [b!"If-Match", b!"If-None-Match", b!"If-Modified-Since", b!"If-Unmodified-Since", b!"Range", b!"If-Range"], req.header.get x = []

/-- The application `e` has the route `StaticFile(pattern, file)` on its root, without middleware there, and the GET requests for `path` are
for it: no endpoint registered elsewhere accepts the path too. -/
def SingleApp (rx : Regex) (o : Oracle) (io : ContentIO ω) (disk : OsFiles ω) (pattern file path : Str) (e : Engine (Prog ω)) : Prop :=
  ∃ (a b : List (Op (Prog ω))) (r : Nat) (http : Http ω) (heap : Heap (Prog ω)) (opts : List (Opt (Prog ω))),
    http.serveFile = serveFileStd io o disk ∧ runOps [] (a ++ singleOps r http pattern file ++ b) = .ok heap ∧ handler rx heap r opts = .ok e ∧
    staticOf opts = false ∧ beforesOf (a ++ singleOps r http pattern file ++ b) r = [] ∧ usesOf (a ++ singleOps r http pattern file ++ b) r = [] ∧
    Accepts rx (routeSegs (trimSpace pattern)) (pathSegs path) ∧
    ∀ i l, Endpoint (a ++ singleOps r http pattern file ++ b) r i l → methodOf (a ++ singleOps r http pattern file ++ b) i = b!"GET" →
      Accepts rx (routeSegs (fullPath (a ++ singleOps r http pattern file ++ b) l)) (pathSegs path) →
      fullPath (a ++ singleOps r http pattern file ++ b) l = trimSpace pattern

end Water.Spec
