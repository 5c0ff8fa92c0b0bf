import Verif.Spec.Middleware
import Verif.Spec.Register
/-
What a browser does with CORS headers: the CORS protocol of the Fetch standard (https://fetch.spec.whatwg.org, sections "CORS check" and
"CORS-preflight fetch"), as far as it looks at a response. Nothing of this is in /repo.
-/
namespace Water.Spec
open Water
variable {ω : Type}

/-- The origin of a page as browsers write it: a scheme, `://` and a host, or `null`. -/
def IsOrigin (o : Str) : Prop := o = b!"null" ∨ ∃ a b, o = a ++ b!"://" ++ b

/-- The value of a header field, if the response has it: its lines are joined by a comma and a space. -/
def fieldOf (h : Header) (k : Str) : Option Str :=
  match h k with
  | some (v :: vs) => some (join b!", " (v :: vs))
  | _ => none

/-- the characters of a token, RFC 9110 -/
def TokenChar (c : UInt8) : Prop :=
  (48 ≤ c ∧ c ≤ 57) ∨ (65 ≤ c ∧ c ≤ 90) ∨ (97 ≤ c ∧ c ≤ 122) ∨ c ∈ b!"!#$%&'*+-.^_`|~"

/-- a method or the name of a header -/
def FieldToken (s : Str) : Prop := s ≠ [] ∧ ∀ c ∈ s, TokenChar c

/-- `e` without the blanks around it: `p` is it with blanks -/
def Padded (p e : Str) : Prop := ∃ a b, p = a ++ e ++ b ∧ (∀ c ∈ a ++ b, c = 32 ∨ c = 9) ∧
  (∀ c ∈ e.head?, c ≠ 32 ∧ c ≠ 9) ∧ (∀ c ∈ e.getLast?, c ≠ 32 ∧ c ≠ 9)

/-- `p` are the pieces of the list and `es` the elements in them; empty pieces count for nothing. -/
inductive Pieces : List Str → List Str → Prop where
  | nil : Pieces [] []
  | skip {p ps es} : Padded p [] → Pieces ps es → Pieces (p :: ps) es
  | take {p ps e es} : Padded p e → FieldToken e → Pieces ps es → Pieces (p :: ps) (e :: es)

/-- The value `v` of a header field is a list, and `es` are its elements: RFC 9110, 5.6.1. -/
def Listed (v : Str) (es : List Str) : Prop :=
  ∃ ps, ps ≠ [] ∧ (∀ p ∈ ps, (44 : UInt8) ∉ p) ∧ v = join b!"," ps ∧ Pieces ps es

/-- the elements of the header field `k`, none if there is no such field -/
def ListedField (h : Header) (k : Str) (es : List Str) : Prop :=
  match fieldOf h k with
  | none => es = []
  | some v => Listed v es

/-- a capital letter made small -/
def small (c : UInt8) : UInt8 := if 65 ≤ c ∧ c ≤ 90 then c + 32 else c

/-- the same name of a header, in capital or small letters -/
def EqualFold (x y : Str) : Prop := x.map small = y.map small

/-- "CORS check": a page from `origin` may read a response with the header `h`; `cred`: the request was sent with cookies. -/
def CorsCheck (origin : Str) (cred : Bool) (h : Header) : Prop :=
  ∃ v, fieldOf h b!"Access-Control-Allow-Origin" = some v ∧
    ((cred = false ∧ v = b!"*") ∨ (v = origin ∧ (cred = true → fieldOf h b!"Access-Control-Allow-Credentials" = some b!"true")))

/-- A request that a page makes: where the page is from, the method, the names of those headers that a form could not send, in small
letters, and whether it goes with cookies. -/
structure Fetch where
  origin : Str
  method : Str
  names : List Str
  cred : Bool

/-- The request is one that browsers make. -/
structure Fetch.Ok (f : Fetch) : Prop where
  origin : IsOrigin f.origin
  method : FieldToken f.method
  names : ∀ n ∈ f.names, FieldToken n

/-- The methods for which browsers never ask. -/
def plainMethods : List Str := [b!"GET", b!"HEAD", b!"POST"]

/-- The browser asks first. -/
def Fetch.Asks (f : Fetch) : Prop := f.method ∉ plainMethods ∨ f.names ≠ []

/-- The request by which the browser asks. -/
structure Fetch.Preflight (f : Fetch) (req : Req) : Prop where
  method : req.method = b!"OPTIONS"
  origin : req.header.get b!"Origin" = f.origin
  wanted : req.header.get b!"Access-Control-Request-Method" = f.method
  names : req.header.get b!"Access-Control-Request-Headers" = join b!"," f.names

/-- The element `n`, or `*`, is in a list of the response. `*` is no more than a name if the request goes with cookies. -/
def Fetch.Method (f : Fetch) (ms : List Str) : Prop := f.method ∈ ms ∨ f.method ∈ plainMethods ∨ (f.cred = false ∧ b!"*" ∈ ms)

/-- the same for all names of headers; `*` does not stand for Authorization -/
def Fetch.Names (f : Fetch) (hs : List Str) : Prop :=
  ∀ n ∈ f.names, (∃ x ∈ hs, EqualFold x n) ∨ (f.cred = false ∧ b!"*" ∈ hs ∧ ¬ EqualFold n b!"authorization")

/-- "CORS-preflight fetch": the answer with the code and the header lets the browser go on. -/
structure Fetch.Permitted (f : Fetch) (code : Int) (h : Header) : Prop where
  check : CorsCheck f.origin f.cred h
  code : 200 ≤ code ∧ code ≤ 299
  lists : ∃ ms hs, ListedField h b!"Access-Control-Allow-Methods" ms ∧ ListedField h b!"Access-Control-Allow-Headers" hs ∧
    f.Method ms ∧ f.Names hs

/-- What the configuration says about a page from `origin`: it is listed, by name if cookies are sent, which needs AllowCredentials. -/
def MayRead (c : CORSConfig) (origin : Str) (cred : Bool) : Prop :=
  if cred then c.allowCredentials = true ∧ origin ∈ originsOf c else origin ∈ originsOf c ∨ b!"*" ∈ originsOf c

/-- The same, except that no `*` is before the name in the list. -/
def Reads (c : CORSConfig) (origin : Str) (cred : Bool) : Prop :=
  if cred then c.allowCredentials = true ∧ ∃ pre post, originsOf c = pre ++ origin :: post ∧ b!"*" ∉ pre
  else origin ∈ originsOf c ∨ b!"*" ∈ originsOf c

/-- What the configuration says about a method and headers: they are listed; all headers, if none are listed. -/
def MaySend (c : CORSConfig) (f : Fetch) : Prop := f.Method (methodsOf c) ∧ (c.allowHeaders = [] ∨ f.Names c.allowHeaders)

/-- What is listed are methods and names of headers. -/
def CleanConfig (c : CORSConfig) : Prop := (∀ m ∈ methodsOf c, FieldToken m) ∧ ∀ n ∈ c.allowHeaders, FieldToken n

/-- The handler does not touch the two headers that the browser's check looks at. -/
def LeavesCors (p : Prog ω) : Prop :=
  CallsIn (Keeps b!"Access-Control-Allow-Origin") p ∧ CallsIn (Keeps b!"Access-Control-Allow-Credentials") p

/-- What an application is given besides the `Before` handlers of its root: middleware, handlers of endpoints, and the handlers of the
NoFound option. -/
def GivenTo (ops : List (Op (Prog ω))) (opts : List (Opt (Prog ω))) (x : HVal (Prog ω)) : Prop :=
  (∃ g, x ∈ usesOf ops g) ∨ (∃ i, x ∈ handlersOf ops i) ∨ ∃ hs, noFoundGiven opts = some hs ∧ x ∈ hs

/-- The browser lets a page have the response with the header `h`, after it asked, if it has to, and was sent `log`. -/
def Fetch.Succeeds (f : Fetch) (log : List WEvent) (h : Header) : Prop :=
  (f.Asks → ∃ code h', log = [.status true code h'] ∧ f.Permitted code h') ∧ CorsCheck f.origin f.cred h

end Water.Spec
