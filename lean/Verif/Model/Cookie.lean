import Verif.Model.Values
import Verif.Model.Header
import Verif.Model.Strconv
/-
cookie.go, and the cookies of net/http (`Cookie.String`, `readCookies` of Go 1.15, and what they call).
-/
namespace Water

/-! ### net/http -/

/-- `http.SameSite` -/
abbrev SameSite := Int

/-- `http.Cookie`, the fields used (cookie.go:56-107). `Expires` stays zero and is never printed. -/
structure Cookie where
  name : Str
  value : Str
  path : Str
  domain : Str
  maxAge : Int
  secure : Bool
  httpOnly : Bool
  sameSite : SameSite
  deriving DecidableEq, Repr

/-- `http.isCookieNameValid`: a non-empty token. -/
def cookieNameValid (s : Str) : Bool := !s.isEmpty && s.all validHeaderByte

/-- `http.validCookieValueByte` -/
def cookieValueByte (c : UInt8) : Bool := 0x20 ≤ c && c < 0x7f && c != 34 && c != 59 && c != 92

/-- `http.validCookiePathByte` -/
def cookiePathByte (c : UInt8) : Bool := 0x20 ≤ c && c < 0x7f && c != 59

/-- `http.sanitizeCookieValue`: invalid bytes are dropped; a value with a space or comma is quoted. -/
def sanitizeValue (v : Str) : Str :=
  let v := v.filter cookieValueByte
  if v.isEmpty then v
  else if v.contains 32 || v.contains 44 then [34] ++ v ++ [34] else v

/-- `http.sanitizeCookiePath` -/
def sanitizePath (v : Str) : Str := v.filter cookiePathByte

/-- The loop of `http.isCookieDomainName`: `last` is the previous byte, `ok` whether a letter was seen, `len` the
length of the current label. -/
def domainLoop : UInt8 → Bool → Nat → Str → Bool
  | last, ok, len, [] => last != 45 && len ≤ 63 && ok
  | last, ok, len, c :: cs =>
    if (97 ≤ c && c ≤ 122) || (65 ≤ c && c ≤ 90) then domainLoop c true (len + 1) cs
    else if 48 ≤ c && c ≤ 57 then domainLoop c ok (len + 1) cs
    else if c = 45 then if last = 46 then false else domainLoop c ok (len + 1) cs
    else if c = 46 then if last = 46 ∨ last = 45 then false else if len > 63 ∨ len = 0 then false else domainLoop c ok 0 cs
    else false

/-- `http.isCookieDomainName` -/
def cookieDomainName (s : Str) : Bool :=
  if s.length = 0 ∨ s.length > 255 then false
  else
    let s := if s.head? = some 46 then s.drop 1 else s
    domainLoop 46 false 0 s

/-- `http.validCookieDomain`; `ip` stands for `net.ParseIP(v) != nil` without colons. -/
def cookieDomainValid (ip : Str → Bool) (s : Str) : Bool := cookieDomainName s || ip s

/-- `Cookie.String` -/
def Cookie.line (ip : Str → Bool) (c : Cookie) : Str :=
  if !cookieNameValid c.name then []
  else
    c.name ++ [61] ++ sanitizeValue c.value ++
    (if c.path.length > 0 then b!"; Path=" ++ sanitizePath c.path else []) ++
    (if c.domain.length > 0 ∧ cookieDomainValid ip c.domain then
      b!"; Domain=" ++ (if c.domain.head? = some 46 then c.domain.drop 1 else c.domain) else []) ++
    (if c.maxAge > 0 then b!"; Max-Age=" ++ itoa c.maxAge else if c.maxAge < 0 then b!"; Max-Age=0" else []) ++
    (if c.httpOnly then b!"; HttpOnly" else []) ++
    (if c.secure then b!"; Secure" else []) ++
    (if c.sameSite = 1 then b!"; SameSite" else if c.sameSite = 2 then b!"; SameSite=Lax"
      else if c.sameSite = 3 then b!"; SameSite=Strict" else if c.sameSite = 4 then b!"; SameSite=None" else [])

/-- `http.parseCookieValue(raw, true)` -/
def parseCookieValue (raw : Str) : Option Str :=
  let raw := if raw.length > 1 ∧ raw.head? = some 34 ∧ raw.getLast? = some 34 then (raw.drop 1).dropLast else raw
  if raw.all cookieValueByte then some raw else none

/-- One part of a Cookie line: name and value, if valid. -/
def cookiePart (part : Str) : Option (Str × Str) :=
  let part := trimSpace part
  if part = [] then none
  else
    let (name, val) := match indexByte part 61 with
      | some j => (part.take j, part.drop (j + 1))
      | none => (part, [])
    if !cookieNameValid name then none
    else (parseCookieValue val).map (fun v => (name, v))

/-- The inner loop of `http.readCookies`; `fuel` bounds the number of parts. -/
def cookieLine : Nat → Str → List (Str × Str)
  | 0, _ => []
  | _ + 1, [] => []
  | f + 1, line =>
    let (part, rest) := match indexByte line 59 with
      | some (i + 1) => (line.take (i + 1), line.drop (i + 2))
      | _ => (line, [])
    (cookiePart part).toList ++ cookieLine f rest

/-- `http.readCookies`, all names. -/
def readCookies (h : Header) : List (Str × Str) :=
  ((h b!"Cookie").getD []).flatMap (fun line => let line := trimSpace line; cookieLine (line.length + 1) line)

/-! ### cookie.go -/

/-- `ctx.Cookie` (cookie.go:9-16) on the header of the request. -/
def cookieOf (h : Header) (name : Str) : Str := cookie (readCookies h) name

/-- An extra argument of `SetCookie`, by dynamic type. -/
inductive CArg where
  | int (i : Int)
  | int32 (i : Int)
  | int64 (i : Int)
  | string (s : Str)
  | bool (b : Bool)
  | sameSite (v : SameSite)
  | nil
  | other (id : Nat)
  deriving DecidableEq, Repr

/-- The cookie built by `SetCookie` (cookie.go:56-107). -/
def buildCookie (name value : Str) (others : List CArg) : Cookie where
  name := name
  value := value
  maxAge := match (others[0]? : Option CArg) with
    | some (.int v) => v
    | some (.int32 v) => v
    | some (.int64 v) => v
    | _ => 0
  path := match (others[1]? : Option CArg) with
    | some (.string v) => if v.length > 0 then v else b!"/"
    | _ => b!"/"
  domain := match (others[2]? : Option CArg) with
    | some (.string v) => if v.length > 0 then v else []
    | _ => []
  secure := match (others[3]? : Option CArg) with
    | some (.bool v) => v
    | some .nil => false
    | some _ => true
    | none => false
  httpOnly := match (others[4]? : Option CArg) with
    | some (.bool v) => v
    | _ => false
  sameSite := match (others[5]? : Option CArg) with
    | some (.sameSite v) => v
    | _ => 0

/-- `SetCookie` (cookie.go:56-109) on the response header. -/
def setCookie (ip : Str → Bool) (h : Header) (name value : Str) (others : List CArg) : Header :=
  h.add b!"Set-Cookie" ((buildCookie name value others).line ip)

end Water
