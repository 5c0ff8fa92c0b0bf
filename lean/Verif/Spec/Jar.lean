import Verif.Spec.Util
import Verif.Spec.Number
/-
What a browser does with cookies: section 5 of RFC 6265, without public suffixes and without the SameSite attribute, which that RFC does
not have. Nothing of this is in /repo. And what a program means that calls SetCookie.
-/
namespace Water.Spec
open Water

/-- a blank -/
def isBlank (c : UInt8) : Bool := c == 32 || c == 9

/-- without blanks at the ends -/
def trimBlanks (s : Str) : Str := ((s.dropWhile isBlank).reverse.dropWhile isBlank).reverse

/-- a capital letter made small -/
def lowered (s : Str) : Str := s.map (fun c => if 65 ≤ c ∧ c ≤ 90 then c + 32 else c)

/-- what is before the first equals sign -/
def beforeEq (s : Str) : Str := s.takeWhile (· != 61)
/-- what is after it; nothing if there is none -/
def afterEq (s : Str) : Str := (s.dropWhile (· != 61)).drop 1

/-- A line of a Set-Cookie header, taken apart (5.2): name, value, and the attributes with their values. -/
structure SetLine where
  name : Str
  value : Str
  attrs : List (Str × Str)

/-- Take a line apart. A line without a name is ignored. -/
def parseSetLine (line : Str) : Option SetLine :=
  match splitB 59 line with
  | [] => none
  | p :: ps =>
    if 61 ∈ p ∧ trimBlanks (beforeEq p) ≠ [] then
      some { name := trimBlanks (beforeEq p), value := trimBlanks (afterEq p),
             attrs := ps.map (fun a => (lowered (trimBlanks (beforeEq a)), trimBlanks (afterEq a))) }
    else none

/-- the last attribute of that name, for which `f` gives something -/
def lastAttr {α : Type} (k : Str) (f : Str → Option α) (l : SetLine) : Option α :=
  (l.attrs.filterMap (fun a => if a.1 = k then f a.2 else none)).getLast?

/-- The value of Max-Age (5.2.2): a number, maybe with a dash in front; other texts are ignored. -/
def ageValue (s : Str) : Option Int :=
  match s with
  | [] => none
  | c :: cs =>
    if !cs.all (fun d => 48 ≤ d && d ≤ 57) then none
    else if c = 45 then some (-(value cs))
    else if 48 ≤ c ∧ c ≤ 57 then some (value (c :: cs))
    else none

/-- The value of Domain (5.2.3): without a dot in front, in small letters; an empty one is ignored. -/
def domainValue (s : Str) : Option Str :=
  if s = [] then none else some (lowered (if s.head? = some 46 then s.tail else s))

/-- A place in the web: what is asked for, and whether by https. The host is in small letters. -/
structure Spot where
  host : Str
  path : Str
  secure : Bool

/-- The path of a cookie that names none (5.1.4): the directory of what was asked for. -/
def defaultPath (p : Str) : Str :=
  if p.head? ≠ some 47 then [47]
  else
    let d := (p.reverse.dropWhile (· != 47)).drop 1
    if d = [] then [47] else d.reverse

/-- the path that is named (5.2.4), if it begins with a slash -/
def pathOr (p : Str) : Option Str → Str
  | some q => if q.head? = some 47 then q else p
  | none => p

/-- A host is in a domain (5.1.3); `ip`: the host is an address. -/
def DomainMatch (ip : Str → Bool) (host dom : Str) : Prop := host = dom ∨ (ip host = false ∧ (46 :: dom) <:+ host)

instance (ip : Str → Bool) (host dom : Str) : Decidable (DomainMatch ip host dom) := by unfold DomainMatch; infer_instance

/-- A path is below the path of a cookie (5.1.4). -/
def PathMatch (p c : Str) : Prop := p = c ∨ (c <+: p ∧ (c.getLast? = some 47 ∨ (p.drop c.length).head? = some 47))

instance (p c : Str) : Decidable (PathMatch p c) := by unfold PathMatch; infer_instance

/-- A cookie that the browser keeps (5.3). `ends`: when it ends; without, it is kept as long as the browser is open. -/
structure Kept where
  name : Str
  value : Str
  domain : Str
  hostOnly : Bool
  path : Str
  secure : Bool
  ends : Option Int
  deriving DecidableEq

/-- the same cookie, perhaps with another value -/
def SameCookie (a b : Kept) : Prop := a.name = b.name ∧ a.domain = b.domain ∧ a.path = b.path

instance (a b : Kept) : Decidable (SameCookie a b) := by unfold SameCookie; infer_instance

/-- Keep the cookie: in the place of the same cookie, if there is one, otherwise as the newest. -/
def putCookie (c : Kept) : List Kept → List Kept
  | [] => [c]
  | d :: ds => if SameCookie d c then c :: ds else d :: putCookie c ds

/-- Forget the cookie. -/
def dropCookie (c : Kept) (jar : List Kept) : List Kept := jar.filter (fun d => ¬ SameCookie d c)

/-- a cookie is kept until its end, and one that has ended is forgotten -/
def storeCookie (now : Int) (c : Kept) (jar : List Kept) : List Kept :=
  match c.ends with
  | some t => if t ≤ now then dropCookie c jar else putCookie c jar
  | none => putCookie c jar

/-- One line of a response that came from `at_` at the time `now` (5.3). -/
def keepLine (ip : Str → Bool) (now : Int) (at_ : Spot) (jar : List Kept) (line : Str) : List Kept :=
  match parseSetLine line with
  | none => jar
  | some l =>
    let ends := (lastAttr b!"max-age" ageValue l).map (fun d => if d ≤ 0 then now else now + d)
    let path := pathOr (defaultPath at_.path) (lastAttr b!"path" some l)
    let secure := (lastAttr b!"secure" some l).isSome
    match lastAttr b!"domain" domainValue l with
    | none => storeCookie now { name := l.name, value := l.value, domain := at_.host, hostOnly := true, path, secure, ends } jar
    | some d =>
      if DomainMatch ip at_.host d then
        storeCookie now { name := l.name, value := l.value, domain := d, hostOnly := false, path, secure, ends } jar
      else jar

/-- The cookie goes with a request for `at_` at the time `now` (5.4). -/
def Goes (ip : Str → Bool) (now : Int) (at_ : Spot) (c : Kept) : Prop :=
  (if c.hostOnly then at_.host = c.domain else DomainMatch ip at_.host c.domain) ∧ PathMatch at_.path c.path ∧
  (c.secure = true → at_.secure = true) ∧ ∀ t, c.ends = some t → now < t

instance (ip : Str → Bool) (now : Int) (at_ : Spot) (c : Kept) : Decidable (Goes ip now at_ c) := by
  unfold Goes
  have : Decidable (∀ t, c.ends = some t → now < t) := by
    cases h : c.ends with
    | none => exact isTrue (fun t ht => by cases ht)
    | some t =>
      by_cases hl : now < t
      · exact isTrue (fun t' ht => by cases ht; exact hl)
      · exact isFalse (fun hh => hl (hh t rfl))
  infer_instance

/-- `l` are the cookies that go with the request, in the order in which they are written: longer paths first, and for paths of the same
length those that were kept first. -/
def SentCookies (ip : Str → Bool) (now : Int) (at_ : Spot) (jar l : List Kept) : Prop :=
  l.Perm (jar.filter (fun c => Goes ip now at_ c)) ∧
  l.Pairwise (fun c d => c.path.length > d.path.length ∨ (c.path.length = d.path.length ∧ [c, d].Sublist jar))

/-- the header of the request -/
def CookieHeader (l : List Kept) (h : Header) : Prop :=
  h b!"Cookie" = if l = [] then none else some [join b!"; " (l.map (fun c => c.name ++ [61] ++ c.value))]

/-! What the program means -/

/-- A call of `SetCookie`. -/
structure CookieCall where
  name : Str
  value : Str
  others : List CArg

/-- The cookie that the call means, in a response from `at_` at `now`: the arguments, and for those that are missing the host, the path
`/`, no end. A path that does not begin with a slash stands for the directory of the request; a negative age for one that has
ended. `ok` tells which domains are valid; others are left out. -/
def meant (ok : Str → Bool) (now : Int) (at_ : Spot) (c : CookieCall) : Kept :=
  let dom := (domainArg c.others).bind (fun d => if ok d then some (lowered (if d.head? = some 46 then d.tail else d)) else none)
  { name := c.name, value := c.value, domain := dom.getD at_.host, hostOnly := dom.isNone,
    path := if (pathArg c.others).head? = some 47 then pathArg c.others else defaultPath at_.path,
    secure := secureArg c.others,
    ends := if ageArg c.others > 0 then some (now + ageArg c.others) else if ageArg c.others < 0 then some now else none }

/-- The call changes what is kept: unless the domain is not one of the host's. -/
def obey (ip ok : Str → Bool) (now : Int) (at_ : Spot) (jar : List Kept) (c : CookieCall) : List Kept :=
  let k := meant ok now at_ c
  if k.hostOnly ∨ DomainMatch ip at_.host k.domain then storeCookie now k jar else jar

/-- The arguments can be written into a header: a token, a value and a path of the allowed bytes, no blanks around the path. -/
structure CookieCall.Fine (c : CookieCall) : Prop where
  name : Token c.name
  value : ∀ x ∈ c.value, ValueByte x
  path : ∀ x ∈ pathArg c.others, PathByte x
  start : (pathArg c.others).head? ≠ some 32
  stop : (pathArg c.others).getLast? ≠ some 32

/-- how an IPv4 address is written: numbers and dots -/
def Dotted (d : Str) : Prop := d ≠ [] ∧ d.head? ≠ some 46 ∧ ∀ c ∈ d, IsDigit c ∨ c = 46

/-- A response with cookies: when, from where, and the calls. -/
structure CookieVisit where
  now : Int
  place : Spot
  calls : List CookieCall

/-- what the program means by a number of responses -/
def obeyAll (ip ok : Str → Bool) (vs : List CookieVisit) : List Kept :=
  vs.foldl (fun jar v => v.calls.foldl (obey ip ok v.now v.place) jar) []

/-- what the browser keeps, from the lines of the headers of the responses -/
def keepAll (ip : Str → Bool) (header : CookieVisit → Header) (vs : List CookieVisit) : List Kept :=
  vs.foldl (fun jar v => ((header v b!"Set-Cookie").getD []).foldl (keepLine ip v.now v.place) jar) []

/-- how a value is kept -/
def Kept.onWire (c : Kept) : Kept := { c with value := wire c.value }

/-- Of the cookies of its name that go with the request, this is the one of the longest path, and of these the oldest. -/
def Foremost (ip : Str → Bool) (now : Int) (at_ : Spot) (jar : List Kept) (c : Kept) : Prop :=
  c ∈ jar ∧ Goes ip now at_ c ∧ ∀ d ∈ jar, Goes ip now at_ d → d.name = c.name → d = c ∨ d.path.length < c.path.length ∨
    (d.path.length = c.path.length ∧ [c, d].Sublist jar)

/-- the calls with their times, in order -/
def timed (vs : List CookieVisit) : List (Int × CookieCall) := vs.flatMap (fun v => v.calls.map (fun c => (v.now, c)))

/-- the last call for a name -/
def lastCall (vs : List CookieVisit) (n : Str) : Option (Int × CookieCall) := (timed vs).reverse.find? (fun c => decide (c.2.name = n))

end Water.Spec
