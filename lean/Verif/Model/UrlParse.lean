import Verif.Model.Url
import Verif.Model.Redirect
/- `url.Parse` (Go 1.15 net/url/url.go) as `http.Redirect` asks it (content.go:44, 49; m_static.go:84): is the text accepted, and are
scheme and host empty? Ports, brackets and zones of a host are not needed for this: a text with a host is not local, accepted or not. -/
namespace Water

/-- `#`, `@` -/
def hashB : UInt8 := 35
/-- see `hashB` -/
def atB : UInt8 := 64

/-- `stringContainsCTLByte`, one byte -/
def ctlByte (c : UInt8) : Bool := c < 32 || c == 127

/-- What `getscheme` returns: an error (a colon at the beginning), a scheme, or none. -/
inductive SchemeOut where
  | err
  | some
  | none
  deriving DecidableEq

/-- The loop of `getscheme`; `first`: at the first byte. -/
def getscheme : Bool → Str → SchemeOut
  | _, [] => .none
  | first, c :: cs =>
    if (97 ≤ c && c ≤ 122) || (65 ≤ c && c ≤ 90) then getscheme false cs
    else if (48 ≤ c && c ≤ 57) || c == 43 || c == 45 || c == 46 then if first then .none else getscheme false cs
    else if c == colon then if first then .err else .some
    else .none

/-- `validUserinfo`, one byte -/
def userByte (c : UInt8) : Bool :=
  (65 ≤ c && c ≤ 90) || (97 ≤ c && c ≤ 122) || (48 ≤ c && c ≤ 57) || b!"-._:~!$&'()*+,;=%@".contains c

/-- `parseAuthority`, for an empty host: nothing, or a user and `@` at the end. User and password are unescaped each. -/
def userOk (authority : Str) : Bool :=
  match authority.reverse with
  | [] => true
  | c :: r => c == atB && (let u := r.reverse; u.all userByte && escapesOk (u.takeWhile (· != colon)) && escapesOk (u.dropWhile (· != colon)))

/-- `parse(rawurl, false)` without an error, and without scheme and host -/
def parseLocal (u : Str) : Bool :=
  if u.any ctlByte then false
  else if u = [star] then true
  else
    match getscheme true u with
    | .err => false
    | .some => false
    | .none =>
      let rest := u.takeWhile (· != quest)
      let seg := rest.takeWhile (· != slash)
      if rest.head? ≠ some slash ∧ seg.contains colon then false
      else if hasPrefix rest b!"//" && !hasPrefix rest b!"///" then
        let r := rest.drop 2
        userOk (r.takeWhile (· != slash)) && escapesOk (r.dropWhile (· != slash))
      else escapesOk rest

/-- `url.Parse`: the fragment is cut off first, and unescaped at last. -/
def urlLocal (rawurl : Str) : Bool :=
  parseLocal (rawurl.takeWhile (· != hashB)) && escapesOk (rawurl.dropWhile (· != hashB))

/-- what `http.Redirect` does with it -/
def stdRedir (statusText : Int → Str) : RedirEnv where
  isLocal := urlLocal
  statusText := statusText

end Water
