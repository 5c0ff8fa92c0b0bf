import Verif.Spec.Redirect
import Verif.Spec.Url
/- Addresses: URI references of RFC 3986, and how browsers tell whether one leads elsewhere. -/
namespace Water.Spec

/-- a letter -/
def Letter (c : UInt8) : Prop := (65 ≤ c ∧ c ≤ 90) ∨ (97 ≤ c ∧ c ≤ 122)

/-- A scheme (RFC 3986, 3.1): a letter, then letters, digits, plus, minus and dots. -/
def SchemeText (s : Str) : Prop :=
  (∃ c r, s = c :: r ∧ Letter c) ∧ ∀ c ∈ s, Letter c ∨ (48 ≤ c ∧ c ≤ 57) ∨ c = 43 ∨ c = 45 ∨ c = 46

/-- The address names a scheme. -/
def Absolute (a : Str) : Prop := ∃ s r, a = s ++ 58 :: r ∧ SchemeText s

/-- The address begins with `//` and names a host: what is up to the next slash, question mark or hash is not empty, and does not
end with the `@` behind a user. -/
def HostRef (a : Str) : Prop :=
  ∃ auth r, a = b!"//" ++ auth ++ r ∧ (∀ c ∈ auth, c ≠ 47 ∧ c ≠ 63 ∧ c ≠ 35) ∧
    (r = [] ∨ r.head? = some 47 ∨ r.head? = some 63 ∨ r.head? = some 35) ∧ auth ≠ [] ∧ auth.getLast? ≠ some 64

/-- every percent sign is followed by two hexadecimal digits -/
def Escaped (s : Str) : Prop := ∃ t, Encodes t s

/-- A user (and password) of RFC 3986, 3.2.1; several `@` are allowed. -/
def UserText (u : Str) : Prop :=
  (∀ c ∈ u, Letter c ∨ (48 ≤ c ∧ c ≤ 57) ∨ c ∈ b!"-._:~!$&'()*+,;=%@") ∧ Escaped (u.takeWhile (· != 58)) ∧ Escaped (u.dropWhile (· != 58))

/-- A reference without scheme and host (RFC 3986, 4.2): a path, a query and a fragment. Control characters may be in the fragment
only, and no colon in the first segment. What begins with three slashes or is just two has no host; there may be a user with no host
behind it. -/
def LocalRef (a : Str) : Prop :=
  ∃ front path query frag, a = front ++ path ++ query ++ frag ∧
    (query = [] ∨ query.head? = some 63) ∧ (frag = [] ∨ frag.head? = some 35) ∧
    (∀ c ∈ front ++ path, c ≠ 63 ∧ c ≠ 35) ∧ 35 ∉ query ∧ (∀ c ∈ front ++ path ++ query, ¬ (c < 32 ∨ c = 127)) ∧
    Escaped path ∧ Escaped frag ∧
    (front = [] ∧ (∀ c r, path = 47 :: 47 :: c :: r → c = 47) ∧ (path.head? ≠ some 47 → 58 ∉ path.takeWhile (· != 47)) ∨
      ∃ u, front = b!"//" ++ u ++ b!"@" ∧ 47 ∉ u ∧ UserText u ∧ (path = [] ∨ path.head? = some 47))

/-- What a browser looks at: control characters and spaces at the beginning are passed over. -/
def webAddress (a : Str) : Str := webReads (a.dropWhile (· ≤ 32))

/-- For a browser the address names a scheme or a host: it begins with a scheme, or with two slashes (or backslashes). -/
def Elsewhere (a : Str) : Prop := Absolute (webAddress a) ∨ ∃ r, webAddress a = 47 :: 47 :: r

end Water.Spec
