import Verif.Model.Cookie
/-
`CookieEscape` of cookie.go, and `HTMLEscapeString` of html/template (which is that of text/template), Go 1.15.
-/
namespace Water

/-- What `HTMLEscape` (text/template/funcs.go) writes for a byte that it does not copy. -/
def htmlOf (c : UInt8) : Option Str :=
  if c = 0 then some [0xEF, 0xBF, 0xBD]
  else if c = 34 then some b!"&#34;"
  else if c = 39 then some b!"&#39;"
  else if c = 38 then some b!"&amp;"
  else if c = 60 then some b!"&lt;"
  else if c = 62 then some b!"&gt;"
  else none

/-- The loop of `HTMLEscape` over `b` and its last statement: `i` is the index of the rest, the bytes before `last` are written. -/
def htmlLoop (b : Str) : Nat → Nat → Str → Str
  | last, _, [] => b.drop last
  | last, i, c :: rest =>
    match htmlOf c with
    | none => htmlLoop b last (i + 1) rest
    | some html => (b.take i).drop last ++ html ++ htmlLoop b (i + 1) (i + 1) rest

/-- `template.HTMLEscapeString`: without any of the bytes ``'"&<>`` and NUL the string is returned as it is. -/
def htmlEscapeString (s : Str) : Str :=
  if s.any (fun c => (b!"'\"&<>" ++ [0]).contains c) then htmlLoop s 0 0 s else s

/-- `ctx.CookieEscape` (cookie.go:18-20) on the header of the request. -/
def cookieEscape (h : Header) (name : Str) : Str := htmlEscapeString (cookieOf h name)

end Water
