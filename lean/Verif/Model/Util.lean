import Verif.Model.Header
import Verif.Model.Context
/-
The request and header helpers of util.go, and `url.PathEscape` and UTF-8 decoding of the standard library.
-/
namespace Water

/-! ### net/url -/

/-- An uppercase hexadecimal digit. -/
def upperHex (d : Nat) : UInt8 := if d < 10 then UInt8.ofNat (48 + d) else UInt8.ofNat (55 + d)

/-- `url.shouldEscape(c, encodePathSegment)`. -/
def escapesByte (c : UInt8) : Bool :=
  if (97 ≤ c && c ≤ 122) || (65 ≤ c && c ≤ 90) || (48 ≤ c && c ≤ 57) then false
  else if b!"-_.~".contains c then false
  else if b!"$&+,/:;=?@".contains c then b!"/;,?".contains c
  else true

/-- `url.PathEscape` (util.go:69). -/
def pathEscape (s : Str) : Str :=
  s.flatMap (fun c => if escapesByte c then [37, upperHex (c.toNat / 16), upperHex (c.toNat % 16)] else [c])

/-! ### UTF-8 -/

/-- Whether `c` is in the given range. -/
def inRange (lo hi c : UInt8) : Bool := lo ≤ c && c ≤ hi

/-- `utf8.DecodeRuneInString` on a non-empty string: the rune and its width; an invalid encoding is U+FFFD of width
1. This is what a `range` loop over a string steps by. -/
def decodeRune : Str → Nat × Nat
  | [] => (0xFFFD, 0)
  | a :: rest =>
    let bad := (0xFFFD, 1)
    if a < 0x80 then (a.toNat, 1)
    else if inRange 0xC2 0xDF a then
      match rest with
      | b :: _ => if inRange 0x80 0xBF b then ((a.toNat % 32) * 64 + b.toNat % 64, 2) else bad
      | _ => bad
    else if inRange 0xE0 0xEF a then
      let lo : UInt8 := if a = 0xE0 then 0xA0 else 0x80
      let hi : UInt8 := if a = 0xED then 0x9F else 0xBF
      match rest with
      | b :: c :: _ =>
        if inRange lo hi b && inRange 0x80 0xBF c then
          ((a.toNat % 16) * 4096 + (b.toNat % 64) * 64 + c.toNat % 64, 3)
        else bad
      | _ => bad
    else if inRange 0xF0 0xF4 a then
      let lo : UInt8 := if a = 0xF0 then 0x90 else 0x80
      let hi : UInt8 := if a = 0xF4 then 0x8F else 0xBF
      match rest with
      | b :: c :: d :: _ =>
        if inRange lo hi b && inRange 0x80 0xBF c && inRange 0x80 0xBF d then
          ((a.toNat % 8) * 262144 + (b.toNat % 64) * 4096 + (c.toNat % 64) * 64 + d.toNat % 64, 4)
        else bad
      | _ => bad
    else bad

/-! ### util.go -/

/-- The loop of `filterFlags` (util.go:98-102): `i` is the offset of the rest in `content`; `fuel` bounds the number
of runes. -/
def filterLoop (content : Str) : Nat → Nat → Str
  | 0, _ => content
  | fuel + 1, i =>
    match content.drop i with
    | [] => content
    | rest =>
      let (char, width) := decodeRune rest
      if char = 32 ∨ char = 59 then content.take i else filterLoop content fuel (i + width)

/-- `filterFlags` (util.go:97-104). -/
def filterFlags (content : Str) : Str := filterLoop content (content.length + 1) 0

/-- `ctx.ContentType` (content.go:122-124). -/
def contentTypeOf (h : Header) : Str := filterFlags (h.get b!"Content-Type")

/-- `requestProxy` (util.go:34-40); nil is the empty list. -/
def requestProxy (h : Header) : List Str :=
  let ips := h.get b!"X-Forwarded-For"
  if ips ≠ [] then splitStr b!", " ips else []

/-- `requestRealIp` (util.go:43-58). -/
def requestRealIp (h : Header) (remoteAddr : Str) : Str :=
  let ip := h.get b!"X-Real-IP"
  if ip = [] then
    let fallback :=
      match lastIndexByte remoteAddr colon with
      | some i => remoteAddr.take i
      | none => remoteAddr
    match requestProxy h with
    | x :: _ => if x ≠ [] then x else fallback
    | [] => fallback
  else ip

/-- `contentDisposition` (util.go:60-70). -/
def contentDisposition (fileName dispositionType : Str) : Str :=
  let t := if dispositionType = [] then b!"attachment" else dispositionType
  if fileName = [] then t
  else t ++ b!"; filename=\"" ++ pathEscape fileName ++ b!"\"; filename*=UTF-8''" ++ pathEscape fileName

/-- The value of Content-Disposition set by `ctx.Download` and `ctx.Attachment` (content.go:214-217, 225, 232-237). -/
def dispositionFor (inline : List Bool) (name : Str) : Str :=
  contentDisposition name (if inline.head? = some true then b!"inline" else b!"attachment")

/-- `ctx.Attachment` (content.go:231-239); `serve` is what `http.ServeContent` does. -/
def Prog.attachment {ω : Type} (name : Str) (inline : List Bool) (serve : Prog ω) : Prog ω :=
  .do (.setHeader b!"Content-Disposition" (dispositionFor inline name)) serve

/-- `resolveAddress` (util.go:121-130); `none` is a panic. It is given to `http.ListenAndServe` by `Run`
(engine.go:148-152). -/
def resolveAddress : List Str → Option Str
  | [] => some b!":8080"
  | [a] => some a
  | _ => none

/-- `ctx.Protocol` (content.go:29-40). -/
def protocolOf (h : Header) (tls : Bool) : Str :=
  let s := h.get b!"X-Forwarded-Proto"
  if s = b!"http" ∨ s = b!"https" then s
  else if tls then b!"https" else b!"http"

/-- `ctx.IsAjax` (content.go:97-99). -/
def isAjax (h : Header) : Bool := h.get b!"X-Requested-With" == b!"XMLHttpRequest"

/-- `ctx.IsWebsocket` (content.go:101-108). -/
def isWebsocket (h : Header) : Bool :=
  containsStr (toLower (h.get b!"Connection")) b!"upgrade" && toLower (h.get b!"Upgrade") == b!"websocket"

/-- `checkMethod` (util.go:87-95); `none` is a panic. -/
def checkMethod (m : Str) : Option (Str × Nat) := (methodIndex (toUpper m)).map (fun i => (toUpper m, i))

end Water
