import Verif.Model.Str
/-
`http.DetectContentType` (Go 1.15, net/http/sniff.go), called at context.go:85 and by net/http for every response whose header has no
Content-Type when it is sent, which are all of ctx.String, Data, HTMLRaw, JSON and XML (content.go:249-287).
-/
namespace Water

/-- `isWS` -/
def sniffSpace (c : UInt8) : Bool := c == 9 || c == 10 || c == 12 || c == 13 || c == 32

/-- the kinds of signatures: `htmlSig`, `maskedSig` (`exactSig` is one whose mask is 255 everywhere), `mp4Sig`, `textSig` -/
inductive Sig where
  | html (tag : Str)
  | masked (skip : Bool) (mask pat : Str) (ct : Str)
  | mp4
  | text

/-- `exactSig` -/
def Sig.exact (pat ct : Str) : Sig := .masked false (List.replicate pat.length 255) pat ct

/-- the loop of `htmlSig.match` -/
def htmlMatch : Str → Str → Bool
  | [], d :: _ => d == 32 || d == 62
  | [], [] => false
  | b :: tag, d :: data => b == (if 65 ≤ b ∧ b ≤ 90 then d &&& 223 else d) && htmlMatch tag data
  | _ :: _, [] => false

/-- the loop of `maskedSig.match` -/
def maskMatch : Str → Str → Str → Bool
  | m :: mask, p :: pat, d :: data => (d &&& m) == p && maskMatch mask pat data
  | _, [], _ => true
  | _, _, _ => false

/-- the loop of `mp4Sig.match`: `st` is the position, `data` what is there -/
def mp4Loop : Nat → Nat → Nat → Str → Bool
  | 0, _, _, _ => false
  | f + 1, st, boxSize, data =>
    if st < boxSize then
      if st ≠ 12 ∧ data.take 3 = b!"mp4" then true else mp4Loop f (st + 4) boxSize (data.drop 4)
    else false

/-- `mp4Sig.match` -/
def mp4Match (data : Str) : Bool :=
  match data with
  | a :: b :: c :: d :: rest =>
    let boxSize := ((a.toNat * 256 + b.toNat) * 256 + c.toNat) * 256 + d.toNat
    if data.length < 12 then false
    else if data.length < boxSize ∨ boxSize % 4 ≠ 0 then false
    else if rest.take 4 ≠ b!"ftyp" then false
    else mp4Loop (boxSize + 1) 8 boxSize (data.drop 8)
  | _ => false

/-- the bytes that `textSig.match` takes for binary data -/
def binaryByte (c : UInt8) : Bool := c ≤ 8 || c == 11 || (14 ≤ c && c ≤ 26) || (28 ≤ c && c ≤ 31)

/-- `sig.match(data, firstNonWS)` -/
def Sig.match : Sig → Str → Option Str
  | .html tag, data => if htmlMatch tag (data.dropWhile sniffSpace) then some b!"text/html; charset=utf-8" else none
  | .masked skip mask pat ct, data => if maskMatch mask pat (if skip then data.dropWhile sniffSpace else data) then some ct else none
  | .mp4, data => if mp4Match data then some b!"video/mp4" else none
  | .text, data => if (data.dropWhile sniffSpace).any binaryByte then none else some b!"text/plain; charset=utf-8"

/-- four bytes of a pattern that may be any -/
def any4 : Str := [0, 0, 0, 0]
/-- four bytes of a pattern that must be these -/
def all4 : Str := [255, 255, 255, 255]

/-- `sniffSignatures` -/
def sniffSignatures : List Sig := [
  .html b!"<!DOCTYPE HTML", .html b!"<HTML", .html b!"<HEAD", .html b!"<SCRIPT", .html b!"<IFRAME", .html b!"<H1", .html b!"<DIV", .html b!"<FONT",
  .html b!"<TABLE", .html b!"<A", .html b!"<STYLE", .html b!"<TITLE", .html b!"<B", .html b!"<BODY", .html b!"<BR", .html b!"<P", .html b!"<!--",
  .masked true (255 :: all4) b!"<?xml" b!"text/xml; charset=utf-8",
  .exact b!"%PDF-" b!"application/pdf",
  .exact b!"%!PS-Adobe-" b!"application/postscript",
  .masked false [255, 255, 0, 0] [254, 255, 0, 0] b!"text/plain; charset=utf-16be",
  .masked false [255, 255, 0, 0] [255, 254, 0, 0] b!"text/plain; charset=utf-16le",
  .masked false [255, 255, 255, 0] [239, 187, 191, 0] b!"text/plain; charset=utf-8",
  .exact [0, 0, 1, 0] b!"image/x-icon",
  .exact [0, 0, 2, 0] b!"image/x-icon",
  .exact b!"BM" b!"image/bmp",
  .exact b!"GIF87a" b!"image/gif",
  .exact b!"GIF89a" b!"image/gif",
  .masked false (all4 ++ any4 ++ all4 ++ [255, 255]) (b!"RIFF" ++ any4 ++ b!"WEBPVP") b!"image/webp",
  .exact [137, 80, 78, 71, 13, 10, 26, 10] b!"image/png",
  .exact [255, 216, 255] b!"image/jpeg",
  .masked false all4 b!".snd" b!"audio/basic",
  .masked false (all4 ++ any4 ++ all4) (b!"FORM" ++ any4 ++ b!"AIFF") b!"audio/aiff",
  .masked false [255, 255, 255] b!"ID3" b!"audio/mpeg",
  .masked false (255 :: all4) (b!"OggS" ++ [0]) b!"application/ogg",
  .masked false (all4 ++ all4) (b!"MThd" ++ [0, 0, 0, 6]) b!"audio/midi",
  .masked false (all4 ++ any4 ++ all4) (b!"RIFF" ++ any4 ++ b!"AVI ") b!"video/avi",
  .masked false (all4 ++ any4 ++ all4) (b!"RIFF" ++ any4 ++ b!"WAVE") b!"audio/wave",
  .mp4,
  .exact [26, 69, 223, 163] b!"video/webm",
  .masked false (List.replicate 34 0 ++ [255, 255]) (List.replicate 34 0 ++ b!"LP") b!"application/vnd.ms-fontobject",
  .exact [0, 1, 0, 0] b!"font/ttf",
  .exact b!"OTTO" b!"font/otf",
  .exact b!"ttcf" b!"font/collection",
  .exact b!"wOFF" b!"font/woff",
  .exact b!"wOF2" b!"font/woff2",
  .exact [31, 139, 8] b!"application/x-gzip",
  .exact b!"PK\x03\x04" b!"application/zip",
  .exact (b!"Rar!" ++ [26, 7, 0]) b!"application/x-rar-compressed",
  .exact (b!"Rar!" ++ [26, 7, 1, 0]) b!"application/x-rar-compressed",
  .exact [0, 97, 115, 109] b!"application/wasm",
  .text]

/-- `http.DetectContentType` -/
def detectStd (data : Str) : Str :=
  (sniffSignatures.findSome? (fun sig => sig.match (data.take 512))).getD b!"application/octet-stream"

end Water
