import Verif.Model.Content
/-
How net/http writes the head of an answer (Go 1.15, `chunkWriter.writeHeader` and `writeStatusLine` in net/http/server.go,
`Header.writeSubset` in net/http/header.go). It gets the header map that handlers fill with `ctx.Header()` (context.go:15-31,
content.go:24-26) when the status is sent (context.go:71-79). Simplified: which fields net/http leaves out or adds (Date, Content-Length,
Connection and so on), and the order of the lines, are left open: the lines are a parameter. So is the text behind the status code.
-/
namespace Water

/-- `headerNewlineToSpace` (net/http/header.go) -/
def newlineToSpace (v : Str) : Str := v.map (fun c => if c == 10 || c == 13 then 32 else c)

/-- one line of `Header.writeSubset`: the name as it is in the map, and the value without line breaks and without blanks at its ends -/
def writeField (l : Str × Str) : Str := l.1 ++ b!": " ++ trimString (newlineToSpace l.2) ++ b!"\r\n"

/-- the head of an answer: `writeStatusLine`, `Header.writeSubset`, and the empty line -/
def writeHead (code reason : Str) (lines : List (Str × Str)) : Str :=
  b!"HTTP/1.1 " ++ code ++ b!" " ++ reason ++ b!"\r\n" ++ lines.flatMap writeField ++ b!"\r\n"

end Water
