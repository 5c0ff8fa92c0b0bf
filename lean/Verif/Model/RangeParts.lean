import Verif.Model.Content
/-
How `http.ServeContent` sends several ranges (m_static.go:108): go 1.15, `net/http/fs.go` and `mime/multipart/writer.go`. This models the standard
library; /repo has no code of its own for it.
-/
namespace Water
variable {ω : Type}

/-- A part as `multipart.Writer.CreatePart` writes it with the fields of `httpRange.mimeHeader`, and its bytes. The line break behind the bytes is
written with the next boundary in the original. -/
def writePart (boundary ctype data : Str) (ra : Nat × Nat) : Str :=
  b!"--" ++ boundary ++ b!"\r\n" ++ (b!"Content-Range: " ++ contentRange ra data.length ++ b!"\r\nContent-Type: " ++ ctype ++ b!"\r\n") ++ b!"\r\n" ++
    (data.drop ra.1).take ra.2 ++ b!"\r\n"

/-- The Content-Type and the body of an answer with several ranges; `boundary` are the random letters of `multipart.NewWriter`. -/
def writeParts (boundary ctype data : Str) (rs : List (Nat × Nat)) : Str × Str :=
  (b!"multipart/byteranges; boundary=" ++ boundary, rs.flatMap (writePart boundary ctype data) ++ b!"--" ++ boundary ++ b!"--\r\n")

end Water
