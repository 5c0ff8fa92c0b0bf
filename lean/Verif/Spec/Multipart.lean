import Verif.Model.Str
/- What a browser sends for a form with files (the multipart/form-data encoding of the HTML standard), and what the reader of it
should have. -/
namespace Water.Spec

/-- A control of a form: a name with a text, or with a file (its name, its type and its bytes). -/
inductive FormPart where
  | text (name value : Str)
  | file (name filename type data : Str)
  deriving DecidableEq

/-- A character in the name of a control or of a file: quotes and line breaks are written as `%22`, `%0D` and `%0A`. -/
def formNameChar (c : UInt8) : Str := if c = 34 then b!"%22" else if c = 13 then b!"%0D" else if c = 10 then b!"%0A" else [c]

/-- a name as it is written -/
def formName (s : Str) : Str := s.flatMap formNameChar

/-- the lines before the bytes of a control, each with its end -/
def FormPart.head : FormPart → Str
  | .text name _ => b!"Content-Disposition: form-data; name=\"" ++ formName name ++ b!"\"\r\n"
  | .file name filename type _ =>
    b!"Content-Disposition: form-data; name=\"" ++ formName name ++ b!"\"; filename=\"" ++ formName filename ++ b!"\"\r\n" ++
      (b!"Content-Type: " ++ type ++ b!"\r\n")

/-- the bytes of a control -/
def FormPart.bytes : FormPart → Str
  | .text _ value => value
  | .file _ _ _ data => data

/-- a control in the body -/
def FormPart.wire (boundary : Str) (c : FormPart) : Str :=
  b!"--" ++ boundary ++ b!"\r\n" ++ c.head ++ b!"\r\n" ++ c.bytes ++ b!"\r\n"

/-- the body -/
def multipartBody (boundary : Str) (cs : List FormPart) : Str := cs.flatMap (FormPart.wire boundary) ++ b!"--" ++ boundary ++ b!"--\r\n"

/-- the Content-Type -/
def multipartType (boundary : Str) : Str := b!"multipart/form-data; boundary=" ++ boundary

/-- Letters, digits and dashes, some but not too many: what browsers take as a boundary. -/
def BoundaryText (s : Str) : Prop :=
  s ≠ [] ∧ s.length ≤ 70 ∧ ∀ c ∈ s, c = 45 ∨ (48 ≤ c ∧ c ≤ 57) ∨ (65 ≤ c ∧ c ≤ 90) ∨ (97 ≤ c ∧ c ≤ 122)

/-- The boundary does not occur in the bytes, and the type of a file is one line that does not begin or end with a space or tab. -/
def FormPart.Sendable (boundary : Str) (c : FormPart) : Prop :=
  ¬ (b!"--" ++ boundary) <:+: c.bytes ∧
    match c with
    | .text _ _ => True
    | .file _ _ type _ => (∀ x ∈ type, x ≠ 13 ∧ x ≠ 10) ∧ type.head? ≠ some 32 ∧ type.head? ≠ some 9 ∧ type.getLast? ≠ some 32 ∧
        type.getLast? ≠ some 9

/-- `( ) < > @ , ; : \ " / [ ] ? =`, which RFC 2045 calls tspecials -/
def Special (c : UInt8) : Prop := c ∈ b!"()<>@,;:\\\"/[]?="

/-- A name that arrives as it is: not empty, without quotes and line breaks, and no backslash at its end or before a special. -/
def NameKept (s : Str) : Prop :=
  s ≠ [] ∧ (∀ c ∈ s, c ≠ 34 ∧ c ≠ 13 ∧ c ≠ 10) ∧ ∀ a b, s = a ++ 92 :: b → ∃ c r, b = c :: r ∧ ¬ Special c

/-- the names of a control do -/
def FormPart.Kept : FormPart → Prop
  | .text name _ => NameKept name
  | .file name filename _ _ => NameKept name ∧ NameKept filename

/-- the texts of a form with their names, in order -/
def textsOf (cs : List FormPart) : List (Str × Str) :=
  cs.filterMap (fun c => match c with | .text n v => some (n, v) | .file .. => none)

/-- A file as it was chosen: its name, its type and its bytes. -/
structure SentFile where
  filename : Str
  type : Str
  data : Str
  deriving DecidableEq

/-- the files with the names of their controls, in order -/
def filesOf (cs : List FormPart) : List (Str × SentFile) :=
  cs.filterMap (fun c => match c with | .text .. => none | .file n f t d => some (n, ⟨f, t, d⟩))

/-- how many bytes the texts have together -/
def textBytes (cs : List FormPart) : Nat := ((textsOf cs).map (fun p => p.2.length)).sum

/-- how many bytes the files have together -/
def fileBytes (cs : List FormPart) : Nat := ((filesOf cs).map (fun p => p.2.data.length)).sum

end Water.Spec
