import Verif.Model.Str
/- A reader of access log lines, written from the layout in the comment of m_logger.go:75 only. -/
namespace Water.Spec

/-- What an access log line says. -/
structure LogEntry where
  trace : Str
  start : Str
  status : Str
  used : Str
  ip : Str
  method : Str
  url : Str
  deriving DecidableEq, Repr

/-- the text up to the first byte `c`, and what follows that byte -/
def cutAt (c : UInt8) (s : Str) : Str × Str := (s.takeWhile (· != c), (s.dropWhile (· != c)).drop 1)

/-- without blanks in front -/
def noLead (s : Str) : Str := s.dropWhile (· == 32)

/-- without one blank at the end -/
def noTrail (s : Str) : Str := if s.getLast? = some 32 then s.dropLast else s

/-- The line, field by field: the trace between the first colon and the first closing bracket, then the fields
separated by bars; of the status the second word, colours or not; the method up to a blank, the URL to the end. -/
def readEntry (line : Str) : LogEntry :=
  let (_, s) := cutAt 58 line
  let (trace, s) := cutAt 93 s
  let (start, s) := cutAt 124 s
  let (status, s) := cutAt 124 s
  let (used, s) := cutAt 124 s
  let (ip, s) := cutAt 124 s
  let (method, url) := cutAt 32 (noLead s)
  { trace := noTrail (trace.drop 1)
    start := noTrail (start.drop 1)
    status := (cutAt 32 (noLead (cutAt 32 status).2)).1
    used := noTrail (noLead used)
    ip := noTrail (noLead ip)
    method
    url }

/-- The escape that sets a background (green 42, grey 47, amber 43, red 41) by the first digit of the status. -/
def classColour (digit : Int) : Str :=
  if digit = 2 then [27] ++ b!"[97;42m" else if digit = 3 then [27] ++ b!"[90;47m" else if digit = 4 then [27] ++ b!"[97;43m"
  else [27] ++ b!"[97;41m"

/-- The line breaks of a text. -/
def breaks (s : Str) : Nat := s.countP (· == 10)

end Water.Spec
