import Verif.Model.Print
import Verif.Model.Middleware
/- The text of the access log: m_logger.go:15-51, 75-85, with the verbs of `fmt.Sprintf` it uses. -/
namespace Water

/-- `utf8.RuneCountInString`; `fuel` bounds the number of characters. -/
def runeCountF : Nat → Str → Nat
  | 0, _ => 0
  | _ + 1, [] => 0
  | f + 1, s => 1 + runeCountF f (s.drop (max 1 (decodeRune s).2))

/-- see `runeCountF` -/
def runeCount (s : Str) : Nat := runeCountF s.length s

/-- The verbs `%13v`, `%16s`, `%7s` of fmt: padding counts characters. -/
def padRunes (w : Nat) (s : Str) : Str := List.replicate (w - runeCount s) 32 ++ s

/-- `green`, `white`, `yellow`, `red`, `reset` (m_logger.go:16-20) -/
def cGreen : Str := [27, 91, 57, 55, 59, 52, 50, 109]
/-- see `cGreen` -/
def cWhite : Str := [27, 91, 57, 48, 59, 52, 55, 109]
/-- see `cGreen` -/
def cYellow : Str := [27, 91, 57, 55, 59, 52, 51, 109]
/-- see `cGreen` -/
def cRed : Str := [27, 91, 57, 55, 59, 52, 49, 109]
/-- see `cGreen` -/
def cReset : Str := [27, 91, 48, 109]

/-- `colorForStatus` (m_logger.go:28-39). -/
def colorForStatus (code : Int) : Str :=
  if 200 ≤ code ∧ code < 300 then cGreen
  else if 300 ≤ code ∧ code < 400 then cWhite
  else if 400 ≤ code ∧ code < 500 then cYellow
  else cRed

/-- `logStatus` (m_logger.go:41-47); `color` is `LogColor`. -/
def logStatus (color : Bool) (status : Int) : Str :=
  if color then colorForStatus status ++ b!" " ++ padLeft 3 (itoa status) ++ b!" " ++ cReset
  else b!" " ++ padLeft 3 (itoa status) ++ b!" "

/-- `logPrefix` (m_logger.go:49-51); `trace` is the header Trace-ID. -/
def logPrefix (trace : Str) : Str := b!"[ water : " ++ trace ++ b!" ]"

/-- What Logger writes beside what it takes from the request: the text of the start time and of the time used
(m_logger.go:78, 80). -/
structure LogTimes where
  start : Str
  used : Str

/-- The arguments of `logx.Infof` put into its layout (m_logger.go:76-85): `"%s %v |%s| %13v | %16s | %7s %s%s"`. -/
def accessText (color : Bool) (trace ip method url : Str) (t : LogTimes) (status : Int) (body : Str) : Str :=
  logPrefix trace ++ b!" " ++ t.start ++ b!" |" ++ logStatus color status ++ b!"| " ++ padRunes 13 t.used ++ b!" | " ++
  padRunes 16 ip ++ b!" | " ++ padRunes 7 method ++ b!" " ++ url ++ body

/-- The change Logger makes to the world: its text is given to `put` (logx). The times are those the world gives. -/
def accessEmit {ω : Type} (color : Bool) (times : ω → LogTimes) (put : Str → ω → ω) : List Str → Int → Str → ω → ω
  | [trace, ip, method, url], status, body, w => put (accessText color trace ip method url (times w) status body) w
  | _, _, _, w => w

end Water
