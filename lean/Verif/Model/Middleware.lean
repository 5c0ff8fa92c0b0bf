import Verif.Model.Context
import Verif.Model.Util
/- The middlewares CORS (m_cors.go) and Logger (m_logger.go) as handler code. Recovery is in `Context`. -/
namespace Water
variable {ω : Type}

/-! ### m_cors.go -/

/-- `CORSConfig` (m_cors.go:27-59). -/
structure CORSConfig where
  allowOrigins : List Str
  allowMethods : List Str
  allowHeaders : List Str
  allowCredentials : Bool
  exposeHeaders : List Str
  maxAge : Int

/-- `DefaultCORSConfig` (m_cors.go:63-66). -/
def defaultCORS : CORSConfig where
  allowOrigins := [b!"*"]
  allowMethods := [b!"GET", b!"POST", b!"PUT", b!"PATCH", b!"DELETE", b!"HEAD"]
  allowHeaders := []
  allowCredentials := false
  exposeHeaders := []
  maxAge := 0

/-- `HeaderVary` (m_cors.go:10) -/
def hVary : Str := b!"Vary"
/-- `HeaderOrigin` (m_cors.go:11) -/
def hOrigin : Str := b!"Origin"
/-- `HeaderAccessControlRequestMethod` (m_cors.go:14) -/
def hRequestMethod : Str := b!"Access-Control-Request-Method"
/-- `HeaderAccessControlRequestHeaders` (m_cors.go:15) -/
def hRequestHeaders : Str := b!"Access-Control-Request-Headers"
/-- `HeaderAccessControlAllowOrigin` (m_cors.go:16) -/
def hAllowOrigin : Str := b!"Access-Control-Allow-Origin"
/-- `HeaderAccessControlAllowMethods` (m_cors.go:17) -/
def hAllowMethods : Str := b!"Access-Control-Allow-Methods"
/-- `HeaderAccessControlAllowHeaders` (m_cors.go:18) -/
def hAllowHeaders : Str := b!"Access-Control-Allow-Headers"
/-- `HeaderAccessControlAllowCredentials` (m_cors.go:19) -/
def hAllowCredentials : Str := b!"Access-Control-Allow-Credentials"
/-- `HeaderAccessControlExposeHeaders` (m_cors.go:20) -/
def hExposeHeaders : Str := b!"Access-Control-Expose-Headers"
/-- `HeaderAccessControlMaxAge` (m_cors.go:21) -/
def hMaxAge : Str := b!"Access-Control-Max-Age"

/-- `res.Header().Add(k, v)` -/
def Prog.addHeader (k v : Str) (p : Prog ω) : Prog ω := .do (.header (fun h => (h.add k v, .unit))) p
/-- `if b { res.Header().Set(k, v) }` -/
def Prog.setHeaderIf (b : Bool) (k v : Str) (p : Prog ω) : Prog ω := if b then .do (.setHeader k v) p else p

/-- the choice of the allowed origin (m_cors.go:86-94) -/
def corsOrigin (origins : List Str) (origin : Str) : Str :=
  match origins.find? (fun o => o == b!"*" || o == origin) with
  | some o => o
  | none => []

/-- the defaults filled in (m_cors.go:70-75) -/
def corsDefaults (c : CORSConfig) : CORSConfig :=
  let c := if c.allowOrigins.length = 0 then { c with allowOrigins := defaultCORS.allowOrigins } else c
  if c.allowMethods.length = 0 then { c with allowMethods := defaultCORS.allowMethods } else c

/-- the simple request (m_cors.go:97-108) -/
def corsSimple (c : CORSConfig) (allowOrigin : Str) : Prog ω :=
  .addHeader hVary hOrigin <|
  .do (.setHeader hAllowOrigin allowOrigin) <|
  .setHeaderIf c.allowCredentials hAllowCredentials b!"true" <|
  .setHeaderIf (join b!"," c.exposeHeaders != []) hExposeHeaders (join b!"," c.exposeHeaders) <|
  .next .ret

/-- the preflight request (m_cors.go:111-130) -/
def corsPreflight (c : CORSConfig) (allowOrigin : Str) : Prog ω :=
  .addHeader hVary hOrigin <|
  .addHeader hVary hRequestMethod <|
  .addHeader hVary hRequestHeaders <|
  .do (.setHeader hAllowOrigin allowOrigin) <|
  .do (.setHeader hAllowMethods (join b!"," c.allowMethods)) <|
  .setHeaderIf c.allowCredentials hAllowCredentials b!"true" <|
  let rest : Prog ω := .setHeaderIf (decide (c.maxAge > 0)) hMaxAge (itoa c.maxAge) (.do (.writeHeader 204) .ret)
  if join b!"," c.allowHeaders != [] then .do (.setHeader hAllowHeaders (join b!"," c.allowHeaders)) rest
  else .call (.reqHeader hRequestHeaders) (fun r =>
    match r with
    | .str h => .setHeaderIf (h != []) hAllowHeaders h rest
    | _ => rest)

/-- `CORS(config)` (m_cors.go:69-132). -/
def cors (cfg : CORSConfig) : Prog ω :=
  let c := corsDefaults cfg
  .call (.reqHeader hOrigin) (fun r =>
    match r with
    | .str origin =>
      .call .reqMethod (fun r => if r != .str mOPTIONS then corsSimple c (corsOrigin c.allowOrigins origin)
        else corsPreflight c (corsOrigin c.allowOrigins origin))
    | _ => .ret)

/-! ### m_logger.go -/

/-- `1 << 20` (m_logger.go:63) -/
def logLimit : Nat := 1048576

/-- What Logger takes from the request for its line: the trace id (m_logger.go:50), the address of the client, the method
and the URL as text (m_logger.go:81-83). -/
def asked (req : Req) : List Str :=
  [req.header.get b!"Trace-ID", requestRealIp req.header req.remoteAddr, req.method, req.urlText]

/-- the end of Logger (m_logger.go:73-85): after `Next`, one log line is built from the status, the request and the body
and handed to logx: some change `emit` of the world -/
def loggerTail (emit : List Str → Int → Str → ω → ω) (body : Str) : Prog ω :=
  .next (.call .status (fun st =>
    match st with
    | .int st => .call (.reqTexts asked) (fun a =>
      match a with
      | .strs a => .do (.world (fun w => (emit a st body w, .unit))) .ret
      | _ => .ret)
    | _ => .ret))

/-- `Logger()` (m_logger.go:53-87). `closed` is `LogClose`, `withBody` is `LogHttpBody`. -/
def logger (closed withBody : Bool) (emit : List Str → Int → Str → ω → ω) : Prog ω :=
  if closed then .ret
  else if !withBody then loggerTail emit []
  else .call .hasBody (fun b =>
    if b = .bool true then
      .call (.reqHeader kContentType) (fun ct =>
        match ct with
        | .str ct =>
          if containsStr ct b!"application/json" then
            .call (.readBody (some logLimit)) (fun d =>
              match d with
              | .str d => .do (.setBody d) (loggerTail emit (10 :: d))
              | _ => .ret)
          else loggerTail emit []
        | _ => .ret)
    else loggerTail emit [])

end Water
