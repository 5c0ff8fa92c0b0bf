import Verif.Model.Context
/- Refusing a request with a status code, and the header against caching: content.go:53-90. -/
namespace Water
variable {ω : Type}

/-- `ctx.Abort` (content.go:82-84). -/
def Prog.abort (code : Int) (k : Prog ω) : Prog ω := .do (.writeHeader code) k

/-- `ctx.NotModified` (content.go:53-55). -/
def Prog.notModified (k : Prog ω) : Prog ω := .abort 304 k

/-- `ctx.BadRequest` (content.go:58-60). -/
def Prog.badRequest (k : Prog ω) : Prog ω := .abort 400 k

/-- `ctx.Unauthorized` (content.go:63-65). -/
def Prog.unauthorized (k : Prog ω) : Prog ω := .abort 401 k

/-- `ctx.Forbidden` (content.go:68-70). -/
def Prog.forbidden (k : Prog ω) : Prog ω := .abort 403 k

/-- `ctx.NotFound` (content.go:73-75). -/
def Prog.notFound (k : Prog ω) : Prog ω := .abort 404 k

/-- `ctx.InternalServerError` (content.go:78-80). -/
def Prog.internalServerError (k : Prog ω) : Prog ω := .abort 500 k

/-- `ctx.NoCache` (content.go:87-90). -/
def Prog.noCache (k : Prog ω) : Prog ω :=
  .do (.setHeader b!"Cache-Control" b!"no-cache, max-age=0, s-max-age=0, must-revalidate") (.do (.setHeader b!"Expires" b!"0") k)

end Water
