import Verif.Model.Mapping
import Verif.Model.Header
import Verif.Model.Url
import Verif.Model.Content
/-
Binding the header of a request: /repo/binding/header.go.
-/
namespace Water

/-- The header map that net/http makes of the lines of a request (`textproto.Reader.ReadMIMEHeader`): each value goes to the canonical
form of its name. `Host`, `Transfer-Encoding` and `Trailer`, which net/http takes out, are in `serverHeader`. -/
def readHeader (lines : List (Str × Str)) : Form := lines.foldl (fun f l => f.append (canonKey l.1) [l.2]) []

/-- What net/http makes of the header that it has read (Go 1.15 `readRequest`, `fixPragmaCacheControl`, `readTransfer`) before /repo sees it in
`req.Header` (binding/header.go:16, 24). Not modelled: `Content-Length` is taken out of a request in chunks. -/
def serverHeader (h : Header) : Header :=
  let h : Header := h.drop b!"Host"
  let h : Header := if (h b!"Pragma").bind List.head? = some b!"no-cache" ∧ h b!"Cache-Control" = none then Map.set h b!"Cache-Control" [b!"no-cache"] else h
  (h.drop b!"Transfer-Encoding").drop b!"Trailer"

/-- `binding.Header.Bind` (binding/header.go:23-29) -/
def headerBind (o : BOracle) (E : TyEnv) (fuel : Nat) (check : Target → Option Nat) (obj : Target) (lines : List (Str × Str)) : BOut × Target :=
  bindForm o E fuel check obj (readHeader lines) [] b!"header"

/-- `binding.Header.Bind2` (binding/header.go:15-21) into a struct -/
def headerBind2 (o : BOracle) (E : TyEnv) (fuel : Nat) (check : Val → Option Nat) (lines : List (Str × Str)) (n : Nat) (v : Val) : BOut × Val :=
  bind2 o E fuel check ⟨readHeader lines, [], true⟩ b!"header" n v

end Water
