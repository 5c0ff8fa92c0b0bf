import Verif.Spec.Util
import Verif.Model.Header
/-
Machines between a client and the server. Each passes the request on over a connection of its own, and may say in the header from where
the request came to it.
-/
namespace Water.Spec
open Water

/-- What a machine in between says: nothing; the address it got the request from at the end of the list X-Forwarded-For (as
`httputil.ReverseProxy` and nginx with `$proxy_add_x_forwarded_for` do); or also the header X-Real-IP with this address (nginx with
`X-Real-IP $remote_addr`). -/
inductive Says where
  | nothing
  | list
  | both
  deriving DecidableEq, Repr

/-- a machine in between: what it says, and the address from which it connects -/
structure Hop where
  says : Says
  ip : Str

/-- A request as it arrives somewhere: the header, and the address from which it came. -/
structure Arrival where
  header : Header
  peer : Str

/-- X-Forwarded-For after an address was added: lines are joined. -/
def forwardedFor (h : Header) (ip : Str) : Str :=
  match h b!"X-Forwarded-For" with
  | some (v :: vs) => join b!", " (v :: vs) ++ b!", " ++ ip
  | _ => ip

/-- A request is passed on by a machine. -/
def passOn (a : Arrival) (m : Hop) : Arrival :=
  match m.says with
  | .nothing => { a with peer := m.ip }
  | .list => { header := a.header.put b!"X-Forwarded-For" (forwardedFor a.header a.peer), peer := m.ip }
  | .both => { header := (a.header.put b!"X-Forwarded-For" (forwardedFor a.header a.peer)).put b!"X-Real-IP" a.peer, peer := m.ip }

/-- A request arrives at the server after all machines. -/
def arrives (client : Str) (h : Header) (ms : List Hop) : Arrival := ms.foldl passOn { header := h, peer := client }

/-- the address of a connection with its port (`net.JoinHostPort`) -/
def hostPort (ip port : Str) : Str := if colon ∈ ip then b!"[" ++ ip ++ b!"]:" ++ port else ip ++ b!":" ++ port

/-- An address: without commas, and not empty. -/
def Address (ip : Str) : Prop := ip ≠ [] ∧ 44 ∉ ip

/-- What can be known of where a request came from: the address under X-Real-IP, the first entry of X-Forwarded-For, the address of the
connection. -/
structure Known where
  real : Str
  first : Option Str
  peer : Str

/-- what is known behind one more machine -/
def Known.past (k : Known) (m : Hop) : Known :=
  match m.says with
  | .nothing => { k with peer := m.ip }
  | .list => { k with first := some (k.first.getD k.peer), peer := m.ip }
  | .both => { real := k.peer, first := some (k.first.getD k.peer), peer := m.ip }

/-- which of these is taken for the address of the client -/
def Known.taken (k : Known) : Str :=
  if k.real ≠ [] then k.real
  else if k.first.getD [] ≠ [] then k.first.getD []
  else if colon ∈ k.peer then b!"[" ++ k.peer ++ b!"]" else k.peer

/-- what the header that the client sent says -/
def SaidBy (h : Header) (real : Str) (first : Option Str) : Prop :=
  h.get b!"X-Real-IP" = real ∧
  match first with
  | none => ((h b!"X-Forwarded-For").getD []) = []
  | some e => ∃ v vs, h b!"X-Forwarded-For" = some (v :: vs) ∧ FirstEntry v e

end Water.Spec
