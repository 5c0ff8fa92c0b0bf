import Verif.Model.Context
import Verif.Model.Strconv
/-
`Environ` (environ.go), `Params` (params.go), the request form (query.go) and the request cookies (cookie.go) as
values. A Go panic is `Except.error`. `strconv.ParseFloat(s, 64)` is a parameter `pf` of the accessors that use it; a float64 is its
bits.
-/
namespace Water

/-! ### environ.go -/

/-- `Environ` (environ.go:5); reading a nil map is reading an empty one. -/
abbrev Environ := Map Str EVal

/-- the failed type assertion `m[name].(T)`; its text is not modelled -/
def assertPanic : PVal := .val b!"interface conversion"

/-- `Environ.GetBool` (environ.go:7-9). -/
def Environ.getBool (m : Environ) (k : Str) : Except PVal Bool :=
  match m k with
  | some (.bool b) => .ok b
  | _ => .error assertPanic
/-- `Environ.GetInt` (environ.go:11-13). -/
def Environ.getInt (m : Environ) (k : Str) : Except PVal Int :=
  match m k with
  | some (.int i) => .ok i
  | _ => .error assertPanic
/-- `Environ.GetInt64` (environ.go:15-17). -/
def Environ.getInt64 (m : Environ) (k : Str) : Except PVal Int :=
  match m k with
  | some (.int64 i) => .ok i
  | _ => .error assertPanic
/-- `Environ.GetUint` (environ.go:19-21). -/
def Environ.getUint (m : Environ) (k : Str) : Except PVal Nat :=
  match m k with
  | some (.uint n) => .ok n
  | _ => .error assertPanic
/-- `Environ.GetUint64` (environ.go:23-25). -/
def Environ.getUint64 (m : Environ) (k : Str) : Except PVal Nat :=
  match m k with
  | some (.uint64 n) => .ok n
  | _ => .error assertPanic
/-- `Environ.GetFloat64` (environ.go:27-29). -/
def Environ.getFloat64 (m : Environ) (k : Str) : Except PVal UInt64 :=
  match m k with
  | some (.float64 b) => .ok b
  | _ => .error assertPanic
/-- `Environ.GetString` (environ.go:31-33). -/
def Environ.getString (m : Environ) (k : Str) : Except PVal Str :=
  match m k with
  | some (.string s) => .ok s
  | _ => .error assertPanic
/-- `Environ.Has` (environ.go:53-56). -/
def Environ.has (m : Environ) (k : Str) : Bool := (m k).isSome
/-- `Environ.Get` (environ.go:36-42) and `Context.Get` (environ.go:68-73). -/
def Environ.get (m : Environ) (k : Str) : Except PVal EVal :=
  match m k with
  | some v => .ok v
  | none => .error (.val (b!"Environ not exist: " ++ k))
/-- `Environ.Set` (environ.go:45-51) and `Context.Set` (environ.go:59-65). The map is changed in place; the second
component is the map afterwards. -/
def Environ.set (m : Environ) (k : Str) (v : EVal) : Except PVal Unit × Environ :=
  if m.has k then (.error (.val (b!"double Environ: " ++ k)), m) else (.ok (), Map.set m k v)
/-- `Context.GetMaybe` (environ.go:77-80); `none` is `(nil, false)`. -/
def Environ.getMaybe (m : Environ) (k : Str) : Option EVal := m k

/-! ### params.go -/

/-- `Params.String` (params.go:21-27), `Context.Param` (params.go:15-17). -/
def Params.str (p : Params) (k : Str) : Except PVal Str :=
  match p k with
  | some v => .ok v
  | none => .error (.val (b!"Params not exist: " ++ k))
/-- `Params.Bool` (params.go:30-32). -/
def Params.bool (p : Params) (k : Str) : Except PVal (Bool × Option NumErr) := (p.str k).map parseBool
/-- `Params.Int` (params.go:35-37). -/
def Params.int (p : Params) (k : Str) : Except PVal (Int × Option NumErr) := (p.str k).map atoi
/-- `Params.Int64` (params.go:40-42). -/
def Params.int64 (p : Params) (k : Str) : Except PVal (Int × Option NumErr) := (p.str k).map (parseInt 64)
/-- `Params.Uint` (params.go:45-48); `uint` has 64 bits. -/
def Params.uint (p : Params) (k : Str) : Except PVal (Nat × Option NumErr) := (p.str k).map (parseUint 64)
/-- `Params.Uint64` (params.go:51-53). -/
def Params.uint64 (p : Params) (k : Str) : Except PVal (Nat × Option NumErr) := (p.str k).map (parseUint 64)
/-- `Params.Float64` (params.go:56-58). -/
def Params.float64 (pf : Str → UInt64 × Option NumErr) (p : Params) (k : Str) : Except PVal (UInt64 × Option NumErr) := (p.str k).map pf
/-- `Params.MustBool` (params.go:61-64). -/
def Params.mustBool (p : Params) (k : Str) : Except PVal Bool := (p.bool k).map Prod.fst
/-- `Params.MustInt` (params.go:67-70). -/
def Params.mustInt (p : Params) (k : Str) : Except PVal Int := (p.int k).map Prod.fst
/-- `Params.MustInt64` (params.go:73-76). -/
def Params.mustInt64 (p : Params) (k : Str) : Except PVal Int := (p.int64 k).map Prod.fst
/-- `Params.MustUint` (params.go:79-82). -/
def Params.mustUint (p : Params) (k : Str) : Except PVal Nat := (p.uint k).map Prod.fst
/-- `Params.MustUint64` (params.go:85-88). -/
def Params.mustUint64 (p : Params) (k : Str) : Except PVal Nat := (p.uint64 k).map Prod.fst
/-- `Params.MustFloat64` (params.go:91-94). -/
def Params.mustFloat64 (pf : Str → UInt64 × Option NumErr) (p : Params) (k : Str) : Except PVal UInt64 := (p.float64 pf k).map Prod.fst

/-! ### query.go, after `ParseFormOrMultipartForm` -/

/-- `Form[name]` -/
def Form.at (f : Form) (k : Str) : Option (List Str) := (f.find? (fun e => e.1 == k)).map Prod.snd
/-- `Form.Get(name)` (net/url). -/
def Form.get (f : Form) (k : Str) : Str := ((f.at k).getD []).headD []
/-- `queryExist` (query.go:8-17). -/
def Form.exist (f : Form) (k : Str) : Bool := ((f.at k).getD []).length != 0
/-- `Query` (query.go:22-30). -/
def Form.query (f : Form) (k : Str) : Str := if !f.exist k then [] else trimSpace (f.get k)
/-- `QueryBool` (query.go:33-36). -/
def Form.queryBool (f : Form) (k : Str) : Bool := (parseBool (f.query k)).1
/-- `QueryInt` (query.go:39-42). -/
def Form.queryInt (f : Form) (k : Str) : Int := (atoi (f.query k)).1
/-- `QueryInt64` (query.go:45-48). -/
def Form.queryInt64 (f : Form) (k : Str) : Int := (parseInt 64 (f.query k)).1
/-- `QueryUint` (query.go:51-54). -/
def Form.queryUint (f : Form) (k : Str) : Nat := (parseUint 64 (f.query k)).1
/-- `QueryUint64` (query.go:57-60). -/
def Form.queryUint64 (f : Form) (k : Str) : Nat := (parseUint 64 (f.query k)).1
/-- `QueryFloat64` (query.go:63-66). -/
def Form.queryFloat64 (pf : Str → UInt64 × Option NumErr) (f : Form) (k : Str) : UInt64 := (pf (f.query k)).1
/-- `QueryArray` (query.go:69-83); `none` is nil. -/
def Form.queryArray (f : Form) (k : Str) : Option (List Str) :=
  if !f.exist k then none else some (((f.at k).getD []).map trimSpace)
/-- `DefaultQuery` (query.go:108-116). -/
def Form.defaultQuery (f : Form) (k dflt : Str) : Str := if !f.exist k then dflt else trimSpace (f.get k)
/-- `DefaultQueryBool` (query.go:119-122). -/
def Form.defaultQueryBool (f : Form) (k dflt : Str) : Bool := (parseBool (f.defaultQuery k dflt)).1
/-- `DefaultQueryInt` (query.go:125-128). -/
def Form.defaultQueryInt (f : Form) (k dflt : Str) : Int := (atoi (f.defaultQuery k dflt)).1
/-- `DefaultQueryInt64` (query.go:131-134). -/
def Form.defaultQueryInt64 (f : Form) (k dflt : Str) : Int := (parseInt 64 (f.defaultQuery k dflt)).1
/-- `DefaultQueryUint` (query.go:137-140). -/
def Form.defaultQueryUint (f : Form) (k dflt : Str) : Nat := (parseUint 64 (f.defaultQuery k dflt)).1
/-- `DefaultQueryUint64` (query.go:143-146). -/
def Form.defaultQueryUint64 (f : Form) (k dflt : Str) : Nat := (parseUint 64 (f.defaultQuery k dflt)).1
/-- `DefaultQueryFloat64` (query.go:149-152). -/
def Form.defaultQueryFloat64 (pf : Str → UInt64 × Option NumErr) (f : Form) (k dflt : Str) : UInt64 := (pf (f.defaultQuery k dflt)).1
/-- `DefaultQueryArray` (query.go:155-168); `none` is nil. -/
def Form.defaultQueryArray (f : Form) (k : Str) (dflt : Option (List Str)) : Option (List Str) :=
  match f.at k with
  | none => dflt
  | some vs => some (vs.map trimSpace)

/-- the key under which `QueryMap(name)` files the form name `k`, if any (query.go:95-97, 178-182) -/
def mapKey (name k : Str) : Option Str :=
  match indexByte k lbrack with
  | none => none
  | some i =>
    if 1 ≤ i ∧ k.take i = name then
      let r := k.drop (i + 1)
      match indexByte r rbrack with
      | none => none
      | some j => if 1 ≤ j then some (r.take j) else none
    else none

/-- index out of range -/
def indexPanic : PVal := .val b!"index out of range"

/-- The loop of `QueryMap` (query.go:94-100) and `DefaultQueryMap` (query.go:177-185) over the entries in iteration
order; the flag is `exist`. `v[0]` panics if the value list is empty. -/
def queryMapLoop (name : Str) : Form → Map Str Str × Bool → Except PVal (Map Str Str × Bool)
  | [], acc => .ok acc
  | (k, vs) :: rest, acc =>
    match mapKey name k with
    | none => queryMapLoop name rest acc
    | some key =>
      match vs with
      | [] => .error indexPanic
      | v :: _ => queryMapLoop name rest (Map.set acc.1 key (trimSpace v), true)

/-- `QueryMap` (query.go:89-103). -/
def Form.queryMap (f : Form) (name : Str) : Except PVal (Map Str Str) := (queryMapLoop name f (Map.empty, false)).map Prod.fst
/-- `DefaultQueryMap` (query.go:171-192). -/
def Form.defaultQueryMap (f : Form) (name : Str) (dflt : Map Str Str) : Except PVal (Map Str Str) :=
  (queryMapLoop name f (Map.empty, false)).map (fun r => if !r.2 then dflt else r.1)

/-! ### cookie.go: reading. `cookies` are the request's cookies as parsed by net/http. -/

/-- `Context.Cookie` (cookie.go:9-16); `Request.Cookie` returns the first cookie of the name. With an empty name
`readCookies` does not filter. -/
def cookie (cookies : List (Str × Str)) (k : Str) : Str :=
  ((cookies.find? (fun e => k = [] || e.1 == k)).map Prod.snd).getD []
/-- `CookieBool` (cookie.go:22-25). -/
def cookieBool (cs : List (Str × Str)) (k : Str) : Bool := (parseBool (cookie cs k)).1
/-- `CookieInt` (cookie.go:27-30). -/
def cookieInt (cs : List (Str × Str)) (k : Str) : Int := (atoi (cookie cs k)).1
/-- `CookieInt64` (cookie.go:32-35). -/
def cookieInt64 (cs : List (Str × Str)) (k : Str) : Int := (parseInt 64 (cookie cs k)).1
/-- `CookieUint` (cookie.go:37-40). -/
def cookieUint (cs : List (Str × Str)) (k : Str) : Nat := (parseUint 64 (cookie cs k)).1
/-- `CookieUint64` (cookie.go:42-45). -/
def cookieUint64 (cs : List (Str × Str)) (k : Str) : Nat := (parseUint 64 (cookie cs k)).1
/-- `CookieFloat64` (cookie.go:47-50). -/
def cookieFloat64 (pf : Str → UInt64 × Option NumErr) (cs : List (Str × Str)) (k : Str) : UInt64 := (pf (cookie cs k)).1

end Water
