import Verif.Model.FormFile
/- `Bind` beside `FormFile` and the accessors on one request: `ctx.Bind` up to the decoders, and the decoders of forms. -/
namespace Water

/-- What comes of `ctx.Bind`: a panic; the error of `ParseForm` or `ParseMultipartForm` in a decoder; the mapping's result; or the body
is left to the JSON or XML decoder, which is not modelled here. -/
inductive Bound where
  | panic
  | form
  | mapped (r : BOut × Target)
  | body (d : Decoder)

/-- `formBinding.Bind` up to `MapForm` (binding/form.go:37-42): the form, parsed if it is not; the flag is an error. -/
def Forms.forForm (m : FMime) (req : Req) (s : Forms) : Bool × Forms :=
  match s.form with
  | some _ => (false, s)
  | none => s.parseForm m req

/-- `formMultipartBinding.Bind` up to `MapForm` (binding/form.go:71-76). -/
def Forms.forMultipart (m : FMime) (req : Req) (s : Forms) : Bool × Forms :=
  match s.multi with
  | some _ => (false, s)
  | none => s.parseMulti m req

/-- `ctx.Bind` and `ctx.BindWith` (content.go:289-306) with `formBinding.Bind` and `formMultipartBinding.Bind` (binding/form.go:37-49,
71-83). The second call to `ParseFormOrMultipartForm`, in `BindWith`, finds the flag set. -/
def Forms.bind (m : FMime) (b : BOracle) (E : TyEnv) (fuel : Nat) (check : Target → Option Nat) (req : Req) (obj : Target) (s : Forms) :
    Bound × Forms :=
  match newBindinger req.method (contentTypeOf req.header) with
  | .json => (.body .json, s)
  | .xml => (.body .xml, s)
  | .form =>
    match s.prepare m req with
    | (true, s) => (.panic, s)
    | (false, s) =>
      match (s.prepare m req).2.forForm m req with
      | (true, s) => (.form, s)
      | (false, s) => (.mapped (bindForm b E fuel check obj (s.form.getD []) [] b!"form"), s)
  | .multipart =>
    match s.prepare m req with
    | (true, s) => (.panic, s)
    | (false, s) =>
      match (s.prepare m req).2.forMultipart m req with
      | (true, s) => (.form, s)
      | (false, s) =>
        match s.multi with
        | none => (.panic, s)
        | some (vs, fs) => (.mapped (bindForm b E fuel check obj vs fs b!"form"), s)

/-- The calls of a handler, now with `Bind`. -/
inductive BOp where
  | call (op : FOp)
  | bind (fuel : Nat) (obj : Target)

/-- a call -/
def Forms.stepB (m : FMime) (b : BOracle) (E : TyEnv) (check : Target → Option Nat) (req : Req) (s : Forms) : BOp → Forms
  | .call op => s.step m req op
  | .bind fuel obj => (s.bind m b E fuel check req obj).2

/-- the calls made so far -/
def Forms.afterB (m : FMime) (b : BOracle) (E : TyEnv) (check : Target → Option Nat) (req : Req) (s : Forms) (ops : List BOp) : Forms :=
  ops.foldl (Forms.stepB m b E check req) s

end Water
