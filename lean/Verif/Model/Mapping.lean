import Verif.Model.Binding
/-
The older of the two mappers of /repo/binding, reached through the methods `Bind2`: binding/mapping.go, and the setters of
form.go:85-105 and header.go:31-37. Types and values are those of Model/Binding.lean. The value of an array is written like
that of a slice. Not modelled: that the fields `Filename`, `Header` and `Size` of a
`multipart.FileHeader` are filled from form values of these names.
-/
namespace Water

/-- A `setter`: `formSource` (form.go:85-92), `multipartForm` (form.go:94-105), which has files, or `headerSource`
(header.go:31-37), which makes names canonical. -/
structure Source where
  form : Form
  files : FormFiles
  header : Bool

/-- `emptyField` (binding/mapping.go:14). -/
def emptyField : Field := { name := [], exported := true, anonymous := false, tag := fun _ => [], ty := .other 0 }

/-- `setTimeField` (binding/mapping.go:393-442): like `setTimeField2`, with the options taken from the tags. -/
def setTimeField (o : BOracle) (fd : Field) (val : Str) (v : Val) : BOut × Val :=
  setTimeField2 o val { defaultValue := [], timeFormat := fd.tag b!"time_format", timeUtc := fd.tag b!"time_utc",
                        timeLocation := fd.tag b!"time_location" } v

/-- `setWithProperType` (binding/mapping.go:292-338) with `setIntField` (340-349), `setUintField` (360-369), `setTimeDuration` (351-358),
`setBoolField` (371-380) and `setFloatField` (382-391). The bit size 0 stands for 64 bits. -/
def setProper (o : BOracle) (fd : Field) (t : Ty) (val : Str) (v : Val) : BOut × Val :=
  match t with
  | .int bits =>
    match parseInt bits (if val = [] then b!"0" else val) with
    | (_, some e) => (.err (.num e), v)
    | (i, none) => (.ok, .int i)
  | .uint bits =>
    match parseUint bits (if val = [] then b!"0" else val) with
    | (_, some e) => (.err (.num e), v)
    | (n, none) => (.ok, .uint n)
  | .bool =>
    match parseBool (if val = [] then b!"false" else val) with
    | (_, some e) => (.err (.num e), v)
    | (b, none) => (.ok, .bool b)
  | .float bits =>
    match o.float bits (if val = [] then b!"0.0" else val) with
    | none => (.err (.num .syntax), v)
    | some id => (.ok, .opaque id)
  | .duration =>
    match o.duration val with
    | none => (.err .duration, v)
    | some i => (.ok, .int i)
  | .string => (.ok, .string val)
  | .time => setTimeField o fd val v
  | .struct _ | .file | .map _ _ =>
    match o.json t val v with
    | (some e, v) => (.err (.json e), v)
    | (none, v) => (.ok, v)
  | _ => (.err .unknownType, v)

/-- `setArray` (binding/mapping.go:282-290): text by text into the elements; it stops at the first error. -/
def setArray (o : BOracle) (fd : Field) (el : Ty) : List Str → List Val → BOut × List Val
  | s :: ss, v :: vs =>
    match setProper o fd el s v with
    | (.ok, x) =>
      match setArray o fd el ss vs with
      | (out, xs) => (out, x :: xs)
    | (out, x) => (out, x :: vs)
  | _, vs => (.ok, vs)

/-- the elements of an array of length `n`; those not given are zero -/
def elemVals (n : Nat) (v : Val) : List Val :=
  match v with
  | .slice vs => (List.range n).map (fun i => (vs[i]?).getD .zero)
  | _ => List.replicate n .zero

/-- The switch of `setByForm` (binding/mapping.go:124-148) and `setSlice` (272-280), for the values `vs`. -/
def setValues (o : BOracle) (fd : Field) (t : Ty) (vs : List Str) (v : Val) : BOut × Val :=
  match t with
  | .slice el =>
    match setArray o fd el vs (List.replicate vs.length .zero) with
    | (.ok, xs) => (.ok, .slice xs)
    | (out, _) => (out, v)
  | .array n el =>
    if vs.length ≠ n then (.err .target, v)
    else
      match setArray o fd el vs (elemVals n v) with
      | (out, xs) => (out, .slice xs)
  | _ => setProper o fd t (vs.headD []) v

/-- `setWithProperType` (binding/mapping.go:292-338) on a value that reflection does not let be set or read: numbers and booleans that do
not parse, and types that cannot be bound, are reported before that matters; everything else panics. `int` and `int64` are one type
here; this follows `int`, while `int64` panics in any case. -/
def hiddenProper (o : BOracle) (fd : Field) (t : Ty) (val : Str) : BOut :=
  match t with
  | .duration | .time | .struct _ | .file | .map _ _ => .panic
  | _ =>
    match setProper o fd t val .zero with
    | (.ok, _) => .panic
    | (out, _) => out

/-- The switch of `setByForm` (binding/mapping.go:124-148) for an unexported embedded field. A slice is made first and then
assigned; an array is filled in place. -/
def hiddenValues (o : BOracle) (fd : Field) (t : Ty) (vs : List Str) (v : Val) : BOut :=
  match t with
  | .slice el =>
    match setValues o fd (.slice el) vs v with
    | (.ok, _) => .panic
    | (out, _) => out
  | .array n el =>
    if vs.length ≠ n then .err .target
    else
      match vs with
      | [] => .ok
      | s :: _ => hiddenProper o fd el s
  | _ => hiddenProper o fd t (vs.headD [])

/-- `setByForm` (binding/mapping.go:118-149). The flag tells whether something was set. -/
def setByForm (o : BOracle) (fd : Field) (form : Form) (key dflt : Str) (t : Ty) (v : Val) : BOut × Bool × Val :=
  match (match form.at key with
    | some vs => some vs
    | none => if dflt = [] then none else some [dflt]) with
  | none => (.ok, false, v)
  | some vs => if !fd.exported then (hiddenValues o fd t vs v, true, v) else ((setValues o fd t vs v).1, true, (setValues o fd t vs v).2)

/-- The loop of `setArrayOfMultipartFormFiles` (binding/mapping.go:183-188). -/
def setEachFile (set : Nat → Val → BOut × Val) : List Nat → List Val → BOut × List Val
  | f :: fs, v :: vs =>
    match set f v with
    | (.ok, x) =>
      match setEachFile set fs vs with
      | (out, xs) => (out, x :: xs)
    | (out, x) => (out, x :: vs)
  | _, vs => (.ok, vs)

/-- `setByMultipartFormFile` (binding/mapping.go:151-177) and `setArrayOfMultipartFormFiles` (179-190), for at least one
file. -/
def setByFile (key : Str) : Ty → List Nat → Val → BOut × Val
  | .ptr .file, f :: _, _ => (.ok, .ptr (.file f))
  | .file, f :: _, _ => (.ok, .file f)
  | .slice el, fs, v =>
    match setEachFile (fun f x => setByFile key el [f] x) fs (List.replicate fs.length .zero) with
    | (.ok, xs) => (.ok, .slice xs)
    | (out, _) => (out, v)
  | .array n el, fs, v =>
    if n ≠ fs.length then (.err (.file key), v)
    else
      match setEachFile (fun f x => setByFile key el [f] x) fs (elemVals n v) with
      | (out, xs) => (out, .slice xs)
  | _, _, v => (.err (.file key), v)

/-- `setByMultipartFormFile` (binding/mapping.go:151-177) for an unexported embedded field, with at least one file. -/
def hiddenFile (key : Str) : Ty → List Nat → Val → BOut
  | .ptr _, _, _ => .panic
  | .slice el, fs, v =>
    match setByFile key (.slice el) fs v with
    | (.ok, _) => .panic
    | (out, _) => out
  | .array n el, fs, v => if n ≠ fs.length then .err (.file key) else hiddenFile key el (fs.take 1) v
  | .struct _, _, _ | .time, _, _ | .file, _, _ => .panic
  | _, _, _ => .err (.file key)

/-- `TrySet` of the three setters (form.go:90-92, 99-105; header.go:35-37). -/
def trySource (o : BOracle) (src : Source) (fd : Field) (key dflt : Str) (t : Ty) (v : Val) : BOut × Bool × Val :=
  match src.files.at key with
  | some (f :: fs) =>
    if !fd.exported then (hiddenFile key t (f :: fs) v, true, v) else ((setByFile key t (f :: fs) v).1, true, (setByFile key t (f :: fs) v).2)
  | _ => setByForm o fd src.form (if src.header then canonKey key else key) dflt t v

/-- The name a field has in the form (binding/mapping.go:42-47): the tag up to a comma, or the name of the field. -/
def oldKey (fd : Field) (tag : Str) : Str :=
  let n := (head (fd.tag tag) 44).1
  if n = [] then fd.name else n

/-- The default of a field (binding/mapping.go:52-59). -/
def oldDefault (fd : Field) (tag : Str) : Str :=
  let tail := (head (fd.tag tag) 44).2
  defaultLoop (tail.length + 1) tail []

/-- `tryToSetValue` (binding/mapping.go:38-62). -/
def tryToSetValue (o : BOracle) (src : Source) (tag : Str) (fd : Field) (t : Ty) (v : Val) : BOut × Bool × Val :=
  if oldKey fd tag = [] then (.ok, false, v) else trySource o src fd (oldKey fd tag) (oldDefault fd tag) t v

/-- The loop of `mapping` over the fields of a struct (binding/mapping.go:101-113). -/
def mapLoop (step : Field → Val → BOut × Bool × Val) : List Field → List Val → BOut × Bool × List Val
  | fd :: fds, v :: vs =>
    if !fd.exported && !fd.anonymous then
      match mapLoop step fds vs with
      | (out, set, xs) => (out, set, v :: xs)
    else
      match step fd v with
      | (.ok, ok, x) =>
        match mapLoop step fds vs with
        | (out, set, xs) => (out, ok || set, x :: xs)
      | (out, ok, x) => (out, ok, x :: vs)
  | _, vs => (.ok, false, vs)

/-- A field as far as what is behind a new pointer is concerned (`reflect.New`, binding/mapping.go:76): that can be set even if the
field is unexported. -/
def shown (fd : Field) : Field := { fd with exported := true }

/-- What is done with a pointer (binding/mapping.go:71-86): a nil one is replaced only if something was set behind it. A nil
pointer in an unexported field cannot be replaced. -/
def mapPointer (fd : Field) (v : Val) (walk : Field → Val → BOut × Bool × Val) : BOut × Bool × Val :=
  match v with
  | .ptr x =>
    match walk fd x with
    | (out, set, x) => (out, set, .ptr x)
  | _ =>
    match walk (shown fd) .zero with
    | (.ok, true, x) => if !fd.exported then (.panic, true, v) else (.ok, true, .ptr x)
    | (.ok, false, _) => (.ok, false, v)
    | (out, set, _) => (out, set, v)

/-- The fields of a struct type; those of `time.Time` are unexported, those of `multipart.FileHeader` are not modelled. -/
def mapStruct (E : TyEnv) (step : Field → Val → BOut × Bool × Val) (t : Ty) (v : Val) : BOut × Bool × Val :=
  match t with
  | .struct n =>
    match mapLoop step (E n) (fieldVals (E n).length v) with
    | (out, set, xs) => (out, set, .struct xs)
  | _ => (.ok, false, v)

/-- `mapping` (binding/mapping.go:64-116) on the value `v` of type `t`. `fuel` bounds the depth. -/
def mapping (o : BOracle) (E : TyEnv) (src : Source) (tag : Str) : Nat → Ty → Field → Val → BOut × Bool × Val
  | 0, _, _, v => (.fuel, false, v)
  | f + 1, t, fd, v =>
    if fd.tag tag = b!"-" then (.ok, false, v)
    else
      match t with
      | .ptr t => mapPointer fd v (fun fd x => mapping o E src tag f t fd x)
      | _ =>
        match (if t.isStruct && fd.anonymous then (.ok, false, v) else tryToSetValue o src tag fd t v) with
        | (.ok, false, x) => mapStruct E (fun fd x => mapping o E src tag f fd.ty fd x) t x
        | r => r

/-- `mapping(reflect.ValueOf(obj), emptyField, ..)` for a pointer to a struct of type `n` (form.go:64; header.go:18;
mapping.go:209), and what the validator says (`check`); these are `Bind2` of forms, multipart forms, headers, queries and
route parameters. -/
def bind2 (o : BOracle) (E : TyEnv) (fuel : Nat) (check : Val → Option Nat) (src : Source) (tag : Str) (n : Nat) (v : Val) : BOut × Val :=
  match mapping o E src tag fuel (.ptr (.struct n)) emptyField (.ptr v) with
  | (out, _, x) =>
    match out with
    | .ok => (match check (pointee x) with | some e => .err (.invalid e) | none => .ok, pointee x)
    | _ => (out, pointee x)

/-- `mapFormByTag` on a map with string keys, or a pointer to one (binding/mapping.go:192-207), and `setFormMap` (214-238). The
map has to be made before: assigning to a nil map panics. As with `MapForm`, what a panic in the loop leaves is not modelled.
Other targets are not maps; they are `bind2`. -/
def setFormMap (obj : Target) (form : Form) : BOut × Target :=
  match obj with
  | .slices none | .strings none => if form = [] then (.ok, obj) else (.panic, obj)
  | .slices (some m) => (.ok, .slices (some (mapSlices m form)))
  | .strings (some m) =>
    match mapStrings m form with
    | some m => (.ok, .strings (some m))
    | none => (.panic, obj)
  | _ => (.err .target, obj)

end Water
