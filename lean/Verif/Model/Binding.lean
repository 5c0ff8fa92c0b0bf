import Verif.Model.Values
import Verif.Model.Util
/-
The package /repo/binding: choosing a decoder, mapping a form to a struct by reflection, and validation.

Go types and values are represented as follows. A type is a tree whose struct types are names; an environment gives the
fields of each, so that types may refer to themselves through pointers. A value is a tree; `zero` is the zero value of any
type (nil, 0, the struct of zero values). Distinct pointers in the target point to distinct variables: aliasing is not
modelled. Integers have 64 bits where Go says `int`.
-/
namespace Water

/-- A Go type, as far as the package looks at it. `int 8` is the kind `Int8` and so on; `duration` is
`time.Duration`, of kind `Int64`; `file` is `multipart.FileHeader`; `array`, `other` stand for kinds that can not be bound. -/
inductive Ty where
  | int (bits : Nat)
  | uint (bits : Nat)
  | bool
  | float (bits : Nat)
  | string
  | duration
  | time
  | file
  | struct (n : Nat)
  | ptr (t : Ty)
  | slice (t : Ty)
  | array (len : Nat) (t : Ty)
  | map (k v : Ty)
  | other (id : Nat)
  deriving DecidableEq, Repr

/-- A time: the zero time, `time.Unix(sec, nsec)`, or what `time.ParseInLocation` returned. -/
inductive TimeV where
  | zero
  | unix (sec nsec : Int)
  | parsed (id : Nat)
  deriving DecidableEq, Repr

/-- A Go value. `opaque` are values whose contents do not matter here (maps, floats, functions, ..). -/
inductive Val where
  | zero
  | int (i : Int)
  | uint (n : Nat)
  | bool (b : Bool)
  | string (s : Str)
  | time (t : TimeV)
  | file (id : Nat)
  | opaque (id : Nat)
  | ptr (v : Val)
  | struct (fs : List Val)
  | slice (vs : List Val)
  deriving Repr

/-- `reflect.StructField`: name, whether it is exported (`PkgPath == ""`), embedded (`Anonymous`), the tags
(`Tag.Get`) and the type. -/
structure Field where
  name : Str
  exported : Bool
  anonymous : Bool
  tag : Str → Str
  ty : Ty

/-- The struct types of the program. -/
abbrev TyEnv := Nat → List Field

/-- An error of the package. Texts are not modelled. -/
inductive BErr where
  | value (name value : Str)
  | unknownType
  | json (id : Nat)
  | duration
  | num (e : NumErr)
  | location
  | timeFormat
  | file (name : Str)
  | target
  | invalid (id : Nat)
  deriving DecidableEq, Repr

/-- How a binding ended. `fuel`: the bound on the depth of recursion was too small. -/
inductive BOut where
  | ok
  | err (e : BErr)
  | panic
  | fuel
  deriving DecidableEq, Repr

/-- What is taken from outside: `strconv.ParseFloat`, `time.ParseDuration` (in nanoseconds), `json.Unmarshal` (which may change
the target even when it fails), `time.LoadLocation` and `time.ParseInLocation` (layout, text, location: local, UTC or named). -/
structure BOracle where
  float : Nat → Str → Option Nat
  duration : Str → Option Int
  json : Ty → Str → Val → Option Nat × Val
  location : Str → Bool
  parseTime : Str → Str → Option Bool × Str → Option Nat

/-! ### tags -/

/-- `head(str, sep)` for a one-byte separator (binding/mapping.go:30-36). -/
def head (s : Str) (sep : UInt8) : Str × Str :=
  match indexByte s sep with
  | none => (s, [])
  | some i => (s.take i, s.drop (i + 1))

/-- `setOptions` (binding/mapping.go:18-23). -/
structure SetOptions where
  defaultValue : Str
  timeFormat : Str
  timeUtc : Str
  timeLocation : Str
  deriving DecidableEq, Repr

/-- The loop over the options of a tag (binding/map_form.go:241-248; binding/mapping.go:52-59); `fuel` bounds the number
of options. -/
def defaultLoop : Nat → Str → Str → Str
  | 0, _, d => d
  | _ + 1, [], d => d
  | f + 1, tail, d =>
    let (opt, tail) := head tail 44
    let (k, v) := head opt 61
    defaultLoop f tail (if k = b!"default" then v else d)

/-- `parseFormName` (binding/map_form.go:226-251). -/
def parseFormName (fd : Field) (tag : Str) : Str × SetOptions :=
  let (name, tail) := head (fd.tag tag) 44
  let name := if name = [] then b!"-" else name
  let name := if tag = b!"header" ∧ name ≠ b!"-" then canonKey name else name
  (name, {
    defaultValue := defaultLoop (tail.length + 1) tail []
    timeFormat := fd.tag b!"time_format"
    timeUtc := fd.tag b!"time_utc"
    timeLocation := fd.tag b!"time_location" })

/-! ### setting a value -/

/-- `reflect.Value.SetInt` on a field of `bits` bits: the value is truncated. -/
def wrapInt (bits : Nat) (i : Int) : Int := (i + 2 ^ (bits - 1)) % 2 ^ bits - 2 ^ (bits - 1)

/-- `reflect.Value.SetUint`: the value is truncated. -/
def wrapUint (bits : Nat) (n : Nat) : Nat := n % 2 ^ bits

/-- `time.RFC3339` -/
def rfc3339 : Str := b!"2006-01-02T15:04:05Z07:00"

/-- `setTimeField2` (binding/mapping.go:444-493). -/
def setTimeField2 (o : BOracle) (val : Str) (opt : SetOptions) (v : Val) : BOut × Val :=
  let timeFormat := if opt.timeFormat = [] then rfc3339 else opt.timeFormat
  let tf := toLower timeFormat
  if tf = b!"unix" ∨ tf = b!"unixnano" then
    match parseInt 64 val with
    | (_, some e) => (.err (.num e), v)
    | (tv, none) =>
      let d : Int := if tf = b!"unixnano" then 1000000000 else 1
      (.ok, .time (.unix (tv.tdiv d) (tv.tmod d)))
  else if val = [] then (.ok, .time .zero)
  else
    let utc := (parseBool opt.timeUtc).1
    if opt.timeLocation ≠ [] ∧ !o.location opt.timeLocation then (.err .location, v)
    else
      let l : Option Bool × Str := if opt.timeLocation ≠ [] then (none, opt.timeLocation) else (some utc, [])
      match o.parseTime timeFormat val l with
      | none => (.err .timeFormat, v)
      | some id => (.ok, .time (.parsed id))

/-- The switch of `setWithProperType2` (binding/map_form.go:158-223) on a value that is not a pointer. -/
def setKind (o : BOracle) (opt : SetOptions) (t : Ty) (val : Str) (v : Val) (name : Str) : BOut × Val :=
  match t with
  | .int bits =>
    let val := if val = [] then b!"0" else val
    match parseInt 64 val with
    | (_, some _) => (.err (.value name val), v)
    | (i, none) => (.ok, .int (wrapInt bits i))
  | .uint bits =>
    let val := if val = [] then b!"0" else val
    match parseUint 64 val with
    | (_, some _) => (.err (.value name val), v)
    | (n, none) => (.ok, .uint (wrapUint bits n))
  | .bool =>
    let val := if val = [] then b!"false" else val
    match parseBool val with
    | (_, some _) => (.err (.value name val), v)
    | (b, none) => (.ok, if b then .bool true else v)
  | .float bits =>
    let val := if val = [] then b!"0.0" else val
    match o.float bits val with
    | none => (.err (.value name val), v)
    | some id => (.ok, .opaque id)
  | .duration =>
    let val := if val = [] then b!"0" else val
    match parseInt 64 val with
    | (_, some _) => (.err (.value name val), v)
    | (i, none) => (.ok, .int (wrapInt 64 i))
  | .string => (.ok, .string val)
  | .time => setTimeField2 o val opt v
  | .struct _ | .file | .map _ _ =>
    match o.json t val v with
    | (some e, v) => (.err (.json e), v)
    | (none, v) => (.ok, v)
  | _ => (.err .unknownType, v)

/-- What a pointer points to, after a nil one has been allocated (binding/map_form.go:149-156). -/
def pointee : Val → Val
  | .ptr v => v
  | _ => .zero

/-- `setWithProperType2` (binding/map_form.go:148-224): a pointer is allocated if nil, and what it points to is set. -/
def setWithProperType2 (o : BOracle) (opt : SetOptions) (t : Ty) (val : Str) (v : Val) (name : Str) : BOut × Val :=
  match t with
  | .ptr t => ((setKind o opt t val (pointee v) name).1, .ptr (setKind o opt t val (pointee v) name).2)
  | _ => setKind o opt t val v name

/-- The loop over the values of a slice field (binding/map_form.go:103-110). -/
def setElems (o : BOracle) (opt : SetOptions) (t : Ty) (name : Str) : List Str → BOut × List Val
  | [] => (.ok, [])
  | s :: ss =>
    match setWithProperType2 o opt t s .zero name with
    | (.ok, v) =>
      match setElems o opt t name ss with
      | (out, vs) => (out, v :: vs)
    | (out, v) => (out, [v])

/-- Uploaded files by name; a file is a number. -/
abbrev FormFiles := List (Str × List Nat)

/-- `formfile[name]` -/
def FormFiles.at (f : FormFiles) (k : Str) : Option (List Nat) := (f.find? (fun e => e.1 == k)).map Prod.snd

/-- `multipartFileType` (binding/map_form.go:80) -/
def fileTy : Ty := .ptr .file

/-- The values for a name: those of the form, or else the default (binding/map_form.go:93-97). -/
def formValues (form : Form) (name : Str) (opt : SetOptions) : Option (List Str) :=
  match form.at name with
  | some vs => some vs
  | none => if opt.defaultValue ≠ [] then some [opt.defaultValue] else none

/-- The part of `tryToSetValue2` for values of the form (binding/map_form.go:98-116). -/
def setFromValues (o : BOracle) (opt : SetOptions) (name : Str) (t : Ty) (vs : List Str) (v : Val) : BOut × Val :=
  match t, vs with
  | .slice el, _ :: _ =>
    match setElems o opt el name vs with
    | (.ok, xs) => (.ok, .slice xs)
    | (out, _) => (out, v)
  | _, [] => (.panic, v)
  | _, s :: _ => setWithProperType2 o opt t s v name

/-- The part of `tryToSetValue2` for uploaded files (binding/map_form.go:118-141). -/
def setFromFiles (name : Str) (t : Ty) (fs : List Nat) (v : Val) : BOut × Val :=
  match t, fs with
  | .slice (.ptr .file), _ :: _ => (.ok, .slice (fs.map (fun f => .ptr (.file f))))
  | .ptr .file, f :: _ => (.ok, .ptr (.file f))
  | .ptr .file, [] => (.panic, v)
  | _, _ => (.err (.file name), v)

/-- `tryToSetValue2` (binding/map_form.go:85-142) on the value `v` of type `t`. An unexported (embedded) field cannot be
set: reflection panics. -/
def tryToSetValue2 (o : BOracle) (form : Form) (files : FormFiles) (tag : Str) (fd : Field) (t : Ty) (v : Val) : BOut × Val :=
  let (bName, bOpt) := parseFormName fd tag
  if bName = b!"-" then (.ok, v)
  else
    match formValues form bName bOpt with
    | some vs => if !fd.exported then (.panic, v) else setFromValues o bOpt bName t vs v
    | none =>
      match files.at bName with
      | none => (.ok, v)
      | some fs => if !fd.exported then (.err (.file bName), v) else setFromFiles bName t fs v

/-! ### walking over a struct -/

/-- the values of the fields of a struct value -/
def fieldVals (n : Nat) : Val → List Val
  | .struct vs => vs
  | _ => List.replicate n .zero

/-- `typeField.Type.Elem().Kind() == reflect.Struct` -/
def Ty.isStruct : Ty → Bool
  | .struct _ | .time | .file => true
  | _ => false

/-- Whether `_mapForm` allocates the field (binding/map_form.go:57-63): a nil pointer, embedded or to a struct, other than
a file. -/
def allocates (fd : Field) (v : Val) : Option Ty :=
  match fd.ty, v with
  | .ptr .file, _ => none
  | .ptr _, .ptr _ => none
  | .ptr t, _ => if fd.anonymous || t.isStruct then some t else none
  | _, _ => none

/-- Whether `_mapForm` descends into the field (binding/map_form.go:65): `t` is its type after allocation. -/
def descends (fd : Field) (t : Ty) : Bool := (t.isStruct && t != .time) || fd.anonymous

/-- One round of the loop of `_mapForm` (binding/map_form.go:50-73). `walk` is `_mapForm` itself. -/
def mapField (o : BOracle) (form : Form) (files : FormFiles) (tag : Str) (walk : Ty → Val → BOut × Val) (fd : Field) (v : Val) :
    BOut × Val :=
  if !fd.exported && !fd.anonymous then (.ok, v)
  else
    match allocates fd v with
    | some t =>
      if !fd.exported then (.panic, v)
      else
        match (if descends fd t then walk t .zero else (.ok, .zero)) with
        | (.ok, x) =>
          match tryToSetValue2 o form files tag fd t x with
          | (out, x) => (out, .ptr x)
        | (out, x) => (out, .ptr x)
    | none =>
      match (if descends fd fd.ty then walk fd.ty v else (.ok, v)) with
      | (.ok, x) => tryToSetValue2 o form files tag fd fd.ty x
      | (out, x) => (out, x)

/-- The loop of `_mapForm` (binding/map_form.go:49-74). -/
def mapFields (step : Field → Val → BOut × Val) : List Field → List Val → BOut × List Val
  | fd :: fds, v :: vs =>
    match step fd v with
    | (.ok, x) =>
      match mapFields step fds vs with
      | (out, xs) => (out, x :: xs)
    | (out, x) => (out, x :: vs)
  | _, vs => (.ok, vs)

/-- `_mapForm` (binding/map_form.go:42-77): a pointer is followed; then the value must be a struct. The fields of
`time.Time` are unexported, those of `multipart.FileHeader` have no tags. `fuel` bounds the depth. -/
def mapForm (o : BOracle) (E : TyEnv) (form : Form) (files : FormFiles) (tag : Str) : Nat → Ty → Val → BOut × Val
  | 0, _, v => (.fuel, v)
  | f + 1, t, v =>
    let step := mapField o form files tag (mapForm o E form files tag f)
    match t, v with
    | .struct n, _ =>
      match mapFields step (E n) (fieldVals (E n).length v) with
      | (out, vs) => (out, .struct vs)
    | .ptr (.struct n), .ptr v =>
      match mapFields step (E n) (fieldVals (E n).length v) with
      | (out, vs) => (out, .ptr (.struct vs))
    | .time, _ | .file, _ => (.ok, v)
    | .ptr .time, .ptr _ | .ptr .file, .ptr _ => (.ok, v)
    | _, _ => (.panic, v)

/-! ### targets -/

/-- The loops of `setFormMap2` over the form, into `map[string][]string` (binding/mapping.go:250-252). -/
def mapSlices (m : Map Str (List Str)) (form : Form) : Map Str (List Str) :=
  form.foldl (fun m e => Map.set m e.1 e.2) m

/-- The loop into `map[string]string` (binding/mapping.go:265-267): the last value; an empty list panics. -/
def mapStrings : Map Str Str → Form → Option (Map Str Str)
  | m, [] => some m
  | m, (k, vs) :: rest =>
    match vs.getLast? with
    | none => none
    | some v => mapStrings (Map.set m k v) rest

/-- What `obj` is: nil, not a pointer, a nil pointer, a pointer to one of the two map types, to another map type with string
keys, to a struct, or to something else. A nil map is `none`. -/
inductive Target where
  | nil
  | value
  | nilPtr
  | slices (m : Option (Map Str (List Str)))
  | strings (m : Option (Map Str Str))
  | otherMap
  | struct (n : Nat) (v : Val)
  | other

/-- `MapForm` (binding/map_form.go:15-40) and `setFormMap2` (binding/mapping.go:240-270). When
a name without values makes the loop over a map panic, the entries written before are not modelled: the target is given as it
was. -/
def MapForm (o : BOracle) (E : TyEnv) (fuel : Nat) (obj : Target) (form : Form) (files : FormFiles) (tag : Str) : BOut × Target :=
  match obj with
  | .nil | .value | .otherMap | .other => (.err .target, obj)
  | .nilPtr => (.panic, obj)
  | .slices m => (.ok, .slices (some (mapSlices (m.getD Map.empty) form)))
  | .strings m =>
    match mapStrings (m.getD Map.empty) form with
    | some m => (.ok, .strings (some m))
    | none => (.panic, obj)
  | .struct n v =>
    match mapForm o E form files tag fuel (.struct n) v with
    | (out, v) => (out, .struct n v)

/-! ### choosing a decoder -/

/-- The decoders that `NewBindinger` chooses from (binding/binding.go:21-30). -/
inductive Decoder where
  | json
  | xml
  | form
  | multipart
  deriving DecidableEq, Repr

/-- `NewBindinger` (binding/binding.go:34-54). -/
def newBindinger (method contentType : Str) : Decoder :=
  if method = mGET then .form
  else if (method = mPOST ∨ method = mPUT ∨ method = mPATCH) ∧ contentType = b!"multipart/form-data" then .multipart
  else if contentType = b!"application/json" then .json
  else if contentType = b!"application/xml" ∨ contentType = b!"text/xml" then .xml
  else if contentType = b!"application/x-www-form-urlencoded" then .form
  else .form

/-- `ctx.Bind` and `ctx.BindWith` (content.go:289-306) up to the call of the decoder: the form is parsed unless the body is
JSON or XML; parsing may panic. -/
def bindPlan {ω : Type} (o : Oracle) (req : Req) (s : St ω) : Except PVal Decoder × St ω :=
  let b := newBindinger req.method (contentTypeOf req.header)
  if b ≠ .json ∧ b ≠ .xml then
    match doCall o req s .parseForm with
    | (.error v, s) => (.error v, s)
    | (.ok _, s) =>
      match doCall o req s .parseForm with
      | (.error v, s) => (.error v, s)
      | (.ok _, s) => (.ok b, s)
  else (.ok b, s)

/-! ### validation -/

/-- A value given to the validator: a nil interface, a pointer (nil or not), a struct, a slice or array, or anything
else. -/
inductive VObj where
  | nil
  | nilPtr
  | ptr (v : VObj)
  | struct (id : Nat)
  | list (vs : List VObj)
  | other
  deriving Repr

/-- An error of the validator: `nil obj`, the errors of a struct, or those of the elements of a slice
(`sliceValidateError`). -/
inductive VErr where
  | nilObj
  | struct (id : Nat)
  | slice (es : List VErr)
  deriving Repr

mutual
/-- `ValidateStruct` (binding/validator.go:62-91); `check` is the validator's verdict on a struct; the outer `none` is a
panic (a nil pointer). -/
def validateObj (check : Nat → Option Nat) : VObj → Option (Option VErr)
  | .nil => some (some .nilObj)
  | .nilPtr => none
  | .ptr v => validateObj check v
  | .struct id => some ((check id).map .struct)
  | .list vs =>
    match validateElems check vs with
    | none => none
    | some [] => some none
    | some es => some (some (.slice es))
  | .other => some none
/-- The loop over the elements (binding/validator.go:78-82). -/
def validateElems (check : Nat → Option Nat) : List VObj → Option (List VErr)
  | [] => some []
  | v :: vs =>
    match validateObj check v with
    | none => none
    | some e =>
      match validateElems check vs with
      | none => none
      | some es => some (e.toList ++ es)
end

mutual
/-- `Error` of the validator's errors; `text` gives the text of a struct's errors (binding/validator.go:13-22). -/
def VErr.text (text : Nat → Str) : VErr → Str
  | .nilObj => b!"nil obj"
  | .struct id => text id
  | .slice es => join b!"\n" (VErr.texts text 0 es)
/-- The lines of a `sliceValidateError`, from position `i` on. -/
def VErr.texts (text : Nat → Str) : Nat → List VErr → List Str
  | _, [] => []
  | i, e :: es => (b!"[" ++ itoaNat i ++ b!"]: " ++ VErr.text text e) :: VErr.texts text (i + 1) es
end

/-- `formBinding.Bind` and the others of that shape (binding/form.go:37-49, 71-83; query.go:20-25; uri.go:16-21;
header.go:23-29): map, then validate (`check` is the validator's verdict on the result). -/
def bindForm (o : BOracle) (E : TyEnv) (fuel : Nat) (check : Target → Option Nat) (obj : Target) (form : Form) (files : FormFiles)
    (tag : Str) : BOut × Target :=
  match MapForm o E fuel obj form files tag with
  | (.ok, obj) =>
    match check obj with
    | some e => (.err (.invalid e), obj)
    | none => (.ok, obj)
  | (out, obj) => (out, obj)

end Water
