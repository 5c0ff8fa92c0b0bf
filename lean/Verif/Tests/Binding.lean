import Verif.Props.Mapping
import Verif.Props.FormBind
import Verif.Tests.Router
/-
The tests of /repo/binding, repeated on the model. These are tests of the model, not proofs. What is taken from outside (`json`, times,
floats, media types, the parts of a multipart body) answers for the texts of the tests as the libraries do.
-/
namespace Water.Tests
open Water Spec Demo

/-! ### form_mapping_test.go: `mapping`, reached through `Bind2` -/

/-- the libraries on the texts of the tests; the numbers stand for results -/
def lib : BOracle where
  float := fun _ s => if s = b!"9.1" then some 91 else if s = b!"0.0" then some 0 else none
  duration := fun s => if s = b!"5s" then some 5000000000 else none
  json := fun t s v =>
    if t = .struct 1 ∧ s = b!"{\"I\": 9}" then (none, .struct [.int 9])
    else if t = .map .string (.int 64) ∧ s = b!"{\"one\": 1}" then (none, .opaque 1)
    else if t = .map .string (.other 0) ∧ s = b!"{\"bar\":123}" then (none, .opaque 123)
    else if t = .map .string (.other 0) ∧ s = b!"thinkerou" then (some 0, .opaque 0)
    else (some 0, v)
  location := fun s => s = b!"Asia/Shanghai" || s = b!"Asia/Chongqing"
  parseTime := fun l s w =>
    if l = rfc3339 ∧ s = b!"2019-01-20T16:02:58Z" then some 1
    else if l = b!"2006-01-02" ∧ (s = b!"2019-01-20" ∨ s = b!"2017-11-15") then
      some (match w with | (some false, _) => 2 | (none, _) => 3 | (some true, _) => 4)
    else none

/-- a field with tags -/
def fd (name : Str) (tags : List (Str × Str)) (ty : Ty) : Field :=
  { name := name, exported := true, anonymous := false, tag := fun k => ((tags.find? (·.1 == k)).map Prod.snd).getD [], ty := ty }

/-- `mapping` on a struct with the fields `fs`; `more` are the fields of a struct within -/
def oldMap (fs : List Field) (form : Form) (v : Val := .zero) (tag : Str := b!"form") (more : List Field := []) : BOut × Val :=
  bind2 lib (fun n => if n = 0 then fs else more) 9 (fun _ => none) ⟨form, [], false⟩ tag 0 v

/-- the binding went well and left these fields -/
def gives (r : BOut × Val) (vs : List Val) : Bool := r.1 == .ok && same r.2 (.struct vs)

/-- the binding failed with an error -/
def fails (r : BOut × Val) : Bool := match r.1 with | .err _ => true | _ => false

/-- `TestMappingBaseTypes` (form_mapping_test.go:28-74) -/
def baseCases : List (Ty × Str × Val) := [
  (.int 64, b!"9", .int 9), (.int 8, b!"9", .int 9), (.int 16, b!"9", .int 9), (.int 32, b!"9", .int 9), (.int 64, b!"9", .int 9),
  (.uint 64, b!"9", .uint 9), (.uint 8, b!"9", .uint 9), (.uint 16, b!"9", .uint 9), (.uint 32, b!"9", .uint 9), (.uint 64, b!"9", .uint 9),
  (.bool, b!"True", .bool true), (.float 32, b!"9.1", .opaque 91), (.float 64, b!"9.1", .opaque 91), (.string, b!"test", .string b!"test"),
  (.ptr (.int 64), b!"9", .ptr (.int 9)),
  (.int 64, b!"", .int 0), (.uint 64, b!"", .uint 0), (.bool, b!"", .bool false), (.float 32, b!"", .opaque 0)]

example : baseCases.all (fun c => gives (oldMap [fd b!"F" [] c.1] [(b!"F", [c.2.1])]) [c.2.2]) = true := by decide +kernel

/-- `TestMappingDefault` (76-88) -/
example : gives (oldMap [fd b!"Int" [(b!"form", b!",default=9")] (.int 64), fd b!"Slice" [(b!"form", b!",default=9")] (.slice (.int 64)),
      fd b!"Array" [(b!"form", b!",default=9")] (.array 1 (.int 64))] []) [.int 9, .slice [.int 9], .slice [.int 9]] = true := by decide +kernel

/-- `TestMappingSkipField` (90-98) -/
example : gives (oldMap [fd b!"A" [] (.int 64)] []) [.zero] = true := by decide +kernel

/-- `TestMappingIgnoreField` (100-110) -/
example : gives (oldMap [fd b!"A" [(b!"form", b!"A")] (.int 64), fd b!"B" [(b!"form", b!"-")] (.int 64)]
    [(b!"A", [b!"9"]), (b!"B", [b!"9"])]) [.int 9, .zero] = true := by decide +kernel

/-- `TestMappingUnexportedField` (112-122), `TestMappingPrivateField` (124-131) -/
example : gives (oldMap [fd b!"A" [(b!"form", b!"a")] (.int 64), { fd b!"b" [(b!"form", b!"b")] (.int 64) with exported := false }]
      [(b!"a", [b!"9"]), (b!"b", [b!"9"])]) [.int 9, .zero] = true ∧
    gives (oldMap [{ fd b!"f" [(b!"form", b!"field")] (.int 64) with exported := false }] [(b!"field", [b!"6"])]) [.zero] = true := by decide +kernel

/-- `TestMappingUnknownFieldType` (133-141): `uintptr` -/
example : (oldMap [fd b!"U" [] (.other 0)] [(b!"U", [b!"unknown"])]).1 = .err .unknownType := by decide +kernel

/-- `TestMappingURI` (143-150), `TestMappingForm` (152-159) -/
example : gives (oldMap [fd b!"F" [(b!"uri", b!"field")] (.int 64)] [(b!"field", [b!"6"])] .zero b!"uri") [.int 6] = true ∧
    gives (oldMap [fd b!"F" [(b!"form", b!"field")] (.int 64)] [(b!"field", [b!"6"])]) [.int 6] = true := by decide +kernel

/-- `TestMappingTime` (161-204): 1 is a time with its zone, 2 one in the local zone, 3 one in a named zone, 4 one in UTC -/
example : gives (oldMap [fd b!"Time" [] .time, fd b!"LocalTime" [(b!"time_format", b!"2006-01-02")] .time, fd b!"ZeroValue" [] .time,
      fd b!"CSTTime" [(b!"time_format", b!"2006-01-02"), (b!"time_location", b!"Asia/Shanghai")] .time,
      fd b!"UTCTime" [(b!"time_format", b!"2006-01-02"), (b!"time_utc", b!"1")] .time]
      [(b!"Time", [b!"2019-01-20T16:02:58Z"]), (b!"LocalTime", [b!"2019-01-20"]), (b!"ZeroValue", []), (b!"CSTTime", [b!"2019-01-20"]),
       (b!"UTCTime", [b!"2019-01-20"])])
      [.time (.parsed 1), .time (.parsed 2), .time .zero, .time (.parsed 3), .time (.parsed 4)] = true ∧
    fails (oldMap [fd b!"Time" [(b!"time_location", b!"wrong")] .time] [(b!"Time", [b!"2019-01-20T16:02:58Z"])]) = true ∧
    fails (oldMap [fd b!"Time" [] .time] [(b!"Time", [b!"wrong"])]) = true := by decide +kernel

/-- `TestMappingTimeDuration` (206-219) -/
example : gives (oldMap [fd b!"D" [] .duration] [(b!"D", [b!"5s"])]) [.int 5000000000] = true ∧
    fails (oldMap [fd b!"D" [] .duration] [(b!"D", [b!"wrong"])]) = true := by decide +kernel

/-- the struct of `TestMappingSlice` (221-239) -/
def sliceFs : List Field := [fd b!"Slice" [(b!"form", b!"slice,default=9")] (.slice (.int 64))]
example : gives (oldMap sliceFs []) [.slice [.int 9]] = true ∧
    gives (oldMap sliceFs [(b!"slice", [b!"3", b!"4"])] (.struct [.slice [.int 9]])) [.slice [.int 3, .int 4]] = true ∧
    fails (oldMap sliceFs [(b!"slice", [b!"wrong"])]) = true := by decide +kernel

/-- the struct of `TestMappingArray` (241-262) -/
def arrayFs : List Field := [fd b!"Array" [(b!"form", b!"array,default=9")] (.array 2 (.int 64))]
example : fails (oldMap arrayFs []) = true ∧ gives (oldMap arrayFs [(b!"array", [b!"3", b!"4"])]) [.slice [.int 3, .int 4]] = true ∧
    fails (oldMap arrayFs [(b!"array", [b!"3"])]) = true ∧ fails (oldMap arrayFs [(b!"array", [b!"wrong"])]) = true := by decide +kernel

/-- `TestMappingStructField` (264-274), `TestMappingMapField` (276-284), `TestMappingIgnoredCircularRef` (286-294) -/
example : gives (oldMap [fd b!"J" [] (.struct 1)] [(b!"J", [b!"{\"I\": 9}"])] .zero b!"form" [fd b!"I" [] (.int 64)]) [.struct [.int 9]] = true ∧
    gives (oldMap [fd b!"M" [] (.map .string (.int 64))] [(b!"M", [b!"{\"one\": 1}"])]) [.opaque 1] = true ∧
    gives (oldMap [fd b!"S" [(b!"form", b!"-")] (.ptr (.struct 0))] []) [.zero] = true := by decide +kernel

/-! ### map_form_test.go, binding_test.go: `Bind` -/

/-- the answer and the entries of a map of strings -/
def stringsOf (r : BOut × Target) (k : Str) : Option Str := match r with | (.ok, .strings (some m)) => m k | _ => none

/-- the same for a map of slices -/
def slicesOf (r : BOut × Target) (k : Str) : Option (List Str) := match r with | (.ok, .slices (some m)) => m k | _ => none

/-- `TestMapFormOldMapSlice`, `TestMapFormMapSlice`, `TestMapFormMapString` (map_form_test.go:9-54) -/
example : slicesOf (MapForm lib (fun _ => []) 9 (.slices none) [(b!"name", [b!"mike", b!"job"])] [] []) b!"name" = some [b!"mike", b!"job"] ∧
    slicesOf (MapForm lib (fun _ => []) 9 (.slices (some Map.empty)) [(b!"name", [b!"mike", b!"job"])] [] []) b!"name" = some [b!"mike", b!"job"] ∧
    stringsOf (MapForm lib (fun _ => []) 9 (.strings none) [(b!"name", [b!"mike", b!"job"])] [] []) b!"name" = some b!"job" ∧
    stringsOf (MapForm lib (fun _ => []) 9 (.strings (some Map.empty)) [(b!"name", [b!"mike", b!"job"])] [] []) b!"name" = some b!"job" := by
  decide +kernel

/-- `TestBindingNewBindinger` (binding_test.go:146-161) -/
example : newBindinger b!"GET" b!"" = .form ∧ newBindinger b!"GET" b!"application/json" = .form ∧
    newBindinger b!"POST" b!"application/json" = .json ∧ newBindinger b!"PUT" b!"application/json" = .json ∧
    newBindinger b!"POST" b!"application/xml" = .xml ∧ newBindinger b!"PUT" b!"text/xml" = .xml ∧
    newBindinger b!"POST" b!"application/x-www-form-urlencoded" = .form ∧ newBindinger b!"PUT" b!"application/x-www-form-urlencoded" = .form ∧
    newBindinger b!"POST" b!"multipart/form-data" = .multipart ∧ newBindinger b!"PUT" b!"multipart/form-data" = .multipart := by decide +kernel

/-- a struct value, or nothing -/
def valOf (r : BOut × Target) : BOut × Val := match r with | (o, .struct _ v) => (o, v) | (o, _) => (o, .zero)

/-- `type FooStruct struct { Foo string }` -/
def fooFs : List Field := [fd b!"Foo" [(b!"form", b!"foo"), (b!"binding", b!"required,max=32")] .string]

/-- the validator on the struct types of the tests: a string field with `required` must not be empty; the flags tell which fields are
required, those of the first field being embedded -/
def required (v : Val) : Bool :=
  match v with
  | .struct (.struct (.string a :: _) :: .string b :: _) => a != [] && b != []
  | _ => false

/-- the verdict -/
def verdict : Target → Option Nat
  | .struct _ v => if required v then none else some 0
  | _ => none

/-- `FooBarStruct` and `FooDefaultBarStruct` (binding_test.go:40-60) with what is embedded in them -/
def fooBar (bar : Str) : TyEnv := fun n =>
  if n = 0 then [{ fd b!"FooStruct" [] (.struct 1) with anonymous := true }, fd b!"Bar" [(b!"form", bar), (b!"binding", b!"required")] .string]
  else fooFs

/-- `mime.ParseMediaType` and the parts of a body, for the tests -/
def testMime : FMime where
  mediaType := fun ct => (ct.takeWhile (· != 59), false)
  parts := fun _ body => if body = b!"<two fields>" then (some ([(b!"foo", [b!"bar"]), (b!"bar", [b!"foo"])], []), body.length) else (none, 0)

/-- a request -/
def testReq (method ct query : Str) : Req :=
  { postReq ct query with method := method, header := if ct = [] then Map.empty else Header.put Map.empty b!"Content-Type" ct }

/-- `Form.Bind` on a request -/
def formBind (E : TyEnv) (check : Target → Option Nat) (method ct query : Str) (body : Option Str) (obj : Target) : Option (BOut × Target) :=
  match (Forms.fresh body).forForm testMime (testReq method ct query) with
  | (true, _) => none
  | (false, s) => some (bindForm lib E 9 check obj (s.form.getD []) [] b!"form")

/-- `MIMEPOSTForm` -/
def post : Str := b!"application/x-www-form-urlencoded"

/-- the binding of a struct went well and left these fields -/
def bound (r : Option (BOut × Target)) (vs : List Val) : Bool := match r with | some r => gives (valOf r) vs | none => false
/-- it failed, in parsing or in binding -/
def unbound (r : Option (BOut × Target)) : Bool := match r with | some r => fails (valOf r) | none => true

/-- a string -/
def str (s : Str) : Val := .string s

/-- `TestBindingForm`, `TestBindingForm2` (binding_test.go:224-234), `TestBindingFormPost` (578-586): in the form the body comes first -/
example : bound (formBind (fooBar b!"bar") verdict b!"POST" post [] (some b!"foo=bar&bar=foo") (.struct 0 .zero)) [.struct [str b!"bar"], str b!"foo"] = true ∧
    bound (formBind (fooBar b!"bar") verdict b!"GET" [] b!"foo=bar&bar=foo" (some []) (.struct 0 .zero)) [.struct [str b!"bar"], str b!"foo"] = true ∧
    bound (formBind (fooBar b!"bar") verdict b!"POST" post b!"foo=getfoo&bar=getbar" (some b!"foo=bar&bar=foo") (.struct 0 .zero))
      [.struct [str b!"bar"], str b!"foo"] = true := by
  refine ⟨?_, ?_, ?_⟩ <;> decide +kernel

/-- `TestBindingFormDefaultValue`, `TestBindingFormDefaultValue2` (248-258), `TestBindingDefaultValueFormPost` (590-597): a value in the
query comes before the default -/
example : bound (formBind (fooBar b!"bar,default=hello") verdict b!"POST" post [] (some b!"foo=bar") (.struct 0 .zero)) [.struct [str b!"bar"], str b!"hello"] = true ∧
    bound (formBind (fooBar b!"bar,default=hello") verdict b!"GET" [] b!"foo=bar" (some []) (.struct 0 .zero)) [.struct [str b!"bar"], str b!"hello"] = true ∧
    bound (formBind (fooBar b!"bar,default=hello") verdict b!"POST" post b!"foo=getfoo&bar=getbar" (some b!"foo=bar") (.struct 0 .zero))
      [.struct [str b!"bar"], str b!"getbar"] = true := by
  refine ⟨?_, ?_, ?_⟩ <;> decide +kernel

/-- `TestFormBindingFail` (837-845): a POST without a body -/
example : unbound (formBind (fooBar b!"bar") verdict b!"POST" [] [] none (.struct 0 .zero)) = true := by decide +kernel

/-- `QueryTest` (binding_test.go:26-34): the struct embedded is not exported -/
def queryTest : TyEnv := fun n =>
  if n = 0 then [fd b!"Page" [(b!"form", b!"page")] (.int 64), fd b!"Size" [(b!"form", b!"size")] (.int 64),
    { fd b!"appkey" [] (.struct 1) with anonymous := true, exported := false }]
  else [fd b!"Appkey" [(b!"form", b!"appkey")] .string]

/-- `TestBindingFormEmbeddedStruct`, `TestBindingFormEmbeddedStruct2` (236-246) -/
example : bound (formBind queryTest (fun _ => none) b!"POST" post [] (some b!"page=1&size=2&appkey=test-appkey") (.struct 0 .zero))
      [.int 1, .int 2, .struct [str b!"test-appkey"]] = true ∧
    bound (formBind queryTest (fun _ => none) b!"GET" [] b!"page=1&size=2&appkey=test-appkey" (some []) (.struct 0 .zero))
      [.int 1, .int 2, .struct [str b!"test-appkey"]] = true := by
  refine ⟨?_, ?_⟩ <;> decide +kernel

/-- one struct type -/
def only (fs : List Field) (more : List Field := []) : TyEnv := fun n => if n = 0 then fs else more

/-- `Form.Bind` of a POST with this body -/
def posted (fs : List Field) (body : Str) (v : Val := .zero) (more : List Field := []) : Option (BOut × Target) :=
  formBind (only fs more) (fun _ => none) b!"POST" post [] (some body) (.struct 0 v)

/-- `Query.Bind` -/
def queried (fs : List Field) (query : Str) : Option (BOut × Target) :=
  some (bindForm lib (only fs) 9 (fun _ => none) (.struct 0 .zero) (parseQuery query).1 [] b!"form")

/-- `FooBarStructForTimeType` (70-75) -/
def timeFs : List Field := [
  fd b!"TimeFoo" [(b!"form", b!"time_foo"), (b!"time_format", b!"2006-01-02"), (b!"time_utc", b!"1"), (b!"time_location", b!"Asia/Chongqing")] .time,
  fd b!"TimeBar" [(b!"form", b!"time_bar"), (b!"time_format", b!"2006-01-02"), (b!"time_utc", b!"1")] .time,
  fd b!"CreateTime" [(b!"form", b!"createTime"), (b!"time_format", b!"unixNano")] .time,
  fd b!"UnixTime" [(b!"form", b!"unixTime"), (b!"time_format", b!"unix")] .time]

/-- `TestBindingFormForTime` (260-294): the zone named comes before UTC; an empty text is the zero time; nanoseconds and seconds -/
example : bound (posted timeFs b!"time_foo=2017-11-15&time_bar=&createTime=1562400033000000123&unixTime=1562400033")
      [.time (.parsed 3), .time .zero, .time (.unix 1562400033 123), .time (.unix 1562400033 0)] = true ∧
    unbound (posted (timeFs.drop 2) b!"time_foo=2017-11-15&createTime=bad&unixTime=bad") = true ∧
    unbound (posted [fd b!"TimeFoo" [(b!"form", b!"time_foo")] .time] b!"time_foo=2017-11-15") = true ∧
    unbound (posted [fd b!"TimeFoo" [(b!"form", b!"time_foo"), (b!"time_format", b!"2017-11-15")] .time] b!"time_foo=2017-11-15") = true ∧
    unbound (posted [fd b!"TimeFoo" [(b!"form", b!"time_foo"), (b!"time_format", b!"2006-01-02"), (b!"time_location", b!"/asia/chongqing")] .time]
      b!"time_foo=2017-11-15") = true := by
  refine ⟨?_, ?_, ?_, ?_, ?_⟩ <;> decide +kernel

/-- `map[string]interface{}` -/
def anyMap : Ty := .map .string (.other 0)

/-- `TestFormBindingIgnoreField`, `TestBindingFormInvalidName`, `TestBindingFormInvalidName2` (296-312) -/
example : bound (posted [fd b!"Foo" [(b!"form", b!"-")] (.ptr .string)] b!"-=bar") [.zero] = true ∧
    bound (posted [fd b!"TestName" [(b!"invalid_name", b!"test_name")] .string] b!"test_name=bar") [.zero] = true ∧
    unbound (posted [fd b!"TestName" [] (.struct 1)] b!"map_foo=bar" .zero [fd b!"MapFoo" [(b!"form", b!"map_foo")] anyMap]) = true := by
  refine ⟨?_, ?_, ?_⟩ <;> decide +kernel

/-- `FooStructForStringPtrType` (137-140) -/
def ptrFs : List Field := [fd b!"PtrFoo" [(b!"form", b!"ptr_foo")] (.ptr .string), fd b!"PtrBar" [(b!"form", b!"ptr_bar")] (.ptr .string)]

/-- `TestBindingFormForType` (314-358) -/
example : bound (posted [fd b!"MapFoo" [(b!"form", b!"map_foo")] anyMap] b!"map_foo={\"bar\":123}") [.opaque 123] = true ∧
    bound (posted [fd b!"SliceFoo" [(b!"form", b!"slice_foo")] (.slice (.int 64))] b!"slice_foo=1&slice_foo=2") [.slice [.int 1, .int 2]] = true ∧
    unbound (posted [fd b!"SliceMapFoo" [(b!"form", b!"slice_map_foo")] (.slice anyMap)] b!"slice_map_foo=1&slice_map_foo=2") = true ∧
    bound (posted ptrFs b!"ptr_bar=test") [.zero, .ptr (str b!"test")] = true ∧
    bound (posted ptrFs b!"ptr_bar=test" (.struct [.zero, .ptr (str [])])) [.zero, .ptr (str b!"test")] = true ∧
    unbound (posted [fd b!"PtrBar" [(b!"form", b!"ptr_bar")] (.ptr anyMap)] b!"ptr_bar=test") = true ∧
    bound (posted [fd b!"StructFoo" [] (.struct 1)] b!"idx=123" .zero [fd b!"Idx" [(b!"form", b!"idx")] (.int 64)]) [.struct [.int 123]] = true ∧
    bound (posted [fd b!"StructPointerFoo" [] (.ptr (.struct 1))] b!"name=thinkerou" .zero [fd b!"Name" [(b!"form", b!"name")] .string])
      [.ptr (.struct [str b!"thinkerou"])] = true := by
  refine ⟨?_, ?_, ?_, ?_, ?_, ?_, ?_, ?_⟩ <;> decide +kernel

/-- `TestBindingFormStringMap`, `TestBindingFormStringSliceMap` (360-389): the last value; other maps are refused -/
example : (formBind (fun _ => []) (fun _ => none) b!"POST" post [] (some b!"foo=bar&hello=world") (.strings (some Map.empty))).bind
      (fun r => some (stringsOf r b!"foo", stringsOf r b!"hello")) = some (some b!"bar", some b!"world") ∧
    (formBind (fun _ => []) (fun _ => none) b!"POST" post [] (some b!"foo=something&foo=bar&hello=world") (.strings (some Map.empty))).bind
      (fun r => some (stringsOf r b!"foo", stringsOf r b!"hello")) = some (some b!"bar", some b!"world") ∧
    (formBind (fun _ => []) (fun _ => none) b!"POST" post [] (some b!"foo=something&foo=bar&hello=world") (.slices (some Map.empty))).bind
      (fun r => some (slicesOf r b!"foo", slicesOf r b!"hello")) = some (some [b!"something", b!"bar"], some [b!"world"]) ∧
    unbound (formBind (fun _ => []) (fun _ => none) b!"POST" post [] (some b!"foo=something&foo=bar&hello=world") .otherMap) = true := by
  refine ⟨?_, ?_, ?_, ?_⟩ <;> decide +kernel

/-- `TestBindingQuery` to `TestBindingQueryStringMap` (391-441): the body is not read -/
example : gives (valOf (bindForm lib (fooBar b!"bar") 9 verdict (.struct 0 .zero) (parseQuery b!"foo=bar&bar=foo").1 [] b!"form"))
      [.struct [str b!"bar"], str b!"foo"] = true ∧
    unbound (queried [fd b!"MapFoo" [(b!"form", b!"map_foo")] anyMap] b!"map_foo=") = true ∧
    unbound (queried [fd b!"BoolFoo" [(b!"form", b!"bool_foo")] .bool] b!"bool_foo=fasl") = true ∧
    stringsOf (bindForm lib (fun _ => []) 9 (fun _ => none) (.strings (some Map.empty)) (parseQuery b!"foo=bar&foo=2&hello=world").1 [] b!"form")
      b!"foo" = some b!"2" := by
  refine ⟨?_, ?_, ?_, ?_⟩ <;> decide +kernel

/-- `TestHeaderBinding` (710-733) -/
example : gives (valOf (bindForm lib (only [fd b!"Limit" [(b!"header", b!"limit")] (.int 64)]) 9 (fun _ => none) (.struct 0 .zero)
      [(b!"Limit", [b!"1000"])] [] b!"header")) [.int 1000] = true ∧
    fails (valOf (bindForm lib (only [fd b!"Fail" [(b!"header", b!"fail")] anyMap]) 9 (fun _ => none) (.struct 0 .zero)
      [(b!"Fail", [b!"{fail:fail}"])] [] b!"header")) = true := by
  refine ⟨?_, ?_⟩ <;> decide +kernel

/-- `TestUriBinding` (737-756): the map is made although the text is refused; `TestUriInnerBinding` (758-778) -/
example : gives (valOf (bindForm lib (only [fd b!"Name" [(b!"uri", b!"name")] .string]) 9 (fun _ => none) (.struct 0 .zero)
      [(b!"name", [b!"thinkerou"])] [] b!"uri")) [str b!"thinkerou"] = true ∧
    fails (valOf (bindForm lib (only [fd b!"Name" [(b!"uri", b!"name")] anyMap]) 9 (fun _ => none) (.struct 0 .zero)
      [(b!"name", [b!"thinkerou"])] [] b!"uri")) = true ∧
    same (valOf (bindForm lib (only [fd b!"Name" [(b!"uri", b!"name")] anyMap]) 9 (fun _ => none) (.struct 0 .zero)
      [(b!"name", [b!"thinkerou"])] [] b!"uri")).2 (.struct [.opaque 0]) = true ∧
    gives (valOf (bindForm lib (only [fd b!"Name" [(b!"uri", b!"name")] .string, fd b!"S" [] (.struct 1)] [fd b!"Age" [(b!"uri", b!"age")] (.int 64)])
      9 (fun _ => none) (.struct 0 .zero) [(b!"name", [b!"mike"]), (b!"age", [b!"25"])] [] b!"uri")) [str b!"mike", .struct [.int 25]] = true := by
  refine ⟨?_, ?_, ?_, ?_⟩ <;> decide +kernel

/-! ### multipart_form_mapping_test.go, and the multipart tests of binding_test.go -/

/-- `FormMultipart.Bind`, after the body has been read -/
def filesBind (E : TyEnv) (form : Form) (files : FormFiles) : BOut × Val :=
  valOf (bindForm lib E 9 (fun _ => none) (.struct 0 .zero) form files b!"form")

/-- `TestFormMultipartBindingBindOneFile`, `..TwoFiles`, `..Error` (multipart_form_mapping_test.go:18-95) -/
example : gives (filesBind (only [fd b!"FilePtr" [(b!"form", b!"file")] (.ptr .file), fd b!"SlicePtrs" [(b!"form", b!"file")] (.slice (.ptr .file))])
      [] [(b!"file", [1])]) [.ptr (.file 1), .slice [.ptr (.file 1)]] = true ∧
    gives (filesBind (only [fd b!"SlicePtrs" [(b!"form", b!"file")] (.slice (.ptr .file))]) [] [(b!"file", [1, 2])])
      [.slice [.ptr (.file 1), .ptr (.file 2)]] = true ∧
    fails (filesBind (only [fd b!"Files" [(b!"form", b!"file")] (.int 64)]) [] [(b!"file", [1, 2])]) = true ∧
    fails (filesBind (only [fd b!"Files" [(b!"form", b!"file")] (.array 1 (.ptr .file))]) [] [(b!"file", [1, 2])]) = true ∧
    fails (filesBind (only [fd b!"Files" [(b!"form", b!"file")] (.slice (.int 64))]) [] [(b!"file", [1, 2])]) = true := by
  refine ⟨?_, ?_, ?_, ?_, ?_⟩ <;> decide +kernel

/-- `TestBindingFormFilesMultipart` (binding_test.go:614-634) and, without the name in the tag, `..Fail` (636-641): there the field stays nil, which the
validator refuses -/
example : gives (filesBind (fun n => if n = 0 then
        [{ fd b!"FooBarStruct" [] (.struct 1) with anonymous := true }, fd b!"File" [(b!"form", b!"file")] (.ptr .file)]
      else if n = 1 then [{ fd b!"FooStruct" [] (.struct 2) with anonymous := true }, fd b!"Bar" [(b!"form", b!"bar")] .string] else fooFs)
      [(b!"foo", [b!"bar"]), (b!"bar", [b!"foo"])] [(b!"file", [1])])
      [.struct [.struct [str b!"bar"], str b!"foo"], .ptr (.file 1)] = true ∧
    gives (filesBind (only [fd b!"File" [(b!"invalid_name", b!"file")] (.ptr .file),
      { fd b!"data" [(b!"form", b!"data")] (.ptr .file) with exported := false }]) [] [(b!"file_foo", [1])]) [.zero, .zero] = true := by
  refine ⟨?_, ?_⟩ <;> decide +kernel

/-- `TestBindingFormMultipart` (643-651), `TestFormMultipartBindingFail` (868-876) -/
example : (match (Forms.fresh (some b!"<two fields>")).forMultipart testMime
        (testReq b!"POST" b!"multipart/form-data; boundary=--testboundary" b!"foo=getfoo&bar=getbar") with
      | (false, s) => (match s.multi with
        | some (vs, fs) => gives (filesBind (fooBar b!"bar") vs fs) [.struct [str b!"bar"], str b!"foo"]
        | none => false)
      | (true, _) => false) = true ∧
    ((Forms.fresh none).forMultipart testMime (testReq b!"POST" [] [])).1 = true := by
  refine ⟨?_, ?_⟩ <;> decide +kernel

/-! ### default_validator_test.go, validate_test.go -/

/-- `TestSliceValidateError` (default_validator_test.go:12-27): of the elements, only those with an error are kept -/
example : VErr.text (fun _ => b!"test error") (.slice [.struct 0]) = b!"[0]: test error" := by decide +kernel

/-- the validator refuses the structs 1 and 2 of `TestDefaultValidator`; struct 3 passes -/
def refused (id : Nat) : Option Nat := if id = 3 then none else some id

/-- whether `ValidateStruct` gives an error; `none` is a panic -/
def wantErr (v : VObj) : Option Bool := (validateObj refused v).map Option.isSome

/-- `TestDefaultValidator` (default_validator_test.go:29-68) -/
example : wantErr .nil = some true ∧ wantErr .other = some false ∧
    [1, 2, 3].map (fun n => wantErr (.struct n)) = [some true, some true, some false] ∧
    [1, 2, 3].map (fun n => wantErr (.ptr (.struct n))) = [some true, some true, some false] ∧
    [1, 2, 3].map (fun n => wantErr (.list [.struct n])) = [some true, some true, some false] ∧
    [1, 2, 3].map (fun n => wantErr (.list [.ptr (.struct n)])) = [some true, some true, some false] ∧
    [1, 2, 3].map (fun n => wantErr (.ptr (.list [.struct n]))) = [some true, some true, some false] ∧
    [1, 2, 3].map (fun n => wantErr (.ptr (.list [.ptr (.struct n)]))) = [some true, some true, some false] := by
  refine ⟨?_, ?_, ?_, ?_, ?_, ?_, ?_, ?_⟩ <;> decide +kernel

/-- `TestValidatePrimitives` (validate_test.go:174-194): maps, numbers and strings are let through, also in slices and behind pointers -/
example : wantErr .other = some false ∧ wantErr (.ptr .other) = some false ∧ wantErr (.list [.other, .other]) = some false ∧
    wantErr (.ptr (.list [.other, .other])) = some false := by
  refine ⟨?_, ?_, ?_, ?_⟩ <;> decide +kernel

end Water.Tests
