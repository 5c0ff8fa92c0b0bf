import Verif.Props.Cache
import Verif.Model.Print
/-
The tests of /repo for routes, and the output in README.md, repeated on the model. These are tests of the model, not proofs: they compare it
with what the authors of /repo expect, and with what their program printed.
-/
namespace Water.Tests
open Water Spec Demo

/-! engine_test.go:10-65, with the output of README.md:23-110. The README was written before the route `/help2` was added. -/

/-- handlers are told apart by numbers -/
def f (n : Nat) : HVal Nat := .ctxFunc n

/-- `TestEngine`: the registrations (engine_test.go:11-43); the closures are inlined. `help2` is whether `/help2` is registered. -/
def engineOps (help2 : Bool) : List (Op Nat) :=
  let any := fun r p hs => anyCall [b!"HEAD", b!"OPTIONS"] r p hs
  let n := if help2 then 1 else 0
  let a := 10 + n
  let b := 13 + n
  let c := 24 + n
  let d := 28 + n
  [.newRouter, .use 0 [f 0], .handle 0 b!"GET" b!"/" [f 1], .handle 0 b!"GET" b!"/help" [f 1]] ++
  (if help2 then [.handle 0 b!"GET" b!"/help2" [.httpFunc 4]] else []) ++
  any 0 b!"/about" [f 1] ++ [.handle 0 b!"HEAD" b!"/about" [f 1], .handle 0 b!"OPTIONS" b!"/*" []] ++
  [.group 0 b!"/a", .use a [f 0], .handle a b!"GET" b!"/1" [f 1], .handle a b!"GET" b!"/<id:int>" [f 2]] ++
  [.group a b!"/b", .handle b b!"GET" b!"" [f 1, f 1]] ++ any b b!"/2" [f 1] ++
  [.handle b b!"PUT" b!"/<id ~ 70|80>" [f 2], .handle b b!"GET" b!"/*" [f 1]] ++
  [.handle 0 b!"GET" b!"/d2/<id ~ z(d*)b>" [f 3], .handle 0 b!"GET" b!"/d2/<id1,id2 ~ z(d*)h(u)b>" [f 3]] ++
  [.group 0 b!"/c", .handle c b!"PUT" b!"/<_ ~ 70|80>" [f 2], .handle c b!"GET" b!"/<_>" [f 2], .handle c b!"GET" b!"/*file" [f 1]] ++
  [.group 0 b!"/d", .handle d b!"GET" b!"/*_" [f 1]]

/-- what `PrintRawRouter` printed (README.md:24-52) -/
def readmeRaw : List Str := [
  b!"├── / [GET     : 2]",
  b!"├── /help [GET     : 2]",
  b!"├── /about [GET     : 2]",
  b!"├── /about [POST    : 2]",
  b!"├── /about [DELETE  : 2]",
  b!"├── /about [PUT     : 2]",
  b!"├── /about [PATCH   : 2]",
  b!"├── /about [HEAD    : 2]",
  b!"├── /* [OPTIONS : 1]",
  b!"├── /a",
  b!"│   ├── /1 [GET     : 3]",
  b!"│   ├── /<id:int> [GET     : 3]",
  b!"│   └── /b",
  b!"│       ├──  [GET     : 4]",
  b!"│       ├── /2 [GET     : 3]",
  b!"│       ├── /2 [POST    : 3]",
  b!"│       ├── /2 [DELETE  : 3]",
  b!"│       ├── /2 [PUT     : 3]",
  b!"│       ├── /2 [PATCH   : 3]",
  b!"│       ├── /<id ~ 70|80> [PUT     : 3]",
  b!"│       └── /* [GET     : 3]",
  b!"├── /d2/<id ~ z(d*)b> [GET     : 2]",
  b!"├── /d2/<id1,id2 ~ z(d*)h(u)b> [GET     : 2]",
  b!"├── /c",
  b!"│   ├── /<_ ~ 70|80> [PUT     : 2]",
  b!"│   ├── /<_> [GET     : 2]",
  b!"│   └── /*file [GET     : 2]",
  b!"└── /d",
  b!"    └── /*_ [GET     : 2]"]

/-- what `PrintRawRoutes(http.MethodGet)` printed (README.md:56-68) -/
def readmeGet : List Str := [
  b!"[  2] /",
  b!"[  3] /a/1",
  b!"[  3] /a/<id:int>",
  b!"[  4] /a/b",
  b!"[  3] /a/b/*",
  b!"[  3] /a/b/2",
  b!"[  2] /about",
  b!"[  2] /c/*file",
  b!"[  2] /c/<_>",
  b!"[  2] /d/*_",
  b!"[  2] /d2/<id ~ z(d*)b>",
  b!"[  2] /d2/<id1,id2 ~ z(d*)h(u)b>",
  b!"[  2] /help"]

/-- what `PrintRawAllRoutes` printed (README.md:72-96) -/
def readmeAll : List Str := [
  b!"[GET     : 2] /",
  b!"[GET     : 2] /help",
  b!"[GET     : 2] /about",
  b!"[POST    : 2] /about",
  b!"[DELETE  : 2] /about",
  b!"[PUT     : 2] /about",
  b!"[PATCH   : 2] /about",
  b!"[HEAD    : 2] /about",
  b!"[OPTIONS : 1] /*",
  b!"[GET     : 3] /a/1",
  b!"[GET     : 3] /a/<id:int>",
  b!"[GET     : 4] /a/b",
  b!"[GET     : 3] /a/b/2",
  b!"[POST    : 3] /a/b/2",
  b!"[DELETE  : 3] /a/b/2",
  b!"[PUT     : 3] /a/b/2",
  b!"[PATCH   : 3] /a/b/2",
  b!"[PUT     : 3] /a/b/<id ~ 70|80>",
  b!"[GET     : 3] /a/b/*",
  b!"[GET     : 2] /d2/<id ~ z(d*)b>",
  b!"[GET     : 2] /d2/<id1,id2 ~ z(d*)h(u)b>",
  b!"[PUT     : 2] /c/<_ ~ 70|80>",
  b!"[GET     : 2] /c/<_>",
  b!"[GET     : 2] /c/*file",
  b!"[GET     : 2] /d/*_"]

/-- what `PrintRouterTree(http.MethodGet)` printed (README.md:100-117) -/
def readmeTree : List Str := [
  b!"/ [  2]",
  b!"├── a",
  b!"│   ├── b",
  b!"│   │   ├── 2 [  3]",
  b!"│   │   └── * [  3]",
  b!"│   ├── 1 [  3]",
  b!"│   ├── b [  4]",
  b!"│   └── <id:int> [  3]",
  b!"├── d2",
  b!"│   ├── <id ~ z(d*)b> [  2]",
  b!"│   └── <id1,id2 ~ z(d*)h(u)b> [  2]",
  b!"├── c",
  b!"│   ├── <_> [  2]",
  b!"│   └── *file [  2]",
  b!"├── d",
  b!"│   └── *_ [  2]",
  b!"├── help [  2]",
  b!"└── about [  2]"]

/-- build an application and test it -/
def withApp {α : Type} (ops : List (Op α)) (opts : List (Opt α)) (p : Heap α → Engine α → Bool) : Bool :=
  match runOps [] ops with
  | .error _ => false
  | .ok heap =>
    match handler rx heap 0 opts with
    | .error _ => false
    | .ok e => p heap e

/-- the paths of a method -/
def keysOf {α : Type} (rs : RouteStore α) (m : Str) : List Str := (rs.routeSlice.filter (fun r => r.method == m)).map (·.uri)

/-- The model prints what the program printed. -/
example : withApp (engineOps false) [.staticRouter true] (fun heap e =>
    match storeOf heap 0 with
    | .error _ => false
    | .ok rs =>
      printRawRouter heap 0 == readmeRaw && printRawRoutes rs (keysOf rs b!"GET") b!"GET" == some readmeGet &&
      printRawAllRoutes rs.routeSlice == readmeAll && printRouterTree e b!"GET" == some readmeTree) = true := by decide +kernel

/-- The test as it is now does not panic. -/
example : withApp (engineOps true) [.staticRouter true] (fun _ e => (printRouterTree e b!"GET").isSome) = true := by decide +kernel

/-! router_test.go -/

/-- `Test_VariantUri` (router_test.go:9-26) -/
example : variantUri b!"/hello/:name" = b!"/hello/<name>" ∧ variantUri b!"/hello/*filepath" = b!"/hello/*filepath" := by decide +kernel

/-- make a tree as the tests do, with handlers nil, and match a path; the values of some names, or `none` if there is no node -/
def matched (patterns : List Str) (uri : Str) (names : List Str) : Option (List (Option Str)) :=
  match patterns.foldlM (fun (t : Node Nat) p => t.add rx p [] []) newTree with
  | .error _ => none
  | .ok t => let (ps, e) := matchUri rx (some t) uri; e.map (fun _ => names.map ps)

/-- `TestMatchHolder` (router_test.go:28-43) -/
example : matched [b!"/a/<id>", b!"/b/<_>"] b!"/a/1" [b!"id", b!"_"] = some [some b!"1", none] ∧
    matched [b!"/a/<id>", b!"/b/<_>"] b!"/b/2" [b!"id", b!"_"] = some [none, none] := by decide +kernel

/-- `TestMatchAll` (router_test.go:45-118) -/
example : matched [b!"/*"] b!"/a.png" [b!"*0"] = some [some b!"a.png"] ∧ matched [b!"/*"] b!"/f/a.png" [b!"*0", b!"*1"] = some [some b!"f/a.png", none] ∧
    matched [b!"/file/*"] b!"/file/a.png" [b!"*0"] = some [some b!"a.png"] ∧
    matched [b!"/file/*f"] b!"/file/a.png" [b!"f", b!"*0"] = some [some b!"a.png", none] ∧
    matched [b!"/file/*_"] b!"/file/a.png" [b!"_", b!"*0", b!""] = some [none, none, none] ∧
    matched [b!"/file/*/*"] b!"/file/f/a.png" [b!"*0", b!"*1"] = some [some b!"f", some b!"a.png"] ∧
    matched [b!"/file/*/*f"] b!"/file/f/a.png" [b!"*0", b!"f", b!"*1"] = some [some b!"f", some b!"a.png", none] ∧
    matched [b!"/file/*/*_"] b!"/file/f/a.png" [b!"*0", b!"_", b!"*1"] = some [some b!"f", none, none] := by
  refine ⟨?_, ?_, ?_, ?_, ?_, ?_, ?_, ?_⟩ <;> decide +kernel

/-! engine_test.go:93-136, option_test.go, router_group_test.go -/

/-- the status that `httptest.ResponseRecorder` reports: 200 if there is none -/
def codeOf (e : Engine (Prog Unit)) (method path : Str) : Int :=
  (received (serve rx chainO e Ctx.new { chainReq with method, path, requestURI := [] } Writer.new none ()).rw.log).getD 200

/-- a handler that does nothing -/
def nop : Prog Unit := .ret

/-- `middleware` (engine_test.go:67-73) without the output -/
def middleware : Prog Unit := .next .ret

/-- `TestEngineNoRoute` (engine_test.go:93-110) -/
example : withApp [.newRouter, .use 0 [.ctxFunc middleware]] [] (fun _ e => codeOf e b!"GET" b!"/a" == 404) = true := by decide +kernel

/-- `TestNoMethodRoute` (engine_test.go:112-136) -/
example : withApp [.newRouter, .handle 0 b!"GET" b!"/a" [.ctxFunc nop]] []
    (fun _ e => codeOf e b!"GET" b!"/docs/openapi-ui" == 404 && codeOf e b!"POST" b!"/docs/openapi" == 404) = true := by decide +kernel

/-- `TestWithNoFoundHandlers` (option_test.go:11-48) -/
example : withApp [.newRouter, .use 0 [.handler nop], .handle 0 b!"GET" b!"/a" [.ctxFunc nop]] [.noFound [.handler nop]]
    (fun _ e => codeOf e b!"GET" b!"/a" == 200 && codeOf e b!"GET" b!"/docs/openapi-ui" == 200 && codeOf e b!"POST" b!"/docs/openapi" == 200) = true := by
  decide +kernel

/-- `TestRouterWithGinStype` (router_group_test.go:8-30): the engine is built. -/
example : withApp ([.newRouter, .use 0 [f 0], .use 0 [f 1]] ++ groupCall 0 b!"/v1" [.mw 2] ++ [.handle 1 b!"POST" b!"/login" [f 3]] ++
    groupCall 1 b!"/v2" [] ++ [.handle 3 b!"POST" b!"/login" [f 3]]) []
    (fun heap e => printRawRouter heap 0 == [b!"└── /v1", b!"    ├── /login [POST    : 4]", b!"    └── /v2", b!"        └── /login [POST    : 4]"] &&
      Demo.run e b!"POST" b!"/v1/v2/login" == some [0, 1, 2, 3]) = true := by decide +kernel

/-! m_static_test.go -/

/-- a disk with the files of the test; the world is not used -/
def repoFS : FS Unit where
  openFile := fun path w => (w, if path = b!"/repo/version.go" then some 0 else if path = b!"/repo/benchmark/direct_or_embed_test.go" then some 1 else none)
  stat := fun k w => (w, some ⟨false, 1600000000000000000, 10, if k = 0 then b!"version.go" else b!"direct_or_embed_test.go"⟩)
  close := fun _ w => w

/-- net/http for it -/
def repoHttp : Http Unit where
  redirect := fun _ => .ret
  serveFile := fun _ => .ret
  serveContent := serveContentStd
    { formatTime := fun _ => b!"Sun, 13 Sep 2020 12:26:40 GMT", parseTime := fun _ => none, typeOf := fun _ => b!"text/plain; charset=utf-8",
      read := fun _ _ => b!"package wa", parts := fun _ _ _ => ([], []) } chainO

/-- `TestStatic` (m_static_test.go:14-46) -/
example :
    (match staticAdvance repoHttp [⟨[], [], [], [], [], none, []⟩] 0 { pre := b!"/f", indexFile := [], expires := some (fun w => (w, b!"46")), etag := 0, fileSystem := some (dirFS repoFS b!"/repo") } with
    | .error _ => false
    | .ok heap =>
      match handler rx heap 0 [] with
      | .error _ => false
      | .ok e => codeOf e b!"GET" b!"/f/version.go" == 200 && codeOf e b!"GET" b!"/f/benchmark/direct_or_embed_test.go" == 200 &&
          codeOf e b!"GET" b!"/f/none.go" == 404) = true := by decide +kernel

end Water.Tests
