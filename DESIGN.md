# Formal model of meilihao/water — design

## Shape of the development

* `lean/Verif/Model/*.lean` — executable model, function by function; each definition cites file:lines of /repo.
* `lean/Verif/Spec/*.lean` — small specifications, written without the model's helpers where the property has content
  of its own (path languages, registration histories, digit values, percent decoding, field paths, …).
* `lean/Verif/Lemmas/*.lean` — helper lemmas, invariants.
* `lean/Verif/Props/*.lean` — the theorems `Cnn_…` named in MANIFEST.json. Beside them, in `Water.Demo`, concrete cases
  that meet their hypotheses (evaluated by the kernel).
* `lean/Verif/Tests/*.lean` — the tests of /repo, repeated on the model. They are tests, and no claim rests on them.
* `properties.jsonl` — the properties; `seeded/LOG.jsonl` — wrong programs tried against the theorems.

Go strings are byte lists (`Str = List UInt8`), so nothing is assumed about UTF-8 validity. Go maps are functions
`key → Option value`; where iteration order matters a map is a list of entries in an arbitrary order and the theorem
quantifies over the order. A Go panic is a value, `nil` is `Option.none`, mutation returns the new value. Routers are
addresses in a heap. Handlers are arbitrary well-founded programs (`Prog ω`) that call the context, `Next`, panic, defer
and recover, branch on every result, and change an arbitrary world `ω`.

A property that turns out false of the code stays in the list with its full statement; the refutation is proved with a
concrete witness (`…_refuted`) and the true part under the name `…_partial`. A status `partial` in MANIFEST.json therefore
nearly always means: the statement is false of the code, and what is true is proved exactly.

## Trusted base

* The Lean 4.33.0 kernel, and `lake`.
* Axioms: every theorem depends on at most `propext`, `Classical.choice`, `Quot.sound`. No axioms of our own, no `sorry`,
  no `native_decide`, no `bv_decide`. Mathlib is not imported.
* That the model says what /repo does (the citations are there to check this; `Verif/Tests` shows that the model passes the tests of
  /repo for routes, static files, forms, mappings, uploads and validation, and prints the output that README.md shows, byte for byte), and that the parts of the Go standard
  library that are modelled do what `Model/Str`, `Strconv`, `Header`, `Util`, `Cookie`, `Files`, `Url`, `Upload` say (see below).
* Quantities taken from outside are parameters, and the theorems hold for every value of them: the regular expression
  engine (`Regex`: compile and find sub matches), `http.DetectContentType`, which status codes `WriteHeader` rejects, the
  text of a panic, `http.Redirect`/`ServeFile`/`ServeContent`, the file system (`FS`), `strconv.ParseFloat`, `time.Parse…`,
  JSON and XML decoding (for C105 with the laws of `OneValue`), `mime.ParseMediaType`, the parts of a multipart body, the verdict of the validator library on one struct, `net.ParseIP` (but see `Model/IPv4`).

## What is modelled

| code | model | remarks |
|---|---|---|
| tree.go (all) | `Pattern`, `Tree`, `TreeHeap`, `Cost` | in `Tree` nodes are values, in `TreeHeap` they are in memory with their pointers (C109) |
| engine.go:22-50, 61-69, 84-132, 159-193 | `Engine`, `Router`, `Serve` | `Engine.log`, which is never called, is not |
| router.go, option.go | `Engine`, `Router`, `Classic`, `Slices`, `Process` | routers live in a heap; a program is a history of operations; in `Slices` with slices as windows on arrays (C110) |
| context.go (all) | `Context` | `Concurrent`: the same action by action; `Open`: with handlers that assign to the exported fields (C111); `Maps`: with `Environ` and `Params` as references to maps in memory (C116) |
| net/http `ServeContent` (go 1.15), called at m_static.go:108 and content.go:226 | `Content` | standard library; the claims about cached and partial files depend on it (C125, C126, C129, C135, C136, C145, C152, C153), elsewhere `ServeContent` is arbitrary |
| net/http `ServeContent` with several ranges and `multipart.Writer` (go 1.15), called at m_static.go:108 | `RangeParts` | standard library; the random boundary is a parameter; only `C153_parts` depends on it |
| response_advanced.go (all), with engine.go:99 | `Extended` | build tag `extended`; which writers have which methods is net/http at Go 1.15; `Flush` is a write of no bytes; `Hijack` and `CloseNotify` called by handlers are not modelled; only C155 and C156 depend on it |
| content.go:241-247 with `io.Copy` (Go 1.15) | `Stream` | with readers and connections that fail; only C157 depends on it, elsewhere `Prog.stream` |
| engine.go:28-31 with an `*Engine` | `Mount` | the outer handlers have not parsed the form; a form the mounted ones parse is not carried over |
| render.go (all) | `Render` | requests of a process come one after the other; only C158 depends on it, elsewhere `HTML` is the default render |
| net/http `Header.writeSubset`, `writeStatusLine` (go 1.15), reached from context.go:71-90 | `Wire` | standard library; fields that net/http adds or leaves out, the order of the lines and the reason phrase are parameters; only C154 depends on it |
| `time.ParseDuration` (Go 1.15), called at binding/mapping.go:352 | `Duration` | the `float64` arithmetic of fractions is a parameter; only C102 depends on it, elsewhere the oracle is arbitrary |
| `time.Parse` (Go 1.15) with the layout of RFC 3339, called at binding/mapping.go:486 and 435 | `Rfc3339` | the `Location` of the result is not; only C128 depends on it, elsewhere the oracle is arbitrary |
| dates of `http.ServeContent` (Go 1.15): `Time.Format(http.TimeFormat)`, `http.ParseTime`, called at m_static.go:108 | `HttpDate` | the two obsolete formats of `ParseTime` are a parameter; only C129 and C152 depend on it, elsewhere reading and writing dates is arbitrary |
| `http.DetectContentType` (Go 1.15), called at context.go:85 and by net/http | `Sniff` | only C130 depends on it, elsewhere the guess is arbitrary |
| `mime/multipart` `Reader.ReadForm`, `mime.ParseMediaType`, `textproto` headers (Go 1.15), called by `ParseMultipartForm` at content.go:336, binding/form.go:60, 74 and by `FormFile` at content.go:153 | `Multipart` | line by line with the buffer of 4096 bytes as Go peeks into it; RFC 2231 parameters, quoted-printable and temporary files are parameters; only C131 depends on it, elsewhere the parts of a body are arbitrary |
| content.go:153, 336 with their limits | `FormMemory` | the limit is not negative; only C132 depends on it |
| `net.ParseIP` (Go 1.15) for texts without colon, called by `Cookie.String` at cookie.go:109 | `IPv4` | `parseIPv4`, `dtoi`; the theorems of C54 and C123 with `ip` in their names depend on it, in the others it is a parameter |
| `url.Parse` (Go 1.15), called by `http.Redirect` at content.go:44, 49 and m_static.go:84 | `UrlParse` | only what `http.Redirect` asks: accepted, without scheme and host; only C133 depends on it, in C85 it is a parameter |
| `http.ServeFile` (Go 1.15), called by `ctx.File` (content.go:149) from m_static.go:88, 136 and by `ctx.ServeFile` (content.go:195) | `ServeFile` | `serveFile` whole, with `http.Dir`, `dirList`, `localRedirect`; what the operating system says (open, stat, why it failed, entries of a directory) is a parameter. In `Files` it is a parameter too (`Http.serveFile`); C134, `C49_index`, `C75_listed_refuted` set it to this model |
| Go's `regexp` (go 1.15), called at tree.go:123, 242, 283 | `Regexp` | standard library, the subset that its header lists; only C127 depends on it, elsewhere `Regex` is arbitrary |
| what content.go:271 calls (jsoniter as util.go:17 configures it) | `Json` | from memory; values are trees, see its header; only C138 and C139 depend on it |
| structs and JSON: what content.go:271 sends for them and what binding/json.go:27 does to them | `JsonBind` | jsoniter 1.1.10 from memory; the types and tags left out are in its header; only C139 depends on it |
| content.go | `Context`, `Util`, `Binding`, `Upload`, `Download`, `Body`, `FormFile`, `FormBind`, `BodyBind`, `Status`, `Name` | see below for what is not |
| params.go, query.go, environ.go, cookie.go:9-45 | `Values` | `Float64` accessors with `strconv.ParseFloat` as a parameter (C114) |
| cookie.go:18-20, 56-109 | `Cookie`, `Escape` | with `http.Cookie.String`, `readCookies` and `HTMLEscapeString` of Go 1.15 |
| what content.go:336, 340 call | `Url` | `ParseForm`, `ParseMultipartForm`, `ParseQuery`, `QueryUnescape` of Go 1.15 |
| m_recovery.go, m_cors.go, m_logger.go | `Context`, `Crash`, `Middleware`, `Log` | the texts of times are given; logx is some change of the world |
| m_static.go (all), util.go:112-120 | `Files` | file system and `http.Serve…` are parameters |
| what m_static.go:76, 84 and content.go:43-51 call | `Clean`, `Redirect` | `path.Clean` as its byte loop, `http.Redirect` (Go 1.15); `url.Parse` (but see C133) and `http.StatusText` are parameters |
| util.go:34-72, 97-105, 121-130 | `Util` | |
| router_print.go (all) | `Print` | texts of `fmt.Printf` |
| binding/binding.go, map_form.go, validator.go | `Binding` | reflection on a universe of types (below) |
| binding/json.go, xml.go | `BodyBind`; `JsonBind`, `Xml` | the decoders are parameters; `JsonBind` and `Xml` say what a tree does to a struct |
| binding/mapping.go, form.go, header.go, query.go, uri.go | `Mapping`, `HeaderBind`, `UriBind` | the older mapper (`Bind2`) |

Standard library code that is modelled, because properties depend on it: `strings` (split, index, trim, prefix, contains),
`strconv` (`ParseInt`, `ParseUint`, `ParseBool`, `Atoi`, `Itoa`), `path.Clean`, `filepath.Join`, `http.Header`, the
`ResponseWriter` (status line once, header frozen when sent), cookies, `url.PathEscape`, `url.ParseQuery` and `Request.ParseForm`, UTF-8 decoding in `range` loops,
`sort.Strings`, `sync.Pool` (a bag: `Get` returns any element or a new one, elements may vanish).

Simplifications:

* `strings.ToUpper/ToLower` map ASCII letters and the four other characters whose mapping is an ASCII letter (U+0130, U+0131, U+017F, U+212A); their results are only compared with ASCII texts.
* `int` and `uint` have 64 bits, and are one type with `int64` and `uint64`. The one place where the code tells them apart is an
  unexported embedded field in `Bind2`: an `int64` panics even for a text that is no number, the model follows `int` (an error).
* `reflect`: a type is a tree over bool, (u)int of every size, float, string, time, file header, struct names, pointers,
  slices, arrays, maps, others; struct names are looked up in an environment, so recursive types exist. Pointers in a target
  do not alias. The
  fields of `multipart.FileHeader` itself are not filled. Recursion over types has a bound (`fuel`); `C64`, `C73` show when
  it is enough, and all other theorems hold for every bound.
* What is left of a map when a panic interrupts the loop over it is not modelled.
* A handler is one thread; goroutines that outlive it and `runtime.Goexit` are not modelled, and assignments to the
  exported fields of the context only in `Open` (C111), which has the chain, `ServeHTTP`, `Recovery` and the calls on the context. Requests running at once are interleaved at the level of single calls on the context (`C78`), with
  sequentially consistent memory.
* In `Context` a read from a body returns all that is left or a prefix, without errors; `Body` has pieces and errors, and
  `C96_refines` relates the two.

Not modelled: `ListenAndServe…`, `engine.log` (never called), what `Recovery` writes to the log, `validate` translations.
`render.go` has the default render in `Context`, and other renders in `Render` (C158), where a render is code of the
application in the place of the call.

## Per property

| property | how stated and proved |
|---|---|
| C01–C05, C08–C10 | a language of patterns (`Spec`) independent of the tree; trie invariant over all insertions; refinement of `Match`. `Props/Slash` says what a further slash does to a path |
| C06, C07, C11 | the write log of the search; exact parameters without non-final regexps; every value in `Params` is captured by a registered route on the segments of the path (`Captures`, `C07_source`); refutations for regexp leaks |
| C12 | segment-wise translation; same tree from translated patterns |
| C13, C14 | the static map is refined by the tree; refutations for `//` and for two spellings of a pattern |
| C15–C21 | invariants over every history of router operations (`Reflects`); engine construction characterised by an iff |
| C22, C23 | complete case analysis of `ServeHTTP` |
| C24–C28 | induction over programs and nesting; traces accepted by a stack machine |
| C29–C33 | invariants of writer and context over every chain; refutations; the status the client gets after a panic, in every case (`C33_exact`) |
| C34, C35 | non-interference over an arbitrary recycled context; pool invariant over histories |
| C36–C43 | stores as histories; numbers by digit values; query accessors by lookup specifications |
| C44–C47 | middlewares as programs inside arbitrary chains; commutation of Logger with the chain |
| C48–C50 | path lemmas for `Clean`/`Join`; serving as a function of the file system; the static-route option changes no path without a literal route (C107); injectivity of tags |
| C51–C56 | list lemmas; round trips through a separate decoder or parser |
| C57–C65 | fates of fields by paths into types; induction over types; refutations |
| C66, C67 | option folding; printing as a function of the history |
| C68–C74 | the same field paths for the older mapper |
| C75 | where a path leads is a walk over its segments (`Spec.walk`); `Clean` and `Join` are shown to preserve it; refutation |
| C76 | a flat history is constructed and shown to build the same engine |
| C77 | simulation between two engine constructions that agree on one method |
| C78 | small-step semantics of a request (`Machine`), shown to agree with the big-step one; arbitrary interleavings on a shared store of contexts; replay invariant; termination by well-founded induction against every answer of the world; refutation |
| C79–C81 | a relation between strings and lists of pairs (`Spec.Query`), shown unambiguous and total on what the parser accepts; invariant over chains; exact condition for the panic; refutations |
| C82 | the search instrumented with a record (`Cost`), shown equal to the search; the record is a sublist of the preorder of the tree; the size of the tree by induction over the registrations |
| C83 | the chain of every route of every history after `Classic` is computed (C17); Logger around Recovery around an arbitrary rest; refutations |
| C84 | the loop keeps a buffer that stands for a stack of elements; normal form (`..`s, then names); a directory with a fresh name tells two normal forms apart |
| C85 | location by walks from the directory of the request (`Spec.dirOf`, `walk`); client and browser as separate decoders; refutations |
| C86, C87 | the order of precedence on the table is shown a strict total order (`Lemmas/Order`), so the best pattern is unique; appending to the table preserves the order; for registrations anywhere among the others (`Props/Insert`) induction on the table, the only change being a reversed tie; refutation |
| C88 | handlers as functions of what follows them, without index and list (`Spec/Compose`); induction on the chain and on the program of each handler that the index driver computes the same (`Lemmas/Compose`); refutation |
| C89 | C86, the bindings of C07 and C88 put together for `serve`; the fresh state is written out in `Spec/Compose`; with the static-route option through `static_lookup` of C13 |
| C90 | the client is `Spec.send` and `encodeForm`; induction on the depth of the struct type, each field by the exact description of C61; distinct names give every field its own values of the form |
| C91–C93 | a concrete Unix disk (names, files, descriptors) and an arbitrary `Luck` deciding what fails and how many bytes move; loop invariant of `io.Copy`: the target holds what was read so far. C91 is false for two situations, each refuted by a witness |
| C94 | `Download` as handler code with an arbitrary file system and arbitrary `ServeContent`; exact equations for every path |
| C95 | `accessText` is the format with `fmt`'s padding by characters; an independent reader `readEntry` written from the layout; false for fields that hold brackets or bars, refuted by witnesses |
| C96 | bodies read piece by piece under an arbitrary schedule, with failing connections; the loop of `ReadAll` by induction, its end by a measure; false behind Logger, refuted; refinement to the bodies of `Context` |
| C97 | the form state net/http keeps in the request, an invariant over all histories of calls; refines the one-shot parsing of `Context`; false for some methods and spellings, refuted |
| C98 | a client's encoding of structs for the older mapper (`Spec/RoundTripOld.lean`); induction over the depth of the type, for forms, query strings and headers; with C90, agreement of the two mappers |
| C99 | `Header.put/add/get/canonKey`; two names have the same canonical form iff equal or tokens equal up to case (tables of letters in `Spec/Text.lean`); induction over the calls on a header |
| C100 | `isWebsocket`, `isAjax`, `protocolOf` against spellings of words (`Spells`), including U+212A for k |
| C101 | `printRouterTree/printTreeNode/printSubs/printEnds` against rows read off the table of registrations (`Shown`, `RowBefore`, `Drawn`); induction over the built tree (`Built`) |
| C102 | `setKind` and `setProper` on `Ty.duration`, through the results on whole structs (C58, C72). `Model/Duration` is `time.ParseDuration`; that it reads exactly the texts of a grammar (`DurationOf`), as their sum, is `parseDuration_iff`, and a text of that grammar is a plain number only if it is a zero (C102_common) |
| C103 | `Forms.bind` (`Model/FormBind.lean`): `Bind` with the form decoders on the lazily parsed request of C97; invariant over histories of calls, and the round trip of C90 extended to files (`Uploadable`, `texts`, `uploads`) |
| C104 | `Refuses`, `Lasting` (`Spec/Guard`): two chains that agree up to the refusal are run in step, by induction on the distance to it (`run_ends`); the log of the writer only grows |
| C105 | `bindBodyF` (`Model/BodyBind.lean`) over the readers of C96; the decoder is a parameter with laws (`OneValue`); induction over the reads, against decoding at once (`decoded`) |
| C106 | the beginnings of patterns that are tried (`trail`) against the registrations (`Tried`, `TriedFirst` in `Spec/Params.lean`); the map is what the choice settles, else the last capture along the trail; mutual induction over the tree |
| C107 | the static map holds exactly the literal registrations under their own spelling (invariants over construction in both directions); a hit gives the end node of the pattern, anything else is the lookup without the map |
| C108 | `Spec/Reference.lean` defines a server on the list of registrations; simulation proof: every context in the pool carries parameters some earlier request left, and every request is a step of the reference server; uses C20, C86, C88, C106, C107. For requests in parallel (`Props/Concurrent2`): the replay of a request kept by C78 is a run alone in a world that gives the recorded answers, by simulation of the machine |
| C109 | `Model/TreeHeap.lean` has the nodes in memory with addresses for pointers; `Forest`, `IsAbove` (`Spec/Memory.lean`); refinement: a tree in memory represents a tree as a value (`Rep`), kept by every insertion with a frame for the other trees (`added_spec`); the static test is climbing the ancestors (`isStaticP_iff`) |
| C110 | `Model/Slices.lean` has slices as windows on arrays in memory, with `append`, `make`, `copy` and a growth policy as parameter; `callsOf`, `heapNow` (`Spec/Slices.lean`) read the slices of the caller only; simulation (`Sim`): slices of routers are in arrays of their own, those of endpoints in arrays of the caller; frame for chains (`Chain`) |
| C111 | `Model/Open.lean`: handlers (`OProg`) may assign to every exported field of the context; response writers are objects that may do anything; `Spec/Open.lean` has the conditions. The chain theorems by simulation with a closed chain whose world holds the open fields (`Lemmas/Open.lean`); `C111_closed` embeds the handlers of `Context.lean` and rests on the routing being parametric in the handlers (`Lemmas/Parametric.lean`); `C111_wrapper` is a logical relation |
| C112 | `Spec/Opaque.lean` relates programs that differ in handlers only (`SameCall`), and engines that dispatch alike; naturality of registration (`Lemmas/Opaque.lean`), of the trees and of the lookup (`Lemmas/Parametric.lean`) in the type of handlers |
| C113 | `Model/Escape.lean`: `HTMLEscape` as its loop with the index of the last byte written; `Spec/Escape.lean` says what a reader of HTML makes of a text (`Means`). Induction over the text; the values of cookies are free of NUL because `readCookies` only returns valid ones |
| C114 | `ParseFloat` is a parameter of the accessors in `Model/Values`; case analysis, with C41 (trimming), C54 (cookies) and C06 (paths) for the text |
| C115 | `Spec/Label.lean` says what net/http makes of the log of the response writer; from `C31_helpers_partial`; refutation with a guess that knows one beginning of a page |
| C116 | `Model/Maps.lean` has the maps in memory; a frame argument: every call commutes with changing a map that neither the context nor a variable in use refers to (`Props/Maps.lean`); lifted to requests and histories; `C116_refines` in `Props/MapsServe.lean` |
| C117 | `Model/Process` runs registration calls and `Handler` calls of a process over one heap of routers and one multipart limit. `Spec/Apps` picks the calls of one application out of a history and renumbers its routers. `Lemmas/Apps` runs both histories side by side: the routers of the application are the same up to their addresses. `C117_process_partial`: each engine is the one built from its own calls alone. The limit is shared: `C117_memory` says which engine decides it, `C117_memory_refuted` shows two applications. |
| C118 | `Model/Name` has the dynamic values of handlers and what `reflect` and `runtime.FuncForPC` make of them. The chain of a request is known from the registrations (C17) and is never empty, so the last value is; `C118_exact` goes through its kinds. |
| C119 | An application is a history of places, filled with handlers in two ways that differ behind the guard only (`Spec/Guarded`, on the relations of C112). Either the route is outside of the group and all its handlers are the same (C112), or its chain is cut at the guard (C17) and C104 says that the rest does not matter. Refuted for paths below the prefix: an overlapping route. |
| C120 | The machine of `Spec/History` reads the events one by one and only knows the number of handlers. Every trace is read by it (induction on the grammar of traces of `Lemmas/Chain`); everything it reads can be parsed back into that grammar (strong induction on the length), and for every derivation of the grammar handlers are built that produce it (induction; the positions a loop uses are between its indices, so the handlers of two parts never collide). |
| C121 | `Spec/Time`: the instant of a text by the tags of its field, on top of the conversions of C61 and C72 (`TimeOf` is functional, and defined exactly on the readable texts); for pointers to times the field is followed through `_mapForm` itself. Refuted for nil pointers about which nothing is said. |
| C122 | `Spec/Fetch`: the "CORS check" and the "CORS-preflight fetch" of the Fetch standard, with lists in headers as RFC 9110 has them. The two headers are followed through the chain behind CORS as an invariant; lists of tokens are read back from what `strings.Join` makes of them; the chain that answers is that of C17 or C22. Refuted for `Use` (no route for OPTIONS) and for a name behind `*`. |
| C123 | `Spec/Jar`: the user agent of RFC 6265 section 5 (parsing a Set-Cookie line, storing, retrieving), without public suffixes. A simulation: the lines that `SetCookie` writes are parsed back into the arguments, one call at a time, over all histories; then the jar of what the calls mean is ordered as the RFC says and read back by C54. `C123_last` and `C123_escaped` say what that comes to with default arguments. |
| C124 | `Spec/Link`: patterns as their authors write them, and links made from them with `url.PathEscape`. The pattern is read back as its parts (the segments of C01 and their kinds), the link as its filled parts; who serves it is C86, what the parameters hold C06. Exact for values without slash that are not empty; refuted for the others and for values taken by another pattern. |
| C125 | `Model/Content` is `http.ServeContent` of go 1.15 (conditions, ranges, headers), `Spec/Cache` a client that keeps the last response and asks with its tag and date. The answer of a whole application to a visit is computed (C48 and the router), then an invariant over visits: what is kept belongs to the version of the last visit. Exact for tags; for dates if time does not go back; refuted else, and for caches that insist on quotes. |
| C126 | `Spec/Resume` is a client that asks for the rest of a broken download with Range and If-Range. The answer of `Model/Content` to such requests is computed for each outcome (200, 206, 416) and put behind the static handler and `Prog.download`; then an invariant over visits: what the client has is a beginning of the file of the last visit, and its date is that of the file. False for files that change twice in a second and, with tags, never resumed: both refuted, with the exact outcome of a visit in `C126_exact`. |
| C127 | `Model/Regexp` has expressions as trees, how they are written, and the search for the leftmost match with Perl's preferences. `Spec/Regexp` says without an order of search what an expression can be read as (`Mat`); `mem_runs` is that the search finds exactly that. Then: the segment is read as its author wrote it, it is accepted iff there is a group for every name and a part that is described, it can be registered iff the parentheses are as many as the names or none; put into the application by C02 and C07. The parser of the subset is modelled too (`Re.read`), and it is the inverse of writing (`read_iff`), so there is one package `goRegex` that treats every expression so (C127_go). False: not anchored, dead without groups, name cut at a colon. |
| C128 | `Model/Rfc3339` is `time.Parse` with the default layout and the arithmetic of `time.Date`. `Spec/Rfc3339` counts days one by one from the year 0 (`DayNo`), and has the texts of RFC 3339, those that are read besides, and the grammar with small letters and leap seconds. `Lemmas/Calendar` proves that the arithmetic counts the days; `parse3339_iff` is that exactly `Reads3339` is read, as what it says. Put behind both mappers by C121. Refuted for leap seconds, small letters, fractions of ten digits, hours of one digit and impossible offsets. |
| C129 | `Model/HttpDate` is the arithmetic of `time.absDate`, the layout of HTTP written out, and `time.parse` with it. `Spec/HttpDate` has the text for a stamp, with the day of the week counted from 1970, and the texts that are read. `Lemmas/HttpFormat` proves that `absDate` inverts the counting of days; `parseImf_iff` that exactly `ReadsImf` is read. `std_plain` discharges the hypotheses on dates of C125 and C126; `C129_served_partial` and `C129_since_partial` are for the application. Refuted for the first moment of 1970, for years of five digits, and for wrong days of the week. |
| C130 | `Model/Sniff` is `http.DetectContentType` with all 52 signatures. `Spec/Sniff` has the beginnings of pages in any case, of XML documents, the printable beginnings of other kinds, and the grammar of JSON. `detect_page`, `detect_xml` and `detect_plain` are equivalences for all texts; `json_bytes` and `json_head` are inductions over the values of JSON. With C115 and the application of C125 they say what every response and file is shown as. Refuted for each of the four helpers. |
| C131 | `Spec/Multipart` writes the body that a browser sends; `Model/Multipart` reads it as `mime/multipart` does, and `stdMime` makes of it the reader that C97 and C103 leave open. `readForm_eq` (induction over the controls; over the bytes of each for the search of the boundary) says that the parts are those sent, for all bytes; `gather_all` what is kept of them. C97, C99 and C103 then say what `FormFile`, `Query`, `SaveUploadedFile` and `Bind` give. `C131_name` and `C131_filename` are equivalences over all names. Refuted for names with backslashes or quotes and empty file names. |
| C132 | `Model/FormMemory` runs the calls of C97 with the limit that each gives to `ParseMultipartForm`, and keeps the files that are read. `gather_counted` is an invariant of `ReadForm` over arbitrary parts, `after_within` one over arbitrary calls on arbitrary bodies. Refuted for `FormFile` first, for the 10 MiB on top, and for names. |
| C133 | `Spec/Address` has the grammar of references, and what a browser takes for another place. `local_iff` (both directions, over all texts) says that `Model/UrlParse` decides the grammar. With C85 a local address stays for a browser if no backslash or tab gets into the location; any other address is sent as given, and escaping does not change where it leads (`elsewhere_hexEscape`, induction). Refuted for backslashes and for tabs in fragments. |
| C134 | `single_runs` takes the request through the whole router to `serveFileStd`; its branches are then decided by `HasDotDot` and `NamesIndex` (`Spec/ServeFile`, stated with cuts of the path; `containsDotDot_iff`, `hasSuffix_index`), and the body of a file by C98 for `serveContent`. `C134_exact` is an iff; refuted by `StaticFile("/index.html", …)`. |
| C135 | two runs side by side: `HeadAlike` relates states that differ in bodies (and in parameters and routes), `Echoes` relates code that keeps them alike; shown for every call, for middleware (`MethodBlind`, by induction on its code) and for each function of net/http involved, then for chains (`run_echoes`, induction on the fuel of the run) and through the router with C48. |
| C136 | `Prog.viaCtx` is code of net/http with the context for its writer. `Via` says of code that it answers, and alike with both writers; shown for each function of net/http from the end backwards (before the status is sent both runs are in the same state), then put into one step of the chain. |
| C137 | `follow` is RFC 3986 (merging paths, removing dot segments, also encoded ones), `AttrReads` and `Means` are readers of HTML, `Elsewhere` is when a browser leaves the site. The escapes are shown byte by byte to keep what these look at apart; decoding splits at slashes. |
| C138 | `Denotes` is the grammar of RFC 8259 with what each text says, `Cleaned` is UTF-8 with U+FFFD for what is not, `Shows` what a Go value is in JSON. Induction over `Shows` for what is written; that a text says one thing is an induction over the grammar, with what may follow each part; `decodeRune` is shown to invert UTF-8. |
| C139 | `toG` is what the encoder sees of a typed value, `readJson` what a tree does to a variable. `ReadBack` (values that survive, over what the variable holds) is independent of both. Induction over `ReadBack` and, for the converse, over `ProperVal`; over the position in the struct for fields. With C138 (a text says one tree) and C105 (pieces) this gives the whole way from `JSON` to `Bind`. |
| C140 | `Model/Xml` has the encoder of encoding/xml (`xmlValue`, `xmlText`) and what an element does to a variable (`readXml`). `Spec/Xml` has a grammar of XML content (`XSays`), with references by name and by number, and `XmlBack`, the values that survive, with the number of elements that each takes. Induction over the text for uniqueness; over `XmlBack` and, for the converse, over `XmlVal`; a slice comes back if and only if it has as many elements in the text as values. |
| C141 | Joins `exec` of the first handler, `detectStd`, `newBindinger`, `parseMediaType` and `Forms.bind` of the second. What a document of XML is taken for follows from the grammar (`detect_doc`); that the body is not read, from a simulation: replacing the body commutes with every call (`over_bind`, `over_after`). |
| C142 | The text of the report (`crashReport`) is modelled, the stack is any list of files and lines. The log of the writer is computed for every downstream chain that panics (`crash_log`); the report begins with a text that matches no signature of `detectStd` but the one for fonts, whose magic is at byte 34 (`detect_report`). |
| C143 | `readHeader` is the header map net/http makes of lines. Two programs whose header tags differ in spelling are related field by field, and both mappers are shown to do the same on them (`respelled_map`, `respelled_mapping`: induction on the depth); values follow from C60, C62, C69 and C70. |
| C144 | `Spec/Proxy` says what a chain of proxies does to the header and the address of the connection. What can be known of the client is carried along the chain (`agrees_arrives`: induction over the proxies); the answer at the end follows from C52. The proxies are part of the statement, not of the code. |
| C145 | `routerStatic` is `Static`. The request is followed through the router (C48) to `http.ServeContent` in the model of net/http (C125); the place of the file is that of C75; the header that is sent is looked at name by name. |
| C146 | `Model/UriBind` is binding/uri.go. The parameters of the link are those of C124; a map with them has the values that C90 and C98 ask for (`params_values`). |
| C147 | The lines are written as `Header.Write` does (`Spec.wireHeader`) and read by `readMIMEHeader` (`Model/Multipart`, the reader of net/textproto); `serverHeader` is what net/http takes out afterwards. The header holds the texts under canonical names (`wire_read`, `addLines_at`), the names of both mappers are canonical (`send_canon`, `sendOld_canon`), and C90 and C98 give the struct. `C147_exact_partial` and `C147_exact2_partial` have no condition on the texts: the struct that comes back is `stripVal v`, and it is the same as `v` iff a header line can hold every text of it (`strip_send`, `same_send`). |
| C148 | `Spec/Vary` is the rule by which a cache may use a response again. Everything sent behind CORS names Origin in Vary (`cors_has`, an invariant of runs whose handlers only add to it), so that the two requests agree on what CORS looks at, and C122 applies to the first. |
| C149 | `Spec.mapPairs` writes the map as the comment of QueryMap shows it. The form of the request holds the pairs (C79), each entry is filed under its own key only (`sent_files`), and C42 gives the map; the converse is read off `C42_sources`. |
| C150 | `Spec/Disposition` is the grammar of RFC 6266 with RFC 5987 as relations between texts and values. The value that is sent has one reading at most (cutting at the separators, which the escaped name does not hold), and it has one iff the name has none of three characters that PathEscape keeps. |
| C151 | The lines are read back (`line_read`: the method is padded to seven, the number ends at the first bracket), so the routes are equal up to their handlers; `mkEngine_map` (C112) and `mkEngine_noFound` then give the same tree. The text is read back line by line if no pattern has a line feed; otherwise false, with a witness. |
| C152 | `Spec/Conditions.lean` has the grammar of the four fields as inductive predicates and section 6 of RFC 7232 as two predicates. `conditions_ruled` relates the scanner of http.ServeContent to them, by induction on the list of tags; the rest is carried through StaticAdvance and the router (C48) and through Attachment (C136). |
| C153 | `Spec/Ranges.lean` has the grammar of byte ranges as an inductive predicate, and which positions they mean. `parseRange_specs`: the parser of http.ServeContent finds these, by induction on the list; the runs of ServeContent are then carried through StaticAdvance and the router as for C126. `Model/RangeParts.lean` has the text of an answer with several ranges; `C153_parts` reads it back with the reader of C131. False in three cases, each a theorem. |
| C154 | `Model/Wire.lean` writes the head of an answer as net/http does; `Spec/Wire.lean` is a reader by the grammar of RFC 7230, as an inductive predicate that takes a line feed alone for the end of a line too. `headLines_unique`: there is just one reading. That the names in the header are names of fields is an invariant of runs (`named_call`); for each helper its calls keep it. |
| C155 | `Model/Extended.lean`: `ServeHTTP` with the type assertion of the build with the tag `extended`; the writer's methods are three booleans, for net/http's writers set by the version of HTTP. False for writers without `Hijack`; the exact condition is proved. |
| C156 | `Prog.flush` in `Model/Extended.lean`. That the log of the writer only grows (`log_grows`) makes "the code and the fields are settled" an invariant of whatever runs afterwards. False for a `Flush` before the answer has begun. |
| C157 | `Prog.streamFrom` (`Model/Stream.lean`): `io.Copy` turn by turn, with reads and writes that fail; `Spec/Stream.lean` says without a loop what a reader gives. Induction over the turns; that 200 stays is the invariant of C156. `C157_simple` ties it to `Prog.stream`. False for failures behind the first byte and for empty streams. |
| C158 | `Model/Render.lean`: a process as a history of `SetRender` calls and requests of several applications over the one variable `_render`; a render is any code. Stated as non-interference: the results of one application, in the process and alone. Induction over the history. False if two applications set a render. |
| C159 | Two lists of options with the same last option of each kind give the same result of `handler` and of `handlerMem`; exchanging neighbours and dropping an overridden option follow. |
| C160 | `Spec/Calls.lean`: which calls are accepted, read off what was made before. The heap of routers is determined by what was made and the middleware of each router (`run_reflects`, induction over histories); acceptance of a history by induction; middleware last and in pieces follow. |
| C161 | `Model/Mount.lean`: serving with the outer context as the response writer, both `WriteHeader` and both `Write` in full. Simulation with `serve` by induction over handler code and chain; an invariant of the log for the case that the outer application has answered. `Props/MountRecovery.lean`: the outer `Recovery` around it. |

## Behaviour of the code found on the way

Each is a theorem (`…_refuted` or the exact `…_partial`): a request for the last 0 bytes of a file is answered with 206 and a range that ends before it begins, and a range in an unknown unit is refused instead of ignored (C153); a client that sends a tag of StaticAdvance back in If-Match is refused though the file has not changed (C152); a pattern with a line feed can print the line of a route that does not exist (C151); the Content-Disposition of a file whose name has a colon, a sign of equality or an at sign is not of the grammar of RFC 6266 (C150); a map sent as `name[key]=value` loses white space around its values, and keys with a closing bracket are cut short (C149); a struct sent in header lines loses blanks at the ends of its texts, and a field with the header tag `Host` is never filled (C147); a client has any text it likes taken for its address by `RealIp` unless a proxy sets X-Real-IP, and direct clients of IPv6 get theirs in brackets (C144); `Bind2` of headers fills fields without a tag from the header that is named like the field, so that a client can set what was not meant for it (C143); in development the report of a crash is shown as a page if the handler had announced one, with whatever input of the visitor the panic value holds, and the panic value `HELP` makes it a font (C142); what `JSON` or `XML` sent, sent back under the type it came with, is never read by `Bind` (C141); `omitempty` in XML drops empty elements inside of a slice, and binding XML to a slice that has elements adds to them (C140); a pointer to a nil slice sent as JSON comes back nil, and binding JSON to a slice that has elements changes them instead of replacing them (C139); strings that are not UTF-8 change when sent as JSON, and names of fields are not escaped for pages (C138); in the list of a directory a name with an ampersand makes a link elsewhere, even to a script (C137); `StaticFile("/index.html", …)` never sends its file, the browser is sent to `./` (C134), and `/static///` lists the root directory of the machine (C75); `Found` of an address that stays on the site, like `/./\evil.example`, sends a browser elsewhere, and the fragment of an address is cleaned like a path (C133); `WithMaxMultipartMemory` does not hold for `FormFile` (C132); a control of a form whose name ends in a backslash is dropped without an error, names of files lose backslashes before specials, and a file with an empty name arrives as a text (C131); since helpers set the type too late, the XML of a type called `Title`, `Table` or `Body` is shown as a page, a page that begins with `<h2>` as text, and a JSON value with `LP` at byte 34 as a font (C130); a file of the first moment of 1970 is sent without a date and never answered 304, and `If-Modified-Since` with a wrong day of the week is taken (C129); a time `…T1:00:00Z` or `…+99:99` is accepted, a leap second and a small `z` are not, and a tenth of a nanosecond becomes one (C128); a regexp segment without groups, or with a parenthesis that makes no group, never matches, one without `^` and `$` matches as soon as a part does, and a colon in the expression ends the name (C127); failed regexp
branches leak parameters (C06, C07); `_` is not ignored for regexps (C11); of two final catch-alls the first gets one
segment and the last gets several (C04); `//` inside a path defeats a literal route and the static map (C05, C13); two
spellings of a pattern give the handlers of the first and the path of the last (C14); `Group(pattern, mw)` acts on the
parent (C19); content type set after the status line (C31), so that net/http guesses it from the body and a text sent with `String` can be shown as a page (C115); `File` bypasses `Written` (C30); an invalid code panics after
the response counts as written (C29, C33); `panic(nil)` reported as success (C33); a static hit shows the parameters of an
earlier request (C34); `ParseUint` saturates on malformed text (C37); `QueryMap` depends on the map order (C42); Logger cuts
bodies at 1 MiB (C46) and moves handlers behind a second `Next` (C47); the prefix with a slash is not served (C48);
directories are served from the operating system instead of the configured file system (C49); cookie values lose bytes
(C54), invalid names add an empty line (C55); small integers are truncated (C58); `false` does not clear (C59); a struct
that is named itself is filled from JSON, past the names of its fields (C60), a nil pointer to a time that is not named is made to point to the zero time (C121), embedded non-structs panic (C61); recursive types do not terminate (C64, C73); `Bind` refuses durations with a unit, `Bind2` those without (C102); validation
labels the wrong elements (C65); the multipart limit becomes 0 (C66); the drawn tree leaves out Before handlers (C67); `/static///`
lists the root directory of the operating system and `/static//` the working directory (C75); values of the URL precede those of a multipart body but follow those of an urlencoded
one (C80); a stray percent sign in the query string makes every accessor panic once (C81); Before and not-found handlers run outside of the Recovery and Logger of `Default()` (C83);
`Found` after `Abort` appends its link to the body; a directory with `?`, `#` or `%` in its name redirects elsewhere, and a relative redirect from a path whose first segment starts with a backslash sends browsers to another host (C85); a route that
does not accept a path can decide which of two later ones answers it (C87); a route keeps the slice of the caller (C110); Recovery panics itself if the writer was replaced by nil or by one that panics (C111). After a panic that a handler recovers from without answering, the
handlers after the one that panicked still run (C88); `SaveUploadedFile` over the upload's own temporary file destroys it
and returns nil, and an error of `Close` is not reported (C91); Trace-ID, X-Real-IP and logged bodies are written
unquoted, so clients can forge log lines (C95); Logger throws away the error of a broken connection, so that handlers take the
beginning of a JSON body for a complete one (C96); in a DELETE request with a multipart form `Query` sees the values only
after `FormFile` was called (C97), and `Bind` finds no file in them (C103); a handler that calls
`Next` twice, or recovers without a response from a guard that panics, runs handlers behind that guard (C104);
`Bind` does not look at what follows a JSON value, and behind Logger a second `Bind` decodes from the middle of the text (C105); CORS given with `Use`, or with `Before` and no NoFound option, never sees the
OPTIONS request by which a browser asks, and a name behind `*` in its list is of no use with cookies (C122); a link to `/shop/<id>` for an id with a slash in it is not found even if the slash is escaped (C124); tags of static files have no quotes, so that they are no entity tags, and without tags a file that is replaced by an older one stays 304 (C125); for the same reason a broken download of a file with a tag always begins again, and without tags one that is rewritten in the same second is put together with its old bytes (C126).

## Wrong programs

`seeded/LOG.jsonl` has one line per edit of the model made in a scratch copy: definition, edit, the claim it breaks, the
theorems that no longer prove (directly or through lemmas), and theorems added or tightened because of it.
For some lines the claim was corrected after the run, where the one written down before is not false of the edited program: m043, m354, m359, m479,
m643, m657, m664, m674, m677, m686 among others. m676 is left as first written, though C107, which is about applications with the option, holds of it. Where
a "mutual lemma" is named, the theorems that depend on it were not computed. For m926 they were, by hand in the same way.
