{"id": "C01", "title": "Dispatch is sound", "statement": "If a request runs a registered route's handler chain, then some route registered for exactly that HTTP method accepts the request path: the path (one leading and one trailing '/' removed) splits on '/' into segments, each accepted by the corresponding pattern segment (a literal equals it, a regexp finds a match in it with as many groups as names, <name> and * accept anything), and a final '*' segment may absorb several segments.", "quantifier": "all route tables, all regexp engines, all methods and request paths", "why_tests_cant": "the space of route tables and paths is infinite and the matcher backtracks", "anchors": ["tree.go: node.Match, matchNextSegment, matchEndNode, matchSubNode", "tree.go: node.add, addNextSegment, addEndNode, addSubNode", "engine.go: buildTree, ServeHTTP"]}
{"id": "C02", "title": "Dispatch is complete", "statement": "If at least one route registered for the request's method accepts the request path, the request is dispatched to some registered route: it never falls through to 404 or to the not-found handlers, whatever other routes exist and in whatever order they were registered.", "quantifier": "all route tables, registration orders, regexp engines and paths", "why_tests_cant": "a missed backtracking case shows up only for particular combinations of routes", "anchors": ["tree.go: matchSubNode, matchEndNode", "engine.go: ServeHTTP"]}
{"id": "C03", "title": "Precedence between kinds of segment", "statement": "Among the routes that accept a path, the chosen one is never beaten at the first segment where it differs from another accepting route: there its segment kind comes no later in the order literal < regexp < <name> < '*'; and a route whose final '*' absorbs two or more segments is chosen only over routes that differ in an equally weak way, never over a route that descends further.", "quantifier": "all route tables, registration orders, pairs of accepting routes and paths", "why_tests_cant": "quantifies over all competing routes and registration orders", "anchors": ["tree.go: addEndNode, addSubNode (ordering by typ)", "tree.go: matchSubNode, matchEndNode"]}
{"id": "C04", "title": "Ties are broken by registration order", "statement": "When two accepting routes first differ in segments of the same kind, the one whose segment was registered first is chosen ('add same type route match order use add order').", "quantifier": "all route tables and paths", "why_tests_cant": "depends on every registration history", "anchors": ["tree.go: addEndNode, addSubNode", "tree.go: matchSubNode (last end node is used for multi-segment '*')"]}
{"id": "C05", "title": "A literal route always wins for its own path", "statement": "If every segment of a registered route is a literal (and it has no empty inner segment), a request for exactly that path with that method runs that route's chain, whatever other routes are registered before or after it.", "quantifier": "all route tables containing the route, all orders", "why_tests_cant": "any other route could shadow it; there are infinitely many", "anchors": ["tree.go: addEndNode, addSubNode, matchSubNode, matchEndNode"]}
{"id": "C06", "title": "Route parameters have the values found in the path", "statement": "When a route is chosen, each of its named segments is bound in the request's Params to the text it matched (a <name> to its segment, a regexp name to its group, a final *name or the anonymous '*k' to the remaining path), provided the names in the route are distinct.", "quantifier": "all route tables, chosen routes and paths", "why_tests_cant": "failed branches of the search write into the same Params map", "anchors": ["tree.go: matchSubNode, matchEndNode", "params.go: Params"]}
{"id": "C07", "title": "Params hold nothing but the chosen route's parameters", "statement": "The Params seen by the handlers contain no name that the chosen route does not declare.", "quantifier": "all route tables and paths", "why_tests_cant": "leaks come only from failed branches taken for particular tables and paths", "anchors": ["tree.go: matchSubNode (regexp case writes before recursing)"]}
{"id": "C08", "title": "Trailing slash is insignificant", "statement": "A path and the same path with one '/' appended are dispatched to the same route with the same Params.", "quantifier": "all route tables and all paths not already ending in '/'", "why_tests_cant": "infinite paths", "anchors": ["tree.go: node.Match"]}
{"id": "C09", "title": "Which paths are served does not depend on registration order", "statement": "Permuting the registration order of routes (when both orders are accepted) never changes which (method, path) pairs reach some route and which are not found.", "quantifier": "all permutations of all route tables, all paths", "why_tests_cant": "factorially many orders", "anchors": ["tree.go: add*, match*", "engine.go: buildTree"]}
{"id": "C10", "title": "Catch-all captures the remainder", "statement": "A route '/p1/../pk/*' with literal p's is accepted for every path below the prefix, at any depth, and when it is chosen and no other '*' precedes it the value of Params[\"*0\"] is exactly the remaining path text.", "quantifier": "all prefixes, all remainders of any depth", "why_tests_cant": "unbounded depth", "anchors": ["tree.go: matchSubNode, matchEndNode", "m_static.go: StaticAdvance"]}
{"id": "C11", "title": "The ignore name '_' records nothing", "statement": "A segment named '_' (<_>, *_ or <_ ~ re>) matches like any other of its kind but adds no entry to Params.", "quantifier": "all route tables and paths", "why_tests_cant": "all tables and paths", "anchors": ["tree.go: matchSubNode, matchEndNode"]}
{"id": "C12", "title": "Gin-style patterns mean the same as native ones", "statement": "Writing ':name' for a whole segment is equivalent to writing '<name>': rewriting is a segment-wise translation that leaves every other segment untouched, is idempotent, and yields the same routing tree.", "quantifier": "all route patterns", "why_tests_cant": "infinite patterns", "anchors": ["router.go: _VariantUri", "engine.go: buildTree"]}
{"id": "C13", "title": "The static-route fast path is transparent", "statement": "Enabling WithStaticRouter never changes which route's handlers run nor the FullPath reported, for any request.", "quantifier": "all route tables and requests", "why_tests_cant": "needs agreement of two lookup structures on all tables and paths", "anchors": ["engine.go: ServeHTTP, buildTree, isStaticRoute", "option.go: WithStaticRouter"]}
{"id": "C14", "title": "FullPath names the route whose handlers run", "statement": "While a handler runs for a matched request, FullPath() is the registered pattern of the very registration whose handlers are running.", "quantifier": "all route tables and requests", "why_tests_cant": "requires two different pattern spellings to collide", "anchors": ["content.go: FullPath", "tree.go: addEndNode (keeps first handlers)", "engine.go: buildTree (overwrites matchNode)"]}
{"id": "C15", "title": "Double registration is always rejected", "statement": "Building the engine panics if and only-if-for-this-reason two registrations have the same method and the same full path, no matter which groups they were made through; distinct (method, path) pairs are never rejected as doubles.", "quantifier": "all registration histories", "why_tests_cant": "all nestings and orders", "anchors": ["router.go: routeStore.add, dumpRoute, getRoute"]}
{"id": "C16", "title": "Engine construction fails exactly on the documented defects", "statement": "Router.Handler panics exactly when: some endpoint or empty group ends up with no handler at all, a handler value has an unsupported type, two endpoints share method and path, a path is not '/' and does not start with '/' or ends with '/', or a path segment is a malformed pattern. Otherwise it returns an engine.", "quantifier": "all registration histories and options", "why_tests_cant": "all histories", "anchors": ["router.go: Handler, dumpRoute, getRoute", "tree.go: analyzePattern", "engine.go: newHandler"]}
{"id": "C17", "title": "Handler chain order", "statement": "The chain run for an endpoint is: the root's Before handlers, then the root's Use handlers, then the Use handlers of each enclosing group from outermost to innermost, then the endpoint's own handlers, each list in the order given.", "quantifier": "all nestings of groups and all registration histories", "why_tests_cant": "unbounded nesting and interleavings of Use/GET/Group", "anchors": ["router.go: getRoute, Use, Before, Group"]}
{"id": "C18", "title": "Late Use still applies", "statement": "A handler added with Use to a router before Handler() is called is part of the chain of every endpoint below that router, even those registered earlier.", "quantifier": "all registration histories", "why_tests_cant": "all interleavings", "anchors": ["router.go: Use, getRoute"]}
{"id": "C19", "title": "Group middleware stays inside the group", "statement": "A middleware passed to Group(pattern, mw) runs only for endpoints of that group.", "quantifier": "all registration histories", "why_tests_cant": "all histories", "anchors": ["router.go: Group"]}
{"id": "C20", "title": "Every registration becomes exactly one endpoint", "statement": "If engine construction succeeds, the engine's endpoints are exactly the GET/POST/.../ANY registrations made, each once, with full path equal to the concatenation of the (space-trimmed) group patterns from root to endpoint followed by the endpoint's pattern, in depth-first registration order.", "quantifier": "all registration histories", "why_tests_cant": "unbounded nesting", "anchors": ["router.go: handle, ANY, dumpRoute, getRoute", "util.go: reverseStrings"]}
{"id": "C21", "title": "ANY covers every method not excluded", "statement": "ANY registers the pattern for each supported method that is not in MethodAnyExclude, exactly once each, and for no other method; the excluded list may be changed by the user.", "quantifier": "all values of MethodAnyExclude", "why_tests_cant": "all exclusion lists", "anchors": ["router.go: ANY, MethodAnyExclude, _HTTP_METHODS_NAMES, MethodIndex"]}
{"id": "C22", "title": "Not-found handlers and plain 404", "statement": "For a supported request that no route accepts: if not-found handlers were configured they run, preceded by the root's Before handlers and by nothing else; otherwise the response is a bare 404 and no user code runs.", "quantifier": "all engines and requests", "why_tests_cant": "all engines and paths", "anchors": ["engine.go: ServeHTTP", "router.go: Handler", "option.go: WithNoFoundHandlers"]}
{"id": "C23", "title": "Request gate", "statement": "A request below HTTP/1.1, with request-URI '*' or method CONNECT gets 406; otherwise one whose method is not one of the seven supported gets 405; in both cases no user code runs and no pooled context is taken.", "quantifier": "all requests", "why_tests_cant": "all methods/URIs", "anchors": ["engine.go: ServeHTTP", "router.go: MethodIndex"]}
{"id": "C24", "title": "Each handler starts at most once, in order", "statement": "During one request the handlers of the chain start in strictly increasing position: none starts twice and none starts before an earlier one, however often and wherever handlers call Next.", "quantifier": "all chains of arbitrary handlers, including ones that call Next repeatedly, panic or recover", "why_tests_cant": "arbitrary handler programs", "anchors": ["context.go: Next, run"]}
{"id": "C25", "title": "No handler is skipped", "statement": "If every handler calls Next at most once, the handlers that start are a prefix 0,1,..,k-1 of the chain; if moreover nothing is written and nobody panics, all of them start.", "quantifier": "all chains of handlers calling Next at most once", "why_tests_cant": "arbitrary handler programs", "anchors": ["context.go: Next, run"]}
{"id": "C26", "title": "A written response stops the chain", "statement": "Once a handler returns with a response written, no further handler starts unless a handler still running explicitly calls Next.", "quantifier": "all chains", "why_tests_cant": "arbitrary handler programs", "anchors": ["context.go: run, WriteHeader, Write"]}
{"id": "C27", "title": "Handlers nest like an onion", "statement": "Everything downstream of a Next call happens entirely inside that call: handler start/finish events are properly nested and each started handler finishes (by return or panic) exactly once.", "quantifier": "all chains", "why_tests_cant": "arbitrary handler programs", "anchors": ["context.go: Next, run"]}
{"id": "C28", "title": "The chain driver always terminates", "statement": "Whenever every handler is a terminating program, serving the request terminates: the driver starts at most as many handlers as the chain has.", "quantifier": "all chains", "why_tests_cant": "arbitrary handler programs", "anchors": ["context.go: Next, run"]}
{"id": "C29", "title": "At most one status line is sent through the Context", "statement": "Through Context methods at most one WriteHeader reaches the underlying response writer per request; Status() is then the code that was sent and Written() is true; further WriteHeader calls change nothing. A Write without prior WriteHeader sends 200.", "quantifier": "all sequences of Context calls, all chains that do not bypass the Context", "why_tests_cant": "all call sequences", "anchors": ["context.go: WriteHeader, Write, Written, Status"]}
{"id": "C30", "title": "Written() tells whether a response was started", "statement": "After any handler activity, Written() is true exactly when a response header has been handed to the underlying writer.", "quantifier": "all chains, including ones that use File", "why_tests_cant": "arbitrary handler programs", "anchors": ["context.go: Written", "content.go: File (uses ctx.ResponseWriter)"]}
{"id": "C31", "title": "Rendering helpers send their Content-Type", "statement": "ctx.String/Data/HTMLRaw/JSON/XML/HTML send a response whose Content-Type header is the one the helper names.", "quantifier": "all contexts, codes and payloads", "why_tests_cant": "all header states", "anchors": ["content.go: String, Data, HTMLRaw, JSON, XML", "render.go: HTMLSet"]}
{"id": "C32", "title": "Recovery contains every panic and completes the response", "statement": "With Recovery in the chain no panic raised downstream escapes it, and when it finishes a response has been started through the Context: with status 500 if something downstream panicked before writing, 200 if nothing was written and nothing panicked.", "quantifier": "all chains downstream of Recovery", "why_tests_cant": "arbitrary panics at arbitrary points", "anchors": ["m_recovery.go: Recovery"]}
{"id": "C33", "title": "A crashed request is never reported as success", "statement": "If a downstream handler panics before any response was sent, the client receives a 5xx status when Recovery is installed.", "quantifier": "all chains", "why_tests_cant": "arbitrary panics, including panics inside WriteHeader", "anchors": ["m_recovery.go: Recovery", "context.go: WriteHeader"]}
{"id": "C34", "title": "Requests do not see each other through the context pool", "statement": "The response to a request and everything its handlers can observe is independent of which recycled Context object serves it, i.e. of all earlier requests.", "quantifier": "all engines, requests and previous contents of the pooled context", "why_tests_cant": "depends on the whole request history and the pool's choice", "anchors": ["engine.go: ServeHTTP", "context.go: reset"]}
{"id": "C35", "title": "Concurrent requests never share a Context", "statement": "At every moment of every interleaving of requests, no two requests in progress use the same Context object, and none in progress is in the pool.", "quantifier": "all interleavings of begin/finish/panic steps", "why_tests_cant": "all schedules", "anchors": ["engine.go: ServeHTTP (ctxPool Get/Put)"]}
{"id": "C36", "title": "Environ is a write-once store", "statement": "Set on a new name succeeds and every later Get/GetMaybe/Has of the name sees exactly that value; Set on an existing name panics and changes nothing; Get of a missing name panics; typed getters panic exactly when the name is missing or holds another type. Every request starts with an empty store.", "quantifier": "all sequences of Environ operations", "why_tests_cant": "all op sequences", "anchors": ["environ.go", "engine.go: ServeHTTP"]}
{"id": "C37", "title": "Integer accessors are exact or saturate", "statement": "MustInt64/MustInt/MustUint64/MustUint (and the Query/Cookie equivalents) return the decimal value when it fits, the nearest bound when it is a well-formed number out of range, and 0 for anything else.", "quantifier": "all strings", "why_tests_cant": "infinite strings", "anchors": ["params.go: MustInt, MustInt64, MustUint, MustUint64", "query.go: QueryInt...", "cookie.go: CookieInt..."]}
{"id": "C38", "title": "Integer round trip", "statement": "Every int64 (uint64) written in decimal into a path segment, query value or cookie is read back unchanged.", "quantifier": "all 2^64 values", "why_tests_cant": "2^64 values", "anchors": ["params.go", "query.go", "cookie.go"]}
{"id": "C39", "title": "Boolean accessors accept exactly the documented spellings", "statement": "Bool accessors return true exactly for 1,t,T,true,TRUE,True; Params.Bool reports an error exactly for strings that are neither these nor 0,f,F,false,FALSE,False.", "quantifier": "all strings", "why_tests_cant": "infinite strings", "anchors": ["params.go: Bool, MustBool", "query.go: QueryBool", "cookie.go: CookieBool"]}
{"id": "C40", "title": "Missing route parameter is a panic, never a silent empty value", "statement": "Param(name) returns the stored value if the name is bound and panics otherwise; the Must* accessors never hide a missing name as zero.", "quantifier": "all Params and names", "why_tests_cant": "all maps", "anchors": ["params.go"]}
{"id": "C41", "title": "Query and DefaultQuery", "statement": "Query returns the first form value of the name with surrounding white space removed, or the empty string if there is none; DefaultQuery differs only in returning the default, untouched, exactly when the name has no value; array variants return all values trimmed in order.", "quantifier": "all forms, names and defaults", "why_tests_cant": "all forms", "anchors": ["query.go: Query, DefaultQuery, QueryArray, DefaultQueryArray"]}
{"id": "C42", "title": "QueryMap collects name[key]=value entries", "statement": "QueryMap(name) has an entry key -> trimmed first value exactly for the form names of shape name[key]..., with non-empty name and key and no '[' in name or ']' in key; the result does not depend on map iteration order.", "quantifier": "all forms and all iteration orders", "why_tests_cant": "Go's map order is random", "anchors": ["query.go: QueryMap, DefaultQueryMap"]}
{"id": "C43", "title": "The form is parsed at most once per request", "statement": "However many Query*/Bind calls a request makes, the body is parsed at most once, as multipart exactly for POST/PUT/PATCH with a multipart/form-data content type, as a plain form otherwise, and again for the next request on the same Context.", "quantifier": "all call sequences", "why_tests_cant": "all call sequences and requests", "anchors": ["content.go: ParseFormOrMultipartForm", "context.go: reset"]}
{"id": "C44", "title": "CORS allows only configured origins", "statement": "Access-Control-Allow-Origin in a CORS response is '*' only if '*' is configured, otherwise the request's own Origin if that is configured, otherwise empty; the first matching entry of the list decides.", "quantifier": "all configurations and requests", "why_tests_cant": "all configs/origins", "anchors": ["m_cors.go: CORS"]}
{"id": "C45", "title": "CORS preflight is answered without running later handlers", "statement": "For an OPTIONS request the CORS middleware answers 204 with the configured methods, headers (or the requested ones if none configured), credentials flag and max-age, and no later handler starts; for any other method it sets its headers before any later handler and passes control on exactly once.", "quantifier": "all configurations, requests and downstream chains", "why_tests_cant": "arbitrary downstream chains", "anchors": ["m_cors.go: CORS"]}
{"id": "C46", "title": "Logger is transparent for the request body", "statement": "Handlers after Logger read the same request body as without it.", "quantifier": "all bodies and content types", "why_tests_cant": "unbounded bodies", "anchors": ["m_logger.go: Logger"]}
{"id": "C47", "title": "Logger does not disturb the chain", "statement": "Inserting Logger in a chain (whether logging is closed or not) changes neither the response nor which of the other handlers start.", "quantifier": "all downstream chains not calling Next upstream", "why_tests_cant": "arbitrary chains", "anchors": ["m_logger.go: Logger", "context.go: Next, run"]}
{"id": "C48", "title": "Static serving registers GET and HEAD below the normalised prefix", "statement": "Static/StaticAdvance with any prefix (leading '/' optional, trailing '/'s ignored) serves GET and HEAD for every path below the prefix, opening the file named by the rest of the path.", "quantifier": "all prefixes and paths", "why_tests_cant": "infinite prefixes/paths", "anchors": ["m_static.go: StaticAdvance, Static"]}
{"id": "C49", "title": "Static only serves from the configured file system", "statement": "Every byte served by a StaticAdvance route comes from the configured FileSystem.", "quantifier": "all file systems, options and requests", "why_tests_cant": "all file trees", "anchors": ["m_static.go: StaticAdvance (directory branch)", "content.go: File"]}
{"id": "C50", "title": "ETags identify the file version", "statement": "Two (mtime in seconds, size[, name]) descriptions yield the same ETag only if they are equal; hence a 304 is sent only when the client's tag was generated from the same description.", "quantifier": "all times, sizes and names", "why_tests_cant": "unbounded integers and names", "anchors": ["util.go: GenerateETag, GenerateETag2", "m_static.go: StaticAdvance"]}
{"id": "C51", "title": "Content-Disposition cannot be broken by the file name", "statement": "For every file name, the header value produced for Download/Attachment contains no control character, no white space from the name, and no double quote other than the two that delimit the name, and the name can be recovered from it.", "quantifier": "all file names", "why_tests_cant": "infinite names", "anchors": ["util.go: contentDisposition", "content.go: Download, Attachment"]}
{"id": "C52", "title": "Real client IP selection", "statement": "RealIp is the X-Real-IP header if non-empty, else the first X-Forwarded-For entry if non-empty, else the remote address without its port; Proxy returns the X-Forwarded-For list and joining it with ', ' gives back the header.", "quantifier": "all requests", "why_tests_cant": "all header values", "anchors": ["util.go: requestRealIp, requestProxy", "content.go: RealIp, Proxy"]}
{"id": "C53", "title": "Content type without parameters", "statement": "ContentType() is the longest prefix of the Content-Type header containing neither a space nor ';'.", "quantifier": "all header values", "why_tests_cant": "infinite strings", "anchors": ["util.go: filterFlags", "content.go: ContentType"]}
{"id": "C54", "title": "SetCookie maps its optional arguments positionally", "statement": "SetCookie emits exactly one Set-Cookie line with the given name and value, MaxAge from the first extra argument if it is an int/int32/int64 (else 0), Path from the second if it is a non-empty string (else '/'), Domain, Secure, HttpOnly and SameSite from the following ones; ill-typed extras never change another attribute.", "quantifier": "all argument lists", "why_tests_cant": "all dynamic types", "anchors": ["cookie.go: SetCookie"]}
{"id": "C55", "title": "Invalid cookies are dropped", "statement": "SetCookie with a name that cannot be encoded adds no Set-Cookie header.", "quantifier": "all names", "why_tests_cant": "all names", "anchors": ["cookie.go: SetCookie"]}
{"id": "C56", "title": "Address resolution", "statement": "Run() listens on ':8080' without argument, on the given address with one, and panics with more.", "quantifier": "all argument lists", "why_tests_cant": "all lists", "anchors": ["util.go: resolveAddress"]}
{"id": "C57", "title": "Binding selection", "statement": "Bind decodes GET requests as a form; POST/PUT/PATCH with multipart/form-data as multipart; otherwise JSON or XML according to the content type, and as a form in every other case.", "quantifier": "all methods and content types", "why_tests_cant": "infinite strings", "anchors": ["binding/binding.go: NewBindinger", "content.go: Bind"]}
{"id": "C58", "title": "Form binding stores the submitted number or reports an error", "statement": "After a successful Bind of a form into an integer field, the field holds exactly the submitted decimal number; a number that does not fit the field's type is reported as an error.", "quantifier": "all integer field widths and strings", "why_tests_cant": "all widths and strings", "anchors": ["binding/map_form.go: setWithProperType2", "binding/mapping.go: setIntField, setUintField"]}
{"id": "C59", "title": "Form binding stores the submitted boolean", "statement": "After a successful Bind of a form into a bool field whose name was submitted, the field holds the submitted boolean, whatever it held before.", "quantifier": "all strings and previous values", "why_tests_cant": "all strings", "anchors": ["binding/map_form.go: setWithProperType2"]}
{"id": "C60", "title": "Fields not named in the form keep their value", "statement": "Binding changes a scalar or slice field only if the field is exported, has a tag name other than '-', and the form has that name or the tag carries a default; the default is used only when the name is absent.", "quantifier": "all struct types, values, and forms", "why_tests_cant": "all struct shapes", "anchors": ["binding/map_form.go: _mapForm, tryToSetValue2, parseFormName"]}
{"id": "C61", "title": "Binding reports the first bad field", "statement": "Binding returns an error if and only if some field cannot be set, fields are processed in declaration order, and fields after the first bad one are untouched.", "quantifier": "all struct types and forms", "why_tests_cant": "all struct shapes", "anchors": ["binding/map_form.go: _mapForm"]}
{"id": "C62", "title": "Slice fields receive all values in order", "statement": "A slice field named in the form with n>0 values ends up with exactly n elements, the i-th being the i-th value converted.", "quantifier": "all element types and value lists", "why_tests_cant": "unbounded lists", "anchors": ["binding/map_form.go: tryToSetValue2"]}
{"id": "C63", "title": "Map targets", "statement": "Binding into *map[string][]string copies every form entry and keeps other entries; into *map[string]string stores the last value of every name; a nil map is allocated first; the result does not depend on map iteration order.", "quantifier": "all forms, previous maps and iteration orders", "why_tests_cant": "random iteration order", "anchors": ["binding/mapping.go: setFormMap2", "binding/map_form.go: MapForm"]}
{"id": "C64", "title": "Binding terminates on every struct type", "statement": "Binding a form into any struct pointer terminates.", "quantifier": "all struct types, including self-referential ones", "why_tests_cant": "non-termination cannot be tested", "anchors": ["binding/map_form.go: _mapForm"]}
{"id": "C65", "title": "Slice validation accepts exactly all-valid slices", "statement": "Validating a slice succeeds iff every element is valid, and otherwise the error lists one entry per invalid element, labelled with the element's index.", "quantifier": "all slices and nested slices", "why_tests_cant": "unbounded slices", "anchors": ["binding/validator.go: ValidateStruct, sliceValidateError.Error"]}
{"id": "C66", "title": "The multipart memory limit defaults to 32 MB", "statement": "Unless WithMaxMultipartMemory is given, form parsing uses a 32 MB in-memory limit; when given, that limit is used.", "quantifier": "all option lists and sequences of engine constructions", "why_tests_cant": "global state across engine constructions", "anchors": ["router.go: Handler", "content.go: defaultMultipartMemory", "binding/form.go: SetMultipartMemory"]}
{"id": "C67", "title": "Printed handler counts are the real chain lengths", "statement": "The handler count shown for an endpoint by PrintRawRouter, PrintRawRoutes, PrintRawAllRoutes equals the length of the chain run for it.", "quantifier": "all registration histories", "why_tests_cant": "all nestings", "anchors": ["router_print.go"]}
{"id": "C68", "title": "Bind2 stores integers exactly", "statement": "After a successful Bind2 every integer field named in the source, at any depth and behind any pointers, holds exactly the number written in its first text, and that number fits the field's type; a number that does not fit makes Bind2 fail.", "quantifier": "all struct types, sizes, values, forms, headers and queries", "why_tests_cant": "all struct shapes and strings", "anchors": ["binding/mapping.go: setIntField, setUintField, mapping"]}
{"id": "C69", "title": "Bind2 stores the submitted boolean and string", "statement": "After a successful Bind2 every bool field named in the source holds the submitted boolean and every string field the first text, whatever they held before.", "quantifier": "all struct types, values and sources", "why_tests_cant": "all struct shapes and strings", "anchors": ["binding/mapping.go: setBoolField, setWithProperType"]}
{"id": "C70", "title": "Bind2 leaves alone what is not named", "statement": "Whatever the outcome of Bind2, a non-struct field without text, file and default keeps its value, so do unexported fields and those tagged '-', and a nil pointer stays nil if nothing is said about it or anything behind it.", "quantifier": "all struct types, values, sources and outcomes", "why_tests_cant": "all struct shapes", "anchors": ["binding/mapping.go: mapping, tryToSetValue"]}
{"id": "C71", "title": "Bind2 fills slices and arrays element by element", "statement": "A slice field gets exactly one element per text, in order; an array field is set only by exactly as many texts as it has elements; uploaded files fill file fields, slices and arrays of files the same way.", "quantifier": "all element types and lists", "why_tests_cant": "unbounded lists", "anchors": ["binding/mapping.go: setSlice, setArray, setByMultipartFormFile, setArrayOfMultipartFormFiles"]}
{"id": "C72", "title": "Bind2 reports the first bad field", "statement": "Bind2 succeeds only if every field it comes to holds what was said about it; if mapping fails there is a first field that cannot take it, fields before it can and fields after it are untouched; it panics only at an unexported embedded field that is a pointer or no struct; the validator's verdict does not change the value.", "quantifier": "all struct types, values and sources", "why_tests_cant": "all struct shapes", "anchors": ["binding/mapping.go: mapping"]}
{"id": "C73", "title": "Bind2 terminates on every struct type", "statement": "Bind2 into any struct pointer terminates.", "quantifier": "all struct types, including self-referential ones", "why_tests_cant": "non-termination cannot be tested", "anchors": ["binding/mapping.go: mapping"]}
{"id": "C74", "title": "Bind2 into maps", "statement": "Bind2 into a made map[string][]string (map[string]string) stores all values (the last value) of every name and keeps other entries, in every iteration order; a nil map panics on any non-empty form.", "quantifier": "all forms, previous maps and iteration orders", "why_tests_cant": "random iteration order", "anchors": ["binding/mapping.go: mapFormByTag, setFormMap"]}
{"id": "C75", "title": "A static route serves nothing outside its directory", "statement": "What a route made by Static(uri, root) answers depends on the files inside root only: every path opened through http.Dir(root) leads inside root from every working directory, whatever dots, slashes and doubled slashes the request has.", "quantifier": "all requests, roots, working directories and file systems", "why_tests_cant": "needs all hostile paths; directories take a different branch", "anchors": ["static.go: Static, staticHandler", "net/http: Dir.Open"]}
{"id": "C76", "title": "Groups are a notation", "statement": "The engine built from any history of router operations is the engine built from a flat history: one router with the Before handlers of the root and every endpoint registered with its full path and the middleware of all enclosing routers, in depth-first order.", "quantifier": "all histories of router operations and options", "why_tests_cant": "unbounded nesting", "anchors": ["router.go: Group, Handle, climb, getRoute, dumpRoutes", "engine.go: buildTree"]}
{"id": "C77", "title": "Methods are isolated from each other", "statement": "How a request is routed, and the parameters it gets, depends only on the routes of its own method: two routers with the same routes for a method in the same order treat its requests alike, and registering a route for another method on any router changes nothing.", "quantifier": "all histories, methods, patterns and requests", "why_tests_cant": "needs all pairs of routers and all paths", "anchors": ["engine.go: buildTree, ServeHTTP", "router.go: Handle"]}
{"id": "C78", "title": "Concurrent requests do not interfere", "statement": "Whatever requests are served at the same time, in whatever order their actions happen and whichever context objects they get: no two requests in progress share a context; every request is answered at most once, and, if it gets its turn again and again, exactly once; what it is answered depends only on the request itself and on what the world outside told its handlers, and a request whose handlers ask nothing is answered as if it were alone.", "quantifier": "all interleavings of all sequences of requests, infinite runs for termination", "why_tests_cant": "interleavings cannot be enumerated; races show up rarely", "anchors": ["engine.go: ServeHTTP", "context.go: reset, Next, run"]}
{"id": "C79", "title": "The query accessors read what the query string says", "statement": "For a request whose method carries no form in the body: if the query string is any correct encoding of a list of pairs (percent signs with two hexadecimal digits, plus for space, pieces separated by & or ;, empty pieces anywhere, a name without =), then at any time, whatever the handlers did before, the accessors see for each name exactly its values, in order; every list of pairs has such an encoding and no string encodes two lists.", "quantifier": "all lists of pairs, encodings, requests, chains and moments", "why_tests_cant": "the encodings of one list are infinitely many, and decoding interacts with splitting", "anchors": ["query.go: Query, QueryArray, QueryInt64, DefaultQuery", "content.go: ParseFormOrMultipartForm"]}
{"id": "C80", "title": "The value in the body wins over the value in the URL", "statement": "If a name has values both in the form of the body and in the query string, the accessors list those of the body first, so Query returns the value of the body.", "quantifier": "all requests with a form in the body, all names", "why_tests_cant": "needs every combination of body kinds and pairs", "anchors": ["query.go: Query, QueryArray", "content.go: ParseFormOrMultipartForm"]}
{"id": "C81", "title": "Malformed form data do not panic", "statement": "No query string, body or Content-Type makes an accessor of the form panic.", "quantifier": "all requests", "why_tests_cant": "the malformed inputs are a thin set that random tests seldom hit", "anchors": ["content.go: ParseFormOrMultipartForm", "query.go: Query"]}
{"id": "C82", "title": "No path makes routing expensive", "statement": "Finding the route of a request examines the nodes of the tree in a fixed order and each at most once: no more of them than the patterns registered for the method have slashes, comparing each with one segment of the path only; the work is at most the number of slashes times the length of the path, however the patterns overlap and backtrack.", "quantifier": "all sets of routes, all paths and regexp engines", "why_tests_cant": "a pathological path for a search with backtracking is not found by trying paths", "anchors": ["tree.go: matchNextSegment, matchEndNode, matchSubNode", "engine.go: ServeHTTP"]}
{"id": "C83", "title": "An application on Default() survives its handlers", "statement": "In an application built on Default(), whatever its handlers do, no panic escapes from a request, and every request with a route is logged exactly once, after everything else, with the status the client receives.", "quantifier": "all registrations after Default(), all handlers, requests and contexts", "why_tests_cant": "unbounded registrations and handler behaviour", "anchors": ["router.go: Classic, Default", "m_logger.go: Logger", "m_recovery.go: Recovery", "engine.go: ServeHTTP"]}
{"id": "C84", "title": "Cleaned paths are canonical", "statement": "path.Clean, the byte loop of the standard library used for static files, gives two paths the same text exactly if they lead to the same place from every working directory; the cleaned text leads to that place itself, is its own cleaning, and no other non-empty text for the place is shorter; cleanPath returns a slash and proper names separated by single slashes.", "quantifier": "all texts, all working directories", "why_tests_cant": "the interaction of dots, doubled slashes and the root has unboundedly many forms", "anchors": ["m_static.go: StaticAdvance", "util.go: cleanPath", "path: Clean"]}
{"id": "C85", "title": "Redirects lead where they say", "statement": "Found and MovedPermanently, called before anything was sent, send one status line with their code and a location that is the address resolved against the path of the request, on the same host if the address names none, with the query unchanged, and a link whose text a browser reads back; called later they leave the response alone. The redirect of a static directory stays on the host, and following it leads to the same directory, which is then served without another redirect.", "quantifier": "all addresses, request paths, states and answers of url.Parse", "why_tests_cant": "hostile addresses and directory names are a thin set", "anchors": ["content.go: Found, MovedPermanently", "m_static.go: StaticAdvance", "net/http: Redirect"]}
{"id": "C86", "title": "A request is served by the single best registration", "statement": "Of the registered patterns that accept a path exactly one is the best under the order given by precedence and registration order, which has no cycles and no ties; a request is served with the given handlers and full path if and only if they belong to that pattern. The tree computes exactly this choice from the table of registrations.", "quantifier": "all sets of routes, methods, paths and regexp engines", "why_tests_cant": "that an order on overlapping patterns has no cycles cannot be seen from examples", "anchors": ["tree.go: addPattern, matchNextSegment, matchEndNode, matchSubNode", "engine.go: newEngine, ServeHTTP"]}
{"id": "C87", "title": "A new route changes only the paths it accepts", "statement": "Adding a registration leaves the handlers and the full path of every request alone that it does not accept; of the others each is served by what served it before or by the new route.", "quantifier": "all sets of routes, added routes, methods and paths", "why_tests_cant": "quantifies over pairs of routers and all paths", "anchors": ["tree.go: addPattern, matchNextSegment, matchEndNode, matchSubNode", "engine.go: newEngine"]}
{"id": "C88", "title": "A chain is the composition of its handlers", "statement": "Running a chain gives the same end, response, parameters, environ and effects as composing its handlers as functions, each of which gets the composition of the later ones as Next, is called at most once, and passes on by itself if it returns without having called Next or answered. A handler can be replaced by one that does the same, and a middleware that only calls Next can be put anywhere, without effect.", "quantifier": "all chains, handlers, states and requests", "why_tests_cant": "quantifies over all programs of handlers; the index in the context is shared mutable state", "anchors": ["context.go: Next, run", "m_recovery.go: Recovery", "m_logger.go: Logger", "m_cors.go: CORS"]}
{"id": "C89", "title": "A request is served as the table and the composition say", "statement": "From the bytes of the request to the response: a request is served by the composition of the handlers of the best registered pattern, in a fresh state with the parameters that pattern binds and its full path, or if none accepts the path by the composition of the not-found handlers without parameters. The tree, the method index, the pool and earlier requests do not show.", "quantifier": "all sets of routes, requests, handlers, contexts left by earlier requests", "why_tests_cant": "the conjunction of routing, binding, reset and chaining over all inputs", "anchors": ["engine.go: ServeHTTP, newEngine", "tree.go: addPattern, matchNextSegment", "context.go: Next, run, reset"]}
{"id": "C90", "title": "A struct sent as a form is bound to the same struct", "statement": "If a client writes a struct as pairs (integers, booleans, strings, slices of these, pointers to these, structs and non-nil pointers to structs at any depth, under distinct names) and sends them in the query string of a GET request or as an urlencoded body of at most 10 MiB, Bind into a zero struct succeeds and gives the same struct.", "quantifier": "all struct types of this kind, all their values, all requests carrying them", "why_tests_cant": "types and values are unbounded; round trip through escaping, parsing, tag handling and conversion", "anchors": ["binding/map_form.go: MapForm, _mapForm, tryToSetValue2, setWithProperType2", "content.go: Bind, ParseFormOrMultipartForm", "binding/form.go: Bind"]}
{"id": "C91", "title": "A saved upload is the whole upload", "statement": "If SaveUploadedFile returns nil, the destination names a file with exactly the uploaded bytes and nothing else on disk has changed. Otherwise the destination holds at most a beginning of the upload, or the disk is untouched. If nothing fails, nil is returned.", "quantifier": "all uploads, destinations, disk states, and all behaviours of the operating system (failing calls, partial reads and writes, at any time)", "why_tests_cant": "partial reads, failing writes and full disks at every step cannot be enumerated", "anchors": ["content.go: SaveUploadedFile"]}
{"id": "C92", "title": "Saving an upload leaves no descriptor open", "statement": "After SaveUploadedFile, whatever it returns, the open descriptors are those that were open before.", "quantifier": "all uploads, destinations, disk states and behaviours of the operating system", "why_tests_cant": "every failing call on every path", "anchors": ["content.go: SaveUploadedFile"]}
{"id": "C93", "title": "A saved upload is private", "statement": "A file created by SaveUploadedFile is accessible to its owner only; a file that existed keeps its permissions.", "quantifier": "all uploads, destinations, disk states, masks and behaviours of the operating system", "why_tests_cant": "quantifies over masks and outcomes", "anchors": ["content.go: SaveUploadedFile"]}
{"id": "C94", "title": "Download sends the file or reports an error, and closes it", "statement": "Download of something that cannot be opened or described, or of a directory, returns an error and leaves the response untouched. Otherwise the file is handed to http.ServeContent with exactly the download headers added and nil is returned. Whatever happens, also a panic, a file that was opened is closed exactly once, afterwards.", "quantifier": "all file systems, paths, handlers around it and behaviours of ServeContent", "why_tests_cant": "arbitrary code for ServeContent, including panics", "anchors": ["content.go: Download", "util.go: contentDisposition"]}
{"id": "C95", "title": "An access log line can be read back", "statement": "The line Logger writes can be read back field by field: trace id, start, status (coloured or not), time used, address, method and URL; on Default() the status read is the status the client received. The colour of the status is that of its class. A line has no line breaks but those of its fields.", "quantifier": "all requests, statuses, times, handler programs on Default()", "why_tests_cant": "padding, colours and arbitrary bytes in every field; every response path ends in one line", "anchors": ["m_logger.go: Logger, logStatus, logPrefix, colorForStatus", "util.go: requestRealIp", "context.go: RealIp"]}
{"id": "C96", "title": "A body is read whole or an error is returned", "statement": "BodyBytes and BodyString return nil as error only if the whole body was read, and then return all of it; if the connection fails they return nothing and the error; reading again is an error and never an empty text. This holds also behind Logger.", "quantifier": "all bodies, connections failing at any point, all sizes of reads, buffer growths and orders of end and data", "why_tests_cant": "every split of the body into reads and every failure point", "anchors": ["content.go: BodyBytes, BodyString", "m_logger.go: Logger"]}
{"id": "C97", "title": "Files and values of a form do not depend on the order of calls", "statement": "On a request with a multipart form, FormFile(name) returns the first file sent under the name and Query(name) the first value sent, whichever of the two, or ParseFormOrMultipartForm, was called before, any number of times; none of them panics.", "quantifier": "all requests with a well-formed multipart form, all methods, all histories of calls", "why_tests_cant": "unbounded histories of calls on lazily parsed state", "anchors": ["content.go: FormFile, ParseFormOrMultipartForm", "query.go: Query"]}
{"id": "C98", "title": "Bind2 gives a sent struct back, and agrees with Bind on it", "statement": "If a client writes a struct as pairs (integers, booleans, strings, slices and arrays of these, pointers of any depth, nested and embedded structs, under distinct names), a form, a query string, route parameters or a header holding these pairs is bound by Bind2 into a zero struct successfully, to the same struct; nil pointers come back nil. A form that holds a struct for both mappers is bound by both to the same struct.", "quantifier": "all struct types of this kind, all their values, all forms and headers carrying them among other names", "why_tests_cant": "types and values are unbounded; round trip through escaping, tag handling, pointer walking and conversion", "anchors": ["binding/mapping.go: mapping, tryToSetValue, setByForm, setArray, setWithProperType", "binding/header.go: Bind2, TrySet", "binding/query.go: Bind2", "binding/map_form.go: MapForm"]}
{"id": "C99", "title": "Header names are compared without regard to case", "statement": "After any sequence of Set and Add calls on a header, under any spellings, a name holds exactly the values given to names that equal it or are tokens differing from it only in the case of ASCII letters; Get returns the first. The name kept is the same up to case, with capitals exactly at the start and after dashes.", "quantifier": "all headers, names, values and sequences of calls", "why_tests_cant": "all spellings of all names, unbounded sequences", "anchors": ["content.go: GetHeader, SetHeader", "context.go: Write", "m_cors.go: CORS", "cookie.go: SetCookie"]}
{"id": "C100", "title": "IsWebsocket, IsAjax and Protocol follow the request header", "statement": "IsWebsocket holds exactly if the Connection header mentions upgrade and the Upgrade header is websocket, in letters of either case; IsAjax exactly if X-Requested-With is XMLHttpRequest; Protocol is always http or https: X-Forwarded-Proto if that is one of the two, else by the connection.", "quantifier": "all header maps", "why_tests_cant": "all values, in all cases of letters including characters outside ASCII that map to ASCII letters", "anchors": ["content.go: Protocol, IsAjax, IsWebsocket"]}
{"id": "C101", "title": "PrintRouterTree draws the routing tree of a method", "statement": "For a supported method, in letters of either case, PrintRouterTree writes one line for / if it is registered, then one for each segment that leads to routes and each last segment of a route, enclosing rows first, inner rows before routes, then by kind and registration, each with the number of handlers that requests get. A row has a corner exactly if no row follows within the same enclosing row. Without routes it writes no route; for other methods it panics.", "quantifier": "all engines and methods", "why_tests_cant": "unbounded trees of any shape", "anchors": ["router_print.go: PrintRouterTree, printNode, printTreeNode"]}
{"id": "C102", "title": "Bind and Bind2 read a time.Duration alike", "statement": "After a successful Bind or Bind2 a field of type time.Duration holds the duration its text stands for, and both mappers take the same texts.", "quantifier": "all struct types, values, requests and texts", "why_tests_cant": "all texts, fields at any depth", "anchors": ["binding/map_form.go: setWithProperType2", "binding/mapping.go: setWithProperType, setTimeDuration"]}
{"id": "C103", "title": "Bind gives a struct with files back from a multipart form", "statement": "If a client sends a struct with texts and files (*multipart.FileHeader and slices of it, in nested structs) as a multipart form, Bind into a zero struct gives the same struct, whatever is in the query string and whichever of Query, FormFile, Bind and ParseFormOrMultipartForm were called before, any number of times.", "quantifier": "all struct types of this kind, their values, all requests carrying them, all methods, all histories of calls", "why_tests_cant": "types and values are unbounded, and so are histories of calls on lazily parsed state", "anchors": ["binding/form.go: formMultipartBinding.Bind, formBinding.Bind", "binding/binding.go: NewBindinger", "binding/map_form.go: MapForm", "content.go: Bind, BindWith, FormFile, ParseFormOrMultipartForm"]}
{"id": "C104", "title": "A refusal ends the request", "statement": "If a handler answers a request (with NotModified, BadRequest, Unauthorized, Forbidden, NotFound, InternalServerError, Abort or any other response) and returns without calling Next, then no handler after it in the chain starts, and neither the response nor any effect depends on what comes after it. The client receives the code of that helper, and no handler can change it afterwards. The decision may depend on the request, on Params and on values stored in Environ.", "quantifier": "for all chains, all positions of the refusing handler, all handlers before and after it, all requests and all states", "why_tests_cant": "A test shows that one protected handler is not reached in one chain; that it cannot be reached whatever the other middleware does is a statement about all programs in front of the guard.", "anchors": ["content.go:53-90", "context.go:47-79", "engine.go:112-131"]}
{"id": "C105", "title": "Binding a JSON or XML body is decoding its text", "statement": "What Bind returns for a JSON or XML body, and what it leaves in the target, is what the decoder makes of the text taken at once, followed by the verdict of the validator; it does not depend on how the text is cut by the network or on the buffers. A missing body is an error. Nil is returned only if the body arrived whole. A body can be bound once: binding or reading it again, or binding it after BodyBytes, is an error and never an empty value. This holds also behind Logger.", "quantifier": "for all decoders of one value, all bodies, connections failing at any point, all sizes of reads, all targets", "why_tests_cant": "every split of the body into reads, every failure point and every order of reading calls", "anchors": ["binding/json.go: Bind", "binding/xml.go: Bind", "content.go: Bind, BodyBytes", "m_logger.go: Logger"]}
{"id": "C106", "title": "Params holds exactly the settled and the newest values", "statement": "Which value every name has in Params, in all cases: the names and catch-alls of the chosen pattern from left to right come first, then its last segment, and only then the regexps inside patterns; of these the one counts that was tried last, whether its branch succeeded or not. Branches are tried in the order of kind and first registration. For a path no pattern accepts the captures of all branches that were tried are there.", "quantifier": "for all tables of registrations, methods, paths and names, with no condition on the patterns", "why_tests_cant": "all overlapping patterns in all registration orders, names used several times, branches that fail at any depth", "anchors": ["tree.go: Match, matchNextSegment, matchSubNode, matchEndNode"]}
{"id": "C107", "title": "The static-route option serves registered literal paths directly", "statement": "With the static-route option a request is served from the static map exactly if its path is registered for the method letter by letter and consists of literal segments only. Then it gets the handlers of the first registration of that pattern and the path of the last, and Params is left as it was. Every other request is served exactly as without the option: same handlers, parameters, response and effects.", "quantifier": "for all tables of registrations, methods, paths, contexts and handlers", "why_tests_cant": "all tables with literal, overlapping and doubled routes, and all paths, including those with empty segments", "anchors": ["engine.go: ServeHTTP, buildTree, isStaticRoute", "tree.go: add"]}
{"id": "C108", "title": "The framework is a table of routes and a composition of handlers", "statement": "Any application answers any sequence of requests as a small reference server does that knows only the list of endpoints in registration order: 406 or 405 for requests that cannot be routed; otherwise the handlers of the best pattern, in a fresh state with exactly its parameters; otherwise the not-found handlers or a bare 404. Nothing passes from one request to another through the context, except that under the static-route option a literal route finds the parameters an earlier request left. The answer is a function of the registrations, the request and those parameters.", "quantifier": "for all histories of registration calls and options, all handlers, all sequences of requests and all ways the pool hands out contexts", "why_tests_cant": "the routing tree, the static map, the pool and the chain driver are all internal; that together they amount to a table and nothing else is a statement about all applications and all sessions", "anchors": ["engine.go: ServeHTTP, buildTree", "router.go: Handler, dump", "tree.go", "context.go: run, reset"]}
{"id": "C109", "title": "The node pointers form trees and route as trees do", "statement": "The nodes that buildTree makes in memory form trees: every node has one parent, which lists it exactly once and was made before it, and belongs to the tree of exactly one method. Building panics exactly if a registration is refused. The node a lookup returns, through the trees or through the static map, always has a matchNode. Climbing the parent pointers decides exactly whether all segments of a route are literal. Requests are served as from trees that are plain values, and so as by the reference server.", "quantifier": "for all lists of routes, options, methods, paths, contexts and handlers", "why_tests_cant": "sharing, cycles, dangling or stale pointers and wrong parent pointers may show up only for certain orders of registrations", "anchors": ["tree.go: newTree, newNode, add, addNextSegment, addEndNode, addSubNode, Match", "engine.go: ServeHTTP, buildTree, isStaticRoute"]}
{"id": "C110", "title": "What is handed over in a slice stays handed over", "statement": "The middleware of a router and the handlers of a route are those that were given at the call, in order, whatever the caller does with its slices afterwards. The framework writes to no slice of the caller. Building the chain of one route never disturbs that of another or the routers, however much room append leaves, and a node inserted in a list of a tree moves the others by one place.", "quantifier": "for all programs of registration calls, slices, later assignments to them, and all growth policies of append", "why_tests_cant": "whether two slices share an array depends on capacities the runtime chooses, and damage shows only for certain numbers of handlers", "anchors": ["router.go: Before, Use, Group, handle, getRoute, Handler", "tree.go: addNextSegment, addSubNode"]}
{"id": "C111", "title": "Handlers may replace the writer, the request and the other fields", "statement": "Also when handlers assign to the exported fields of the context, the chain driver keeps its promises: handlers start in order, none is skipped if Next is called at most once, a response stops those that follow, Next nests as an onion, and the flag and status stay once set. What a request is answered does not depend on what earlier handlers left in the fields of the recycled context, except for Params on a static route. A writer put around the original that passes everything on changes nothing else. Recovery keeps its promise.", "quantifier": "for all handlers, response writers, requests, contexts from the pool and applications", "why_tests_cant": "middleware may install any writer at any place of the chain, and writers may do anything; a suite tries a few wrappers", "anchors": ["context.go: Context, Next, run, reset, WriteHeader, Write", "engine.go: ServeHTTP", "m_recovery.go: Recovery"]}
{"id": "C112", "title": "Routing never looks into handlers", "statement": "Two applications that differ in their handlers only, not in where these are registered, are built alike: one panics exactly if the other does, with the same panic, and otherwise every request goes to the same path with the same parameters and to the handlers at the same places. It does not matter as which of the four supported types a handler is handed over. A request depends on the handlers that answer it only: whatever is done to the others, it is served the same.", "quantifier": "for all programs of registration calls and options, all ways of filling in handlers, all requests and contexts", "why_tests_cant": "handlers are arbitrary functions, and a suite can exchange a few of them only", "anchors": ["engine.go: newHandler, newHandlers, buildTree, ServeHTTP", "router.go: Before, Use, Group, handle, getRoute, dump, Handler", "option.go", "tree.go"]}
{"id": "C113", "title": "CookieEscape returns text that HTML readers take for the cookie", "statement": "For every request and name, the text returned by CookieEscape holds no byte that starts or ends a tag or an attribute, no NUL, and no ampersand that does not start one of the references for the five escaped characters; a reader of HTML takes it for exactly the value that Cookie returns. So cookies that are shown alike are alike, and a value without such characters is returned unchanged.", "quantifier": "for all request headers and cookie names", "why_tests_cant": "escaping is wrong if one byte at one position is treated wrongly; a suite tries a few strings", "anchors": ["cookie.go: Cookie, CookieEscape"]}
{"id": "C114", "title": "Floating point values are read from the right text", "statement": "Params.Float64 and MustFloat64, QueryFloat64, DefaultQueryFloat64 and CookieFloat64 return what strconv.ParseFloat makes of the text of the parameter, of the first form value without the white space around it (or the default as it is), or of the cookie. So a number written in a way that ParseFloat reads back is returned as that number, from a path segment, a form or a cookie. A parameter that does not exist panics.", "quantifier": "for all parameters, forms, request headers, paths and registered routes, and all numbers and ways to write them", "why_tests_cant": "the number comes from one of three sources with different trimming, and from any route; a suite tries a few", "anchors": ["params.go: Float64, MustFloat64", "query.go: QueryFloat64, DefaultQueryFloat64", "cookie.go: CookieFloat64"]}
{"id": "C115", "title": "Text is not taken for a page", "statement": "A text sent with String is shown to the client as text/plain, whatever the text is, and each of the other helpers that send a body is shown as the type it is for.", "quantifier": "for all texts, codes, helpers and states of the response", "why_tests_cant": "which type a client is shown depends on the order of header and status and on the content; a suite looks at a few harmless texts", "anchors": ["content.go: String, Data, HTMLRaw, JSON, XML, Stream", "context.go: WriteHeader, Write"]}
{"id": "C116", "title": "What a handler keeps of a request stays as it was", "statement": "A handler may copy ctx.Environ or ctx.Params to a variable and look at it after the request, while contexts serve other requests: the map is what it was, whatever requests come after, unless a handler uses it through the variable. And a request assigns to no context but its own.", "quantifier": "for all applications and handlers, all histories of requests and all choices of contexts from the pool, and all contents of the maps", "why_tests_cant": "contexts are reused and the maps are references; a suite would have to hold on to a map over the right later request with the same context", "anchors": ["context.go: Context, reset", "engine.go: ServeHTTP, newContext", "tree.go: Match"]}
{"id": "C117", "title": "Applications built in one process do not disturb each other", "statement": "A process may make several root routers, register on them in any order and build their engines at any time. Each engine is the one its application builds in a process of its own, and an application keeps the limit for multipart forms it was built with.", "quantifier": "for all histories of registration calls and Handler calls over any number of routers, interleaved in any way, and all options", "why_tests_cant": "a suite builds one application per test; sharing shows only for particular interleavings of several", "anchors": ["router.go: NewRouter, Group, Use, Before, handle, dumpRoute, getRoute, Handler", "content.go: defaultMultipartMemory", "binding/form.go: SetMultipartMemory"]}
{"id": "C118", "title": "HandlerName names the last handler of the route", "statement": "Inside any handler, HandlerName returns the name of the last function registered for the route that serves the request, or, when there is no route, of the last not-found handler; it does not panic.", "quantifier": "for all applications, requests and kinds of handler values, and all programs they are part of", "why_tests_cant": "handlers come in four kinds, two of which are wrapped, and the last handler may be middleware; a suite asks for the name of one function", "anchors": ["content.go: HandlerName", "util.go: nameOfFunction", "engine.go: newHandler"]}
{"id": "C119", "title": "A guard on a group hides what is behind it", "statement": "If a router was given, by Use before or after its routes were registered or (the root) by Before, a handler that refuses a request (answers it without calling Next), then nothing behind that handler has any influence on how the request is served: endpoints, inner groups and later middleware of the router may be replaced by any others, and the request ends alike, with the same response, the same effects and the same handlers run. This holds for every path below the prefix of the router.", "quantifier": "for all histories of registration calls, all routers in them, all handlers, requests and recycled contexts", "why_tests_cant": "a suite asks a guarded route and sees 401; that nothing else shows through is about all handlers, all overlapping routes and all orders of registration", "anchors": ["router.go: Group, Use, Before, getRoute, Handler", "context.go: run, Next", "engine.go: ServeHTTP"]}
{"id": "C120", "title": "Exactly which histories a chain of handlers can have", "statement": "Let a chain of n handlers run for a request; the handlers may do anything: respond or not, call Next any number of times, panic, recover. The starts, returns, calls of Next and their returns, and panics of the handlers, in order, then form a history in this sense, and every history in this sense is what happens with some n handlers: the handler that starts is always the one whose position is the number of returns and calls of Next so far; a handler that returned with a response ends the loop (Run or the innermost Next) that started it; without one the loop goes on as long as there are handlers; Next returns to the handler that called it, or panics into it if the handler it started panicked; a handler returns unanswered only if nobody has been seen answering. In particular a chain never goes on by itself after an answer, never starts the same position twice, and if nobody answers or panics the returns and calls of Next are at least as many as the handlers.", "quantifier": "all chains of handlers of any length, with any behaviour; all lists of events; all requests and states at the beginning", "why_tests_cant": "It is an equivalence between all programs and all words of a language: one direction ranges over all handlers with nested and repeated Next and recovered panics, the other says that nothing is missing from the description. Tests see single histories.", "anchors": ["context.go: Context.Next, Context.run (lines 47-61)"]}
{"id": "C121", "title": "A time field receives the instant that its text denotes", "statement": "After a successful Bind or Bind2, a field of type time.Time at any depth for which text was submitted holds the instant the text denotes: with time_format unix (in any case) that many seconds after 1970, with unixnano that many nanoseconds, negative numbers before 1970; otherwise the zero time for an empty text, and for other texts the time they say in the layout of the tag or of RFC 3339, in the location named by the tag, or in UTC if time_utc is one of the spellings of true, or else local time. A text that denotes none makes binding fail. Slices get one instant for each text, and pointers point to the instant. Bind and Bind2 agree, and a pointer about which nothing is said stays as it was.", "quantifier": "all struct types, depths, tags, texts and values before; all behaviours of time.ParseInLocation and time.LoadLocation", "why_tests_cant": "The claim ranges over all tags and texts, in particular all numbers of 64 bits with their signs, where division rounds differently, and over every place of the field in a struct.", "anchors": ["binding/mapping.go: setTimeField (393-442), setTimeField2 (444-493)", "binding/map_form.go: _mapForm, setWithProperType2"]}
{"id": "C122", "title": "A browser gives a page exactly what the CORS configuration says", "statement": "An application is given CORS with Before or Use on its root, and no other handler touches the two headers in question. Take a browser that follows the Fetch standard and a page of any origin that makes a request for an endpoint, with or without cookies, asking first by an OPTIONS request if the method or the headers require it. The page gets the response exactly if its origin is configured, or * is; with cookies, exactly if AllowCredentials is set and the origin is configured by name; and, if the browser has to ask, exactly if the method and all headers are configured (any headers, if none are).", "quantifier": "all applications, configurations, pages, requests, handlers behind CORS and recycled contexts; both the answer to the question and the response", "why_tests_cant": "It is about the answers to two requests together, as read by another program, for all lists of origins, methods and headers and all orders in them; a suite looks at single headers.", "anchors": ["m_cors.go: CORS (70-132), CORSConfig", "router.go: Before, Use, Handler", "engine.go: ServeHTTP (84-132)"]}
{"id": "C123", "title": "A browser gives back the cookies that SetCookie set", "statement": "Take a browser that follows RFC 6265, and any sequence of responses from any hosts and paths at any times, whose cookies are set by calls of SetCookie (any number, names that are tokens, values and paths of the bytes allowed in cookies). What the browser then keeps is exactly what the calls say: for each name, domain and path the last value, with its end and its Secure flag; a missing path is /, a missing or invalid domain the host itself, a domain the host is not in makes the browser ignore the call, a negative age makes it forget that cookie and no other. When it asks for some place at some time and sends the cookies that belong there, Cookie(name) gives the value as it was passed to SetCookie, of the one with the longest path, and of these the oldest; and nothing if none belongs there. In particular, with one host and no other arguments than an age, Cookie(name) is the value of the last call for that name, unless its age was negative or has passed; and names and values of any bytes come back if they are escaped with url.QueryEscape, as the comment of SetCookie asks for.", "quantifier": "all sequences of responses, calls, arguments, times, hosts and paths; all later requests", "why_tests_cant": "It is a simulation between the calls of a program and the state of another program over histories of any length; a suite looks at single header lines.", "anchors": ["cookie.go: SetCookie (51-107), Cookie (9-16)"]}
{"id": "C124", "title": "A link made from a pattern leads back to its route", "statement": "Take a registered pattern of texts, parameters and perhaps a catch-all at the end, give a value to each parameter, and write the link: the pattern with each value in its place, escaped as url.PathEscape does. The request for that link, as the server reads its path, is served by the handlers of that registration, FullPath is the pattern, and each parameter has exactly the value that was filled in, whatever bytes it consists of; the catch-all has all of its segments. Different values give different links.", "quantifier": "all applications (sets of registrations in any order), patterns, values and paths", "why_tests_cant": "The values are arbitrary byte strings and the other registrations are arbitrary; a suite tries a few values with few routes.", "anchors": ["tree.go: add, addNextSegment, addEndNode, addSubNode, Match, matchNextSegment, matchEndNode, matchSubNode (144-320)", "engine.go: ServeHTTP (84-132)", "params.go: Param"]}
{"id": "C125", "title": "A cache that asks shows the current file", "statement": "A client keeps the last response for a static file, and at each further visit sends back its tag in If-None-Match and its date in If-Modified-Since, as caches do; 304 means that what it has is still right. Over any sequence of visits, with any changes of the files in between, each visit shows the contents the file has at that time, and the file is not sent again if it is the same version as at the visit before. This holds for all kinds of tags, and also for caches that take no notice of tags that are not entity tags by RFC 7232. (Versions with the same second, size and name have the same content.)", "quantifier": "all applications with static files, options, file systems, files and sequences of visits and changes; caches that may lose what they have at any time", "why_tests_cant": "It is an invariant between a client and the file system over histories of any length; a suite makes one or two requests.", "anchors": ["m_static.go: StaticAdvance (36-113)", "util.go: GenerateETag, GenerateETag2", "router.go: Handler", "engine.go: ServeHTTP (84-132)"]}
{"id": "C126", "title": "A download that is taken up again is the file", "statement": "A client fetches a static file, or one sent by ctx.Download. Its connection may break after any number of bytes; at the next visit it asks for the rest behind what it has (Range), on condition that the version is the one it has the beginning of (If-Range, with the tag or else the date of the first answer), as browsers and download programs do. Over any number of visits and breaks, with any changes of the file in between, what the client has put together is always a beginning of the file as it was at the last visit, never bytes of two versions, and it comes to an end exactly when it has the whole file; and if the file is still the one of the visit before, only the rest is sent. (Versions with the same second, size and name have the same content.)", "quantifier": "all applications with static files or downloads, options, file systems, files and sequences of visits, breaks and changes; clients that may start anew at any time, and that take tags without quotes for tags or not", "why_tests_cant": "It is an invariant between a client and the file system over histories of any length, with a break at any byte; a suite asks for one range of one file.", "anchors": ["m_static.go: StaticAdvance (36-113)", "content.go: Download (198-229)", "util.go: GenerateETag, GenerateETag2", "router.go: Handler", "engine.go: ServeHTTP (84-132)"]}
{"id": "C127", "title": "A segment with an expression accepts exactly the segments that the expression describes", "statement": "In a route /a/b/<n1,n2 ~ re> the last segment of the path is accepted exactly if the regular expression describes it, from its first to its last character, with the meaning that regular expressions have in Go; the handler then finds under the i-th name the text of the i-th group, and nothing under other names. This holds of every expression for which the route can be registered, with or without groups. <x:int> accepts integers.", "quantifier": "all applications, segments, names and expressions of the subset of Go's syntax that Model/Regexp lists, with any nesting, and all paths", "why_tests_cant": "Expressions and segments are infinite families, and the meaning of an expression is a relation between positions of a text; the only expressions in the tests of the program are 70|80, which is never asked for, and z(d*)b.", "anchors": ["tree.go: getparsedPattern, partternRegexp, analyzePattern, getWildcards (60-140), matchEndNode, matchSubNode (236-320)"]}
{"id": "C128", "title": "A time is stored as the moment its text says", "statement": "A form, query, header or path value for a time.Time field without time_format is a text of RFC 3339 (date, T, time, fraction of a second, offset from UTC). Exactly the texts of RFC 3339 are accepted, and the field then holds the moment that the text says in the Gregorian calendar: two texts for the same moment with different offsets make equal times, two different moments different ones. No date that does not exist and no other text is accepted; a text is never stored as another moment than the one it says.", "quantifier": "all texts, types, fields at any depth, values held before, both mappers (Bind and Bind2)", "why_tests_cant": "The texts are an infinite family over all the days of ten thousand years; the tests of the program have two or three of them.", "anchors": ["binding/mapping.go: setTimeField (393-442), setTimeField2 (444-493)", "binding/map_form.go: setWithProperType"]}
{"id": "C129", "title": "The date of a file is right, and is understood", "statement": "Each static file that is sent carries in Last-Modified the second in which it was last changed, written as the date of HTTP (RFC 7231, 7.1.1.1: day of the week, day, month, year, time of day in GMT, all as in the calendar). A client that sends any date of HTTP in If-Modified-Since is answered 304 exactly if the file was not changed after the second that this date says, and otherwise gets the file; a text that is no date of HTTP is not taken for one.", "quantifier": "all applications with static files, options, files and moments of the years 0 to 9999, and all texts in If-Modified-Since", "why_tests_cant": "There are 315 thousand million seconds, with leap years by three rules; a test that uses the formatter of the library to check its result compares it with itself. Exotic moments (the first of 1970) and texts (wrong day of the week) are what is never tried.", "anchors": ["m_static.go: StaticAdvance (36-113)", "router.go: Handler", "engine.go: ServeHTTP (84-132)"]}
{"id": "C130", "title": "What a response is shown as is what its helper is for", "statement": "On a response to which nothing was written and whose type was not set, text sent with ctx.String is shown to the visitor as text, whatever it holds; what is sent with ctx.HTMLRaw is shown as a page; a value sent with ctx.JSON is shown as JSON or as text and one sent with ctx.XML as XML or as text, never as a page, whatever texts of visitors are in it. A static file whose name does not tell its type, and data written with ctx.Write, are shown as pages only if they begin like a page.", "quantifier": "all bodies, codes with a body, requests and handlers' surroundings; all values of JSON with any nesting; all applications with static files, options, files and file systems", "why_tests_cant": "What is shown is guessed by net/http from the first 512 bytes with 52 signatures, since the type that the helpers set comes too late; the bodies are an infinite family, and what goes wrong does so for unlikely ones: a text that begins with one of 17 tags in some mixture of letters and white space, a value with two certain letters at bytes 34 and 35.", "anchors": ["content.go: String, Data, HTMLRaw, JSON, XML (249-287)", "context.go: WriteHeader, Write (71-90)", "m_static.go: StaticAdvance (36-113)"]}
{"id": "C131", "title": "A form with files arrives as the browser sent it", "statement": "When a form is sent as multipart/form-data the way browsers write it, every text is found with ctx.Query (behind those in the URL) under the name of its control and in order, every file is found with ctx.FormFile under the name of its control, with its file name, its type and its bytes, ctx.SaveUploadedFile stores these bytes, and Bind fills a struct from them; a file is a file and a text a text, and nothing is added, lost, cut or merged, whatever bytes the files and texts hold.", "quantifier": "all forms with any number of controls, all names, types and bytes (up to the 10 MiB of texts that net/http takes), all boundaries that browsers choose and that do not occur in the data, and all requests and calls before", "why_tests_cant": "The bytes of a file are arbitrary: they can hold line breaks, dashes, parts of the boundary and whole other forms at any place with respect to the buffer of the reader. Names with backslashes, quotes and brackets are infinitely many, and tests have file names of letters.", "anchors": ["content.go: FormFile (152-154), SaveUploadedFile (164-178), ParseFormOrMultipartForm (328-344)", "binding/form.go: formMultipartBinding (56-88)"]}
{"id": "C132", "title": "A form takes no more memory than the program allows", "statement": "Whatever a client sends as a multipart form, and whatever calls a handler makes (Query, ParseFormOrMultipartForm, FormFile, in any order), the files held in memory have together at most as many bytes as WithMaxMultipartMemory says, and all of the form at most 10 MiB more; what is beyond is stored outside or refused. Where the bytes are held makes no difference to what the handler gets.", "quantifier": "all bodies (any bytes, also no forms), requests, limits and sequences of calls", "why_tests_cant": "A bound on memory is a statement about all bodies; tests send forms that are far below it. That one call of several uses another limit shows only if it comes first.", "anchors": ["content.go: FormFile (152-154), ParseFormOrMultipartForm (324-344)", "option.go: WithMaxMultipartMemory (31-36)", "router.go: Handler (323-324)"]}
{"id": "C133", "title": "A redirect leaves the site only if the address says so", "statement": "Found and MovedPermanently send a browser to another scheme or host only if the address names one, as a browser reads it, and then the location is the address as it was given. An address that is a reference without scheme and host leads to a path of the same site. Which addresses are which is decided by the grammar of references (RFC 3986).", "quantifier": "all addresses (any bytes, also those a visitor gave) and all paths of requests", "why_tests_cant": "Open redirects are found with addresses nobody thought of: three slashes, stray percent signs, users without host, control characters, dots and backslashes in any combination. A test tries some of them; the claim is about the agreement of two readers, url.Parse and the browser, on all of them.", "anchors": ["content.go: MovedPermanently, Found (43-51)", "m_static.go: redirect of a directory (84)"]}
{"id": "C134", "title": "A single file is sent when its address is asked for", "statement": "After r.StaticFile(pattern, file), every plain GET request for a path that the pattern matches (and no other route) is answered with status 200 and the bytes of the file, if it is there; if it is not, with 404 (403 without permission). The path of the request has no influence on which file is opened, and the file is closed afterwards.", "quantifier": "all applications (any sequence of registrations with the route on a router without middleware), patterns, paths that match, names of files, disks, contents, and states of contexts that are used again", "why_tests_cant": "Tests serve favicon.ico. http.ServeFile looks at the path of the request although the file is fixed, so that what goes wrong does so for certain patterns and paths, which are an infinite family.", "anchors": ["m_static.go: StaticFile (128-140)", "router.go: handle, Handler", "engine.go: ServeHTTP (84-132)"]}
{"id": "C135", "title": "A HEAD request for a static file is answered as the GET request is", "statement": "Below the prefix of a static route, and for the address of a single file, a HEAD request gets the status and the header of the answer to the GET request that differs from it in the method only: for files, ranges of files, conditional requests, directories (redirects, index files, lists), and what is not there. Files are opened and closed, and middleware runs, alike.", "quantifier": "all applications with such a route (any registrations around it that do not accept the path too, any middleware that asks for neither method, route, parameters nor form), file systems, contents, options, paths below the prefix, headers of requests and states of contexts that are used again", "why_tests_cant": "It is a statement about pairs of runs for all requests; the two methods take different branches in net/http at three places and in different trees of the router, and tests ask for the one or the other.", "anchors": ["m_static.go: StaticAdvance (36-113), StaticFile (128-141)", "content.go: File (148-150)", "engine.go: ServeHTTP (84-132)"]}
{"id": "C136", "title": "ServeFile answers as File does, and ends the request", "statement": "For a client, ctx.ServeFile(f) and ctx.File(f) are the same: status, header and body of the response, files opened and closed. For the handlers behind them they are not: after ServeFile the context says that a response was written, Status() is the status the client gets, and no further handler of the chain starts; after File the context is as it was before, the next handler starts, and what it writes is added to the body, under its own Status(). Attachment and Download hand the context to http.ServeContent and are like ServeFile.", "quantifier": "all files, directories and errors, requests (methods, conditions, ranges), states of the context and of the writer (also after earlier writes, through the context or not), positions in the chain", "why_tests_cant": "The two functions differ in one word (which writer is handed over), and what differs shows only in combination with later handlers and with code in net/http that decides between WriteHeader and Write.", "anchors": ["content.go: File (148-150), ServeFile (194-196), Download (198-229), Attachment (231-239)", "context.go: WriteHeader, Write (71-90), run (52-61)"]}
{"id": "C137", "title": "The links in the listing of a directory lead to its entries", "statement": "The list that File, ServeFile and StaticFile send for a directory without index.html is a page of HTML with one line for each entry in it, in order; the line shows the name of the entry (with a slash behind it for directories), cannot break out of its markup, and has a link that, followed from the address of the directory, stays on the site and asks for exactly that name in the directory.", "quantifier": "all names of entries (any bytes but NUL and slash), numbers of entries, addresses of the directory", "why_tests_cant": "The address is escaped for a URL and the text for HTML, by different functions; the names for which one of the two is not enough (colons, dots, ampersands, quotes) are not in any test directory.", "anchors": ["content.go: File (148-150), ServeFile (194-196)", "m_static.go: StaticFile (125-140), StaticAdvance (88)"]}
{"id": "C138", "title": "What JSON sends is JSON, says the value, and is safe in a page", "statement": "The body that JSON sends for a value is a JSON text (RFC 8259) and a newline. The text says the value: null, the same booleans, integers and numbers, the same strings, an array for a slice and an object for a struct or a map; and no reader that follows the rules finds anything else in it. It is one line of UTF-8 without control characters, without <, > and &, and without U+2028 and U+2029, whatever the strings in the value are.", "quantifier": "all values made of nil, booleans, integers, finite floating-point numbers, strings of any bytes, slices, structs and maps, nested to any depth; all pieces in which the encoder writes", "why_tests_cant": "Tests send water.H with one or two words of ASCII; the escapes depend on every byte, and that a text can be read in one way only is about all texts.", "anchors": ["content.go: JSON (268-276)", "util.go: json (17)"]}
{"id": "C139", "title": "A value that is sent with JSON and read with Bind is the same", "statement": "If one handler sends a struct with JSON and another one binds that body to a variable of the same type, the variable holds the struct that was sent, however the body is cut on the way, and whatever the variable held before.", "quantifier": "all struct types made of integers, booleans, strings, pointers, slices and structs, also recursive ones, with any tags; all values of them; all targets; all pieces in which the body is written and read", "why_tests_cant": "Tests bind hand-written bodies to two or three types with new variables; the claim is about all types and values, and about variables that hold something.", "anchors": ["content.go: JSON (268-276)", "binding/json.go: Bind (20-32)", "util.go: json (17)"]}
{"id": "C140", "title": "A struct that is sent with XML and read with Bind is the same", "statement": "What XML sends for a struct is a well-formed element that says one thing only, whatever is in its strings; and if another handler binds that body to a new variable of the same type, the variable holds the struct that was sent, however the body is cut on the way.", "quantifier": "all struct types made of integers, booleans, strings, pointers, slices and structs, also recursive ones, with any names and omitempty; all values of them, all byte strings; all pieces in which the body is written and read", "why_tests_cant": "Tests bind hand-written bodies to two or three types; the claim is about all types and values, and all bytes in the strings.", "anchors": ["content.go: XML (278-286)", "binding/xml.go: Bind (15-27)"]}
{"id": "C141", "title": "What JSON and XML send can be sent back as it came", "statement": "A client that sends the response of JSON or XML to another handler, under the content type that the response came with, has it read as JSON or XML by Bind, and the struct gets the value that was sent.", "quantifier": "all values that can be sent and read back, all names of their types, all codes with a body, all pieces in which the body is written and read; all methods of the second request, and all calls before Bind", "why_tests_cant": "It joins two requests: the order of WriteHeader and the header map in the first, sniffing of the body by net/http, and the choice of the decoder in the second. Tests of either side set the content type by hand.", "anchors": ["content.go: JSON, XML, Bind, ContentType (122-124, 258-306)", "binding/binding.go: NewBindinger (34-54)"]}
{"id": "C142", "title": "A crash is told to the client in development only, and never as a page", "statement": "If Recovery is the first handler and a later one panics with a value that is not nil, then with Status Stable nothing that depends on the value reaches the client, and otherwise the client gets the report after what was sent before, and is never told that the report is a page.", "quantifier": "all handlers, all panic values and stacks, all requests, everything that the handlers did and sent before the panic", "why_tests_cant": "The value of a panic often holds input of the visitor; what the report is taken for depends on its bytes, by sniffing, and on headers that the handlers set before the panic.", "anchors": ["m_recovery.go: Recovery (12-47)", "content.go: String (249-253)", "version.go: Status (9-15)"]}
{"id": "C143", "title": "Header fields are bound whatever the spelling of their names", "statement": "binding.Header stores in a field the values that the request sent under the name in its header tag, in the order of the lines and in whatever spelling, of the request and of the tag; a field without a header tag is left alone. This holds of Bind and of Bind2.", "quantifier": "all struct types and values, all spellings of all names, all header lines in any order", "why_tests_cant": "All spellings on two sides, structs of any depth; a test uses one spelling, mostly the canonical one.", "anchors": ["binding/header.go: Bind, Bind2, TrySet (15-37)", "binding/map_form.go: parseFormName (226-251)", "binding/mapping.go: tryToSetValue (38-62)"]}
{"id": "C144", "title": "RealIp is the address of the client, behind any proxies", "statement": "ctx.RealIp returns the address from which the client connected, whatever proxies pass the request on and whatever the client says about itself in its header.", "quantifier": "all clients, all headers a client can send, all chains of proxies that say nothing, add to X-Forwarded-For, or also set X-Real-IP", "why_tests_cant": "Chains of any length and all headers of a hostile client; a test uses one proxy and an honest client.", "anchors": ["util.go: requestProxy, requestRealIp (34-58)", "content.go: RealIp, Proxy (110-119)"]}
{"id": "C145", "title": "A file in the directory of Static is sent when its name is asked for, and nothing is added to it", "statement": "After r.Static(uri, root), every plain GET request for a name below uri (not empty, not ending with a slash, for which there is no other route) is answered with status 200 and the bytes of the file that the name leads to from root, if it can be opened and is no directory; the answer has the header fields of http.ServeContent only - no tag, no expiry - and the file is closed. If it cannot be opened, the answer is 404, empty and without header fields. Static on a router that is not a root panics.", "quantifier": "all prefixes of ordinary elements, all directories, all names (with dots and doubled slashes too), all files, all contexts from the pool", "why_tests_cant": "All names and directories, and the absence of any further header field; a test asks for one file.", "anchors": ["m_static.go: Static (119-126)", "m_static.go: StaticAdvance (36-113)"]}
{"id": "C146", "title": "A struct that is written into a link comes back from the parameters of its route", "statement": "The texts of the fields of a struct are written into a link in the places of a pattern that have their names (in the uri tags), escaped as url.PathEscape does; the texts in parameters are not empty and have no slash. If the pattern wins against the other ones that accept the path, the request for the link is served by its route, and binding.Uri makes the same struct of the parameters, with Bind and with Bind2. The parameters of every request that is routed can be given to it.", "quantifier": "all struct types and values that can be sent, all patterns and tables of routes, all texts with any bytes but the slash", "why_tests_cant": "All values and tables of routes; four functions (link, router, parameters, mapper) that were written without looking at each other must fit.", "anchors": ["binding/uri.go: Bind, Bind2 (9-21)", "binding/map_form.go: MapForm", "binding/mapping.go: mapFormByTag", "tree.go: matching"]}
{"id": "C147", "title": "A struct that is sent in header lines and read with binding.Header is the same", "statement": "A client writes the texts of the fields of a struct into the header lines of a request, under the names in the header tags, in any spelling and among any other lines. The server reads the lines, and binding.Header makes the same struct of the header, with Bind and with Bind2.", "quantifier": "all struct types and values that can be sent, all spellings of the names, all other lines around them", "why_tests_cant": "All values, spellings and other lines; the reading of the lines, the canonical names in the header map and in the mappers must fit.", "anchors": ["binding/header.go: Bind, Bind2 (15-37)", "binding/map_form.go: MapForm", "binding/mapping.go: mapFormByTag"]}
{"id": "C148", "title": "A cache in front of an application with CORS does not change what pages may read", "statement": "A request is answered by a chain that begins with CORS, and the handlers behind it leave the two headers of the browser's check alone and take nothing away from Vary. A cache keeps the response and answers other requests with it when Vary allows that (RFC 9111). A page that gets it from the cache may read it exactly if it might read the answer of the server itself, and a browser that asks first goes on exactly if it would with the answer of the server. Whatever the cache does, and whatever the handlers do to Vary, no page may read what the configuration does not let it read.", "quantifier": "all configurations, handlers, requests and pairs of requests, origins, with and without cookies", "why_tests_cant": "A cache takes a response from one request to another; the mistake shows only for pairs of requests from different pages, and only if a header that was looked at is not named.", "anchors": ["m_cors.go: CORS (69-132)"]}
{"id": "C149", "title": "A map that is written into a query comes back from QueryMap", "statement": "A client writes the entries of a map into the query string, each as name[key]=value, among any other pairs. QueryMap gives the same map, and DefaultQueryMap too unless the map has no entries.", "quantifier": "all names, maps and other pairs, all iteration orders of the form", "why_tests_cant": "All bytes may be in names, keys and values; what comes back depends on brackets, white space and the random order of a Go map.", "anchors": ["query.go: QueryMap (89-103), DefaultQueryMap (171-192)"]}
{"id": "C150", "title": "A download is saved under its name", "statement": "A browser that reads the Content-Disposition of Attachment or Download by the grammar of RFC 6266 and RFC 5987 saves the file under the name that the program gave it, and as attachment or inline as the program said.", "quantifier": "all names and both kinds", "why_tests_cant": "All bytes may be in a name, each with its own escaping, and the value must be of the grammar as a whole.", "anchors": ["util.go: contentDisposition (60-70)", "content.go: Download (198-229), Attachment (231-239)"]}
{"id": "C151", "title": "The printed list of routes says how requests are routed", "statement": "Two applications for which PrintRawAllRoutes prints the same list route alike: every request is dispatched to the same pattern, with as many handlers and the same parameters, or to none in both, whatever the handlers are and however the routes were registered.", "quantifier": "all pairs of applications, all requests", "why_tests_cant": "A statement about pairs of programs that were registered in different ways; an unreadable line or an order that is not printed shows only for special pairs.", "anchors": ["router_print.go: PrintRawAllRoutes (93-103)", "router.go: Handler, dumpRoute", "engine.go: buildTree (159-180)"]}
{"id": "C152", "title": "Conditional requests for files are answered by the rules of RFC 7232", "statement": "A GET request for a file, served by StaticAdvance or sent with Attachment, whose If-Match, If-Unmodified-Since, If-None-Match and If-Modified-Since are written as RFC 7232 says is answered with 412, with 304 or with the whole file exactly as section 6 of RFC 7232 says: If-Match is compared strongly and goes before If-Unmodified-Since, If-None-Match is compared weakly and goes before If-Modified-Since, dates are compared by the second, and with 412 and 304 nothing of the file is sent.", "quantifier": "all files and tags, all conditional GET requests without Range whose conditions are well formed", "why_tests_cant": "Four optional conditions, lists of tags of any length with commas and blanks in any place, weak and strong tags, and times: the combinations are unbounded, and a wrong order or comparison shows in few of them.", "anchors": ["m_static.go: StaticAdvance (36-118)", "content.go: Attachment (231-239)"]}
{"id": "C153", "title": "Requests for ranges of a file are answered by the rules of RFC 7233", "statement": "A GET request for one or more ranges of a static file, written as RFC 7233 says, is answered with 416 and the size of the file if there is nothing in the file of any of them; with 206, exactly the bytes of the range and their positions if there is something of just one of them; and otherwise with 206 and a part for each of them in order, or with the whole file if they are more than the file together. Ranges in other units are ignored.", "quantifier": "all files, all lists of ranges with any numbers, blanks and empty elements", "why_tests_cant": "Lists of any length, positions at, before and behind the end of files of any size: an error by one shows at single positions only.", "anchors": ["m_static.go: StaticAdvance (36-118)"]}
{"id": "C154", "title": "No text in a header value becomes a line of the answer", "statement": "Whatever texts handlers put into the values of header fields, through SetHeader, SetCookie, redirects, CORS, downloads, static files or any other helper, a client reads from the head of the answer exactly the fields that were set, each with its value (line breaks made blanks, blanks at its ends left out), and behind the head exactly what was sent behind it. The helpers of the framework choose the names of fields so that this holds for any arguments and any request.", "quantifier": "all chains of handlers, all texts, all requests, all orders of the header lines", "why_tests_cant": "An injected header or a second answer needs a value with line breaks in one particular helper; tests try a few values in a few helpers.", "anchors": ["content.go: SetHeader (24-26), Download (198-229), Data (255-259)", "cookie.go: SetCookie (56-109)", "m_cors.go: CORS (69-132)", "m_static.go: StaticAdvance (36-118)"]}
{"id": "C155", "title": "Building with the tag extended does not change how requests are answered", "statement": "An application built with the tag extended, which gives handlers Flush, Hijack and CloseNotify, answers every request as the application built without it.", "quantifier": "all engines, all requests, all writers, all contexts from the pool", "why_tests_cant": "Tests run with one build and one kind of writer; the writers of HTTP/2 and of other handlers around the engine have other methods.", "anchors": ["response_advanced.go: ResponseWriter (9-14)", "response.go: ResponseWriter (9-14)", "engine.go: ServeHTTP (84-132)"]}
{"id": "C156", "title": "Flushing leaves the answer to the handlers", "statement": "With the tag extended, a call of ctx.Flush changes neither the code nor the header fields nor the body that the client receives, whatever handlers do before and after it, and the chain goes on as without it.", "quantifier": "all chains of handlers, all points of a chain, all requests", "why_tests_cant": "Whether the code of the answer is lost depends on what was written before the call, and on the handlers after it.", "anchors": ["response_advanced.go: ResponseWriter (9-14)", "context.go: run (52-61), WriteHeader (71-80), Write (82-90)", "m_recovery.go: Recovery (12-47)"]}
{"id": "C157", "title": "What Stream sends arrives whole, or the client is told", "statement": "ctx.Stream sends 200, the given media type and everything the reader gives, in whatever pieces it comes; and if the reader or the connection fails, the handler can tell the client so instead.", "quantifier": "all readers and ways they fail, all states of the header, all handlers that follow", "why_tests_cant": "Whether an error can still be told depends on where the reader fails and how its bytes come; tests use readers that give everything at once.", "anchors": ["content.go: Stream (241-247)", "context.go: Write (82-90)"]}
{"id": "C158", "title": "The pages of an application are made by its own render", "statement": "An application that runs in one process with others answers every request as it does alone, also when applications set their renders with SetRender and make pages with HTML and HTMLSet.", "quantifier": "all histories of SetRender and requests in a process, all renders, all chains of handlers", "why_tests_cant": "Tests build one application per process and set one render.", "anchors": ["render.go: SetRender (9-11), init (20-22), HTML (29-31), HTMLSet (34-36), renderHTML (38-40)"]}
{"id": "C159", "title": "Of options of one kind the last counts, and the order of the kinds does not matter", "statement": "Handler given two lists of acceptable options with the same last WithStaticRouter, the same last WithNoFoundHandlers and the same last WithMaxMultipartMemory builds the same engine, or panics alike, and sets the same limit for multipart forms; an option that is not acceptable makes it panic also if a later one of its kind replaces it.", "quantifier": "all routers, all pairs of lists of options", "why_tests_cant": "Tests give each option at most once, in one order.", "anchors": ["option.go: WithStaticRouter (13-17), WithNoFoundHandlers (21-29), WithMaxMultipartMemory (32-36)", "router.go: Handler (281-329)"]}
{"id": "C160", "title": "When, and in how many pieces, middleware is registered does not matter", "statement": "Two histories of registration calls that make the same routers and endpoints in the same order, and give every router the same middleware in the same order with Use and Before, leave the same routers, so Handler builds the same engine; in particular all calls that give middleware may come last, and Use(a, b) is Use(a) and then Use(b). Whether a history panics depends on what its calls make, not on middleware.", "quantifier": "all histories of NewRouter, Group, Use, Before and GET/POST/.. calls", "why_tests_cant": "Tests register middleware first and in one call.", "anchors": ["router.go: Before (121-127), Group (129-149), Use (151-153), handle (155-170), getRoute (228-273)"]}
{"id": "C161", "title": "An application mounted in another answers as it does by itself", "statement": "An Engine whose handlers write through their Context, registered as a handler of another application and reached before anything was sent, ends, sends and does what it does as the only application; the outer context then has the written flag and the status of the inner one. If its handlers also use ctx.ResponseWriter, but send valid status codes and write data there only after a status line, as File does, the client receives the same. If the outer application had already answered, the mounted one, whatever its handlers do, adds to the body only and sends no second status line. The rest of the outer context (chain, position, route, parameters, environment) is as before in every case. Recovery of the outer application around a mounted one whose handlers write through their Context lets no panic through and completes the answer: with 500 if the mounted one panicked before it answered, with 200 if it returned without an answer.", "quantifier": "all mounted applications, all requests, all states of the outer application", "why_tests_cant": "Tests register functions, never an Engine, as handlers.", "anchors": ["engine.go: newHandler (28-31), ServeHTTP (84-132)", "context.go: WriteHeader (71-79), Write (81-90)"]}
