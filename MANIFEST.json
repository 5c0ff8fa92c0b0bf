{"claims":[
{"property": "C01", "status": "proved", "theorems": ["Water.C01_dispatch_sound"], "note": ""},
{"property": "C02", "status": "proved", "theorems": ["Water.C02_dispatch_complete", "Water.C02_not_found_iff"], "note": ""},
{"property": "C03", "status": "proved", "theorems": ["Water.C03_precedence"], "note": ""},
{"property": "C04", "status": "partial", "theorems": ["Water.C04_ties_partial", "Water.C04_absorbing_last", "Water.C04_refuted"], "note": "False as stated: between two final catch-alls absorbing several segments the last registered wins (C04_absorbing_last, C04_refuted). All other ties proved."},
{"property": "C05", "status": "partial", "theorems": ["Water.C05_exact", "Water.C05_static", "Water.C05_literal_wins_partial", "Water.C05_refuted"], "note": "Proved when the registered paths have no empty inner segment; refuted otherwise (/a//b registered before /a/b)."},
{"property": "C06", "status": "partial", "theorems": ["Water.C06_param_values_partial", "Water.C06_refuted", "Water.C07_params_exact"], "note": "False for non-final regexp segments whose name is reused; proved for everything else."},
{"property": "C07", "status": "partial", "theorems": ["Water.C07_no_other_params_partial", "Water.C07_source", "Water.C07_params_exact", "Water.C07_refuted"], "note": "Names of non-final regexp segments of failed branches leak; exact when there is no non-final regexp segment. In every case each value is bound by the chosen pattern or captured on the path of this request by a registered pattern whose beginning accepts it (C07_source)."},
{"property": "C08", "status": "proved", "theorems": ["Water.C08_trailing_slash", "Water.C08_trailing_slash_partial", "Water.C08_static", "Water.C08_segments", "Water.C08_catch_all", "Water.C08_refuted"], "note": "For the paths of the quantifier, those that do not end in a slash already (C08_trailing_slash), and for / itself (C08_trailing_slash_partial). For other paths it is false (C08_refuted): there a further slash adds an empty segment (C08_segments), and the same pattern serves both only if it ends in a catch-all (C08_catch_all)."},
{"property": "C09", "status": "proved", "theorems": ["Water.C09_order_independent", "Water.C09_same_route_without_ties"], "note": ""},
{"property": "C10", "status": "proved", "theorems": ["Water.C10_catch_all_accepts", "Water.C10_catch_all_remainder"], "note": ""},
{"property": "C11", "status": "partial", "theorems": ["Water.C11_underscore_partial", "Water.C11_accepts_like_its_kind", "Water.C11_refuted"], "note": "False for regexp segments named _; proved for all others."},
{"property": "C12", "status": "proved", "theorems": ["Water.C12_segmentwise", "Water.C12_idempotent", "Water.C12_translated_builds", "Water.C12_same_dispatch"], "note": ""},
{"property": "C13", "status": "partial", "theorems": ["Water.C13_same_construction", "Water.C13_static_transparent_partial", "Water.C13_params", "Water.C13_refuted"], "note": "Proved for paths without empty inner segments; refuted for /a//b."},
{"property": "C14", "status": "partial", "theorems": ["Water.C14_full_path_partial", "Water.C14_first_handlers_last_spelling", "Water.C14_refuted"], "note": "False when two spellings of one pattern are registered; exact general rule proved."},
{"property": "C15", "status": "proved", "theorems": ["Water.C15_double_rejected", "Water.C15_only_doubles"], "note": ""},
{"property": "C16", "status": "proved", "theorems": ["Water.C16_construction", "Water.C16_sub"], "note": ""},
{"property": "C17", "status": "proved", "theorems": ["Water.C17_chain", "Water.C17_dispatched", "Water.C17_served"], "note": ""},
{"property": "C18", "status": "proved", "theorems": ["Water.C18_late_use", "Water.C18_dispatched", "Water.C18_moved", "Water.C18_moved_iff", "Water.C18_use_frame"], "note": ""},
{"property": "C19", "status": "partial", "theorems": ["Water.C19_group_mw_partial", "Water.C19_exact", "Water.C19_dispatched_partial", "Water.C19_refuted"], "note": "False: Group(pattern, mw) adds mw to the parent router. Proved exactly: it acts as Use on the parent."},
{"property": "C20", "status": "proved", "theorems": ["Water.C20_endpoints"], "note": ""},
{"property": "C21", "status": "proved", "theorems": ["Water.C21_any", "Water.C21_dispatched"], "note": ""},
{"property": "C22", "status": "proved", "theorems": ["Water.C22_not_found", "Water.C22_bare"], "note": "The Before handlers do not run on a bare 404 (no not-found handlers given), which is what the statement says."},
{"property": "C23", "status": "proved", "theorems": ["Water.C23_not_acceptable", "Water.C23_not_allowed", "Water.C23_admitted"], "note": ""},
{"property": "C24", "status": "proved", "theorems": ["Water.C24_in_order", "Water.C24_observed"], "note": "Strictly increasing starts for all chains of arbitrary handlers (programs over context calls, Next, panic, defer/recover, arbitrary world effects); C24_observed shows that the recorded events are what handlers that keep a diary observe themselves."},
{"property": "C25", "status": "proved", "theorems": ["Water.C25_no_skip"], "note": "Dynamic hypothesis: in the execution at hand every handler calls Next at most once."},
{"property": "C26", "status": "proved", "theorems": ["Water.C26_written_stops"], "note": ""},
{"property": "C27", "status": "proved", "theorems": ["Water.C27_onion"], "note": "The stack machine Spec.onion accepts every trace, including panics; every started handler finishes exactly once."},
{"property": "C28", "status": "proved", "theorems": ["Water.C28_terminates", "Water.C28_recursion"], "note": "Handlers are well-founded programs; the recursion bound of the model is never hit, and the driver satisfies the Go recursion without it."},
{"property": "C29", "status": "partial", "theorems": ["Water.C29_one_status_line", "Water.C29_status_partial", "Water.C29_exact", "Water.C29_status_iff", "Water.C29_frozen", "Water.C29_write_200", "Water.C29_refuted"], "note": "At most one status line for all chains that only use the context. C29_exact says which codes are sent and what Status() is for all codes, C29_status_iff when they agree; they differ after an invalid code (C29_refuted)."},
{"property": "C30", "status": "partial", "theorems": ["Water.C30_written_partial", "Water.C30_exact", "Water.C30_sound_partial", "Water.C30_refuted", "Water.C30_file_does_not_stop"], "note": "True without bypass and with valid codes, and C30_exact says what IsWritten means for all codes without bypass; refuted in both directions in general (File; invalid code)."},
{"property": "C31", "status": "partial", "theorems": ["Water.C31_data_partial", "Water.C31_content_type", "Water.C31_refuted", "Water.C31_stream_ok", "Water.C31_helpers_partial"], "note": "Refuted: the helpers set Content-Type after WriteHeader. What they do send is proved; Stream is right."},
{"property": "C32", "status": "partial", "theorems": ["Water.C32_recovery_partial", "Water.C32_contained", "Water.C32_no_escape_partial", "Water.C32_refuted"], "note": "Refuted for chains in which a handler before Recovery calls Next twice; otherwise proved; status 500 only for non-nil panic values."},
{"property": "C33", "status": "partial", "theorems": ["Water.C33_crash_partial", "Water.C33_exact", "Water.C33_iff", "Water.C33_refuted", "Water.C33_refuted_code"], "note": "Refuted for panic(nil) (go 1.15 semantics) and for the panic of WriteHeader with an invalid code; C33_exact says what the client receives in all cases, C33_iff when it is 500."},
{"property": "C34", "status": "partial", "theorems": ["Water.C34_only_params", "Water.C34_only_direct", "Water.C34_isolated_partial", "Water.C34_static_partial", "Water.C34_history_partial", "Water.C34_refuted"], "note": "Proved for all requests and handlers without the static-route option, and with it for requests not served from the static map or handlers that do not call Param. The remaining case is false: a static hit leaves ctx.Params of the previous request in place (C34_refuted)."},
{"property": "C35", "status": "proved", "theorems": ["Water.C35_put_once", "Water.C35_no_sharing", "Water.C35_retired"], "note": "sync.Pool is modelled as a bag from which Get takes any element or makes a new one, and from which the collector may drop elements."},
{"property": "C36", "status": "proved", "theorems": ["Water.C36_history", "Water.C36_set", "Water.C36_typed", "Water.C36_context", "Water.C36_kept", "Water.C36_empty"], "note": ""},
{"property": "C37", "status": "partial", "theorems": ["Water.C37_int_partial", "Water.C37_uint_partial", "Water.C37_refuted"], "note": "False as stated for malformed text whose leading digits alone reach 2^64: strconv returns the bound without looking at the rest. The partial theorems give the value for every string."},
{"property": "C38", "status": "proved", "theorems": ["Water.C38_int", "Water.C38_uint", "Water.C38_trim", "Water.C38_path", "Water.C38_cookie", "Water.C38_decimal"], "note": ""},
{"property": "C39", "status": "proved", "theorems": ["Water.C39_bool"], "note": ""},
{"property": "C40", "status": "proved", "theorems": ["Water.C40_param", "Water.C40_handler", "Water.C40_trim"], "note": ""},
{"property": "C41", "status": "proved", "theorems": ["Water.C41_query", "Water.C41_array"], "note": ""},
{"property": "C42", "status": "partial", "theorems": ["Water.C42_query_map_partial", "Water.C42_sources", "Water.C42_refuted"], "note": "False as stated: two form names may be filed under one key and the map order decides; an empty value list panics."},
{"property": "C43", "status": "proved", "theorems": ["Water.C43_once", "Water.C43_parses"], "note": ""},
{"property": "C44", "status": "proved", "theorems": ["Water.C44_origin", "Water.C44_value", "Water.C44_unique", "Water.C44_sent"], "note": ""},
{"property": "C45", "status": "proved", "theorems": ["Water.C45_preflight", "Water.C45_preflight_late", "Water.C45_passes", "Water.C45_default"], "note": ""},
{"property": "C46", "status": "partial", "theorems": ["Water.C46_passes", "Water.C46_body_partial", "Water.C46_refuted"], "note": "False as stated: a JSON body longer than 1 MiB reaches later handlers cut off when LogHttpBody is set. C46_body_partial says exactly when the body is kept."},
{"property": "C47", "status": "partial", "theorems": ["Water.C47_inserted_partial", "Water.C47_first", "Water.C47_refuted", "Water.C47_refuted_closed"], "note": "False as stated behind a handler that calls Next twice, and for a closed Logger behind a handler that writes before Next. Proved for Logger in front of any chain, and anywhere behind handlers that call Next at most once."},
{"property": "C48", "status": "partial", "theorems": ["Water.C48_below_partial", "Water.C48_option_partial", "Water.C48_registers", "Water.C48_missing", "Water.C48_unreadable", "Water.C48_content", "Water.C48_refuted"], "note": "Static handler opens *0 below every prefix of ordinary elements (no .., no pattern characters). C48_option_partial says it for all router options, with the static-route option too. Refuted as stated: the prefix followed by a slash alone is not served."},
{"property": "C49", "status": "partial", "theorems": ["Water.C49_configured_partial", "Water.C49_place", "Water.C49_index", "Water.C49_index_file", "Water.C49_index_dots", "Water.C49_refuted"], "note": "Independent of the files of the operating system except for a directory whose path ends with a slash, where the index file is read from the operating system: C49_index and C49_index_file, with http.ServeFile modelled, and C49_place say which file that is (seen from the working directory, or from the root of all files if the rest of the path begins with a slash)."},
{"property": "C50", "status": "proved", "theorems": ["Water.C50_tag", "Water.C50_tag2", "Water.C50_not_modified", "Water.C50_text"], "note": "Both tag functions injective on (second, size[, name]); 304 exactly for the same version. http.ServeContent is external."},
{"property": "C51", "status": "proved", "theorems": ["Water.C51_disposition", "Water.C51_injective", "Water.C51_attachment", "Water.C94_content", "Water.C51_text"], "note": "url.PathEscape is modelled byte by byte; the percent decoder is a separate specification."},
{"property": "C52", "status": "proved", "theorems": ["Water.C52_proxy", "Water.C52_realIp"], "note": "Header.Get returns the first line of a repeated header; remote address up to its last colon."},
{"property": "C53", "status": "proved", "theorems": ["Water.C53_content_type", "Water.C53_unique", "Water.C53_media"], "note": "The rune loop over UTF-8, with invalid encodings, is modelled."},
{"property": "C54", "status": "partial", "theorems": ["Water.C54_line_partial", "Water.C54_line_ip_partial", "Water.C54_one_line", "Water.C54_sanitised", "Water.C54_sanitised_ip", "Water.C54_domain", "Water.C54_position", "Water.C54_refuted", "Water.C54_round_trip"], "note": "Name, value and every attribute for values and paths that can be encoded; http.Cookie.String drops other bytes (C54_sanitised, C54_refuted). C54_domain says which domains are written; net.ParseIP is modelled there, and a parameter in the theorems without ip in their names. Round trip through readCookies."},
{"property": "C55", "status": "partial", "theorems": ["Water.C55_empty_partial", "Water.C55_refuted"], "note": "False of the code: an empty Set-Cookie line is added."},
{"property": "C56", "status": "proved", "theorems": ["Water.C56_address"], "note": "resolveAddress on every argument list."},
{"property": "C57", "status": "proved", "theorems": ["Water.C57_selection", "Water.C57_bind"], "note": "Decoder selection for every method and content type, and the parsing done before the decoder runs."},
{"property": "C58", "status": "partial", "theorems": ["Water.C58_integer_partial", "Water.C58_pointer_partial", "Water.C58_unsigned_partial", "Water.C58_refuted"], "note": "Numbers that fit the field are stored exactly and text that is no number is an error; false of the code for numbers that fit 64 bits but not the field: SetInt truncates."},
{"property": "C59", "status": "partial", "theorems": ["Water.C59_boolean_partial", "Water.C59_refuted"], "note": "Holds when the field was false before; false of the code otherwise: a submitted \"false\" does not clear true."},
{"property": "C60", "status": "partial", "theorems": ["Water.C60_frame_partial", "Water.C60_hidden_partial", "Water.C60_default", "Water.C60_refuted"], "note": "Scalar and slice fields at any depth; false of the code for the fields of a struct that is itself named in the form, which is filled from JSON."},
{"property": "C61", "status": "partial", "theorems": ["Water.C61_ok", "Water.C61_first", "Water.C61_iff_partial", "Water.C61_refuted"], "note": "First bad field in declaration order at any depth; C61_iff_partial says exactly when the result is an error, embedded structs included; false of the code for embedded non-struct fields, which panic."},
{"property": "C62", "status": "proved", "theorems": ["Water.C62_slice", "Water.C62_strings"], "note": "Every element type that can be bound, any number of values."},
{"property": "C63", "status": "proved", "theorems": ["Water.C63_slices", "Water.C63_strings", "Water.C63_order"], "note": "Go map iteration is any order of a form without repeated names. A name without values (which no parsed request has) panics in the string case, in every order."},
{"property": "C64", "status": "partial", "theorems": ["Water.C64_terminates_partial", "Water.C64_ends", "Water.C64_finite", "Water.C64_iff", "Water.C64_refuted"], "note": "Every struct type of finite depth; false of the code for a struct type that embeds a pointer to itself. C64_ends, C64_finite and C64_iff say exactly when it ends: if going down through the fields it walks into ends."},
{"property": "C65", "status": "partial", "theorems": ["Water.C65_accepts", "Water.C65_elements", "Water.C65_entries", "Water.C65_text", "Water.C65_label_partial", "Water.C65_refuted", "Water.C65_refuted_nil"], "note": "Acceptance and one entry per failing element proved for values without nil pointers. False of the code: labels are positions among the failing elements, and nil pointers panic. The verdict of the validator library on one struct is a parameter."},
{"property": "C66", "status": "partial", "theorems": ["Water.C66_given_partial", "Water.C66_default_is_zero"], "note": "The given limit is used; the 32 MB default is false, it is 0 after any engine construction without the option."},
{"property": "C67", "status": "partial", "theorems": ["Water.C67_all", "Water.C67_routes", "Water.C67_run", "Water.C67_tree_partial", "Water.C67_refuted"], "note": "Exact for PrintRawAllRoutes and PrintRawRoutes. The drawn tree of PrintRawRouter leaves out the Before handlers of the root: the exact lines are proved, and a counterexample."},
{"property": "C68", "status": "proved", "theorems": ["Water.C68_integer", "Water.C68_unsigned"], "note": "Fields of every integer size, at any depth and behind pointers. time.Duration fields, which the older mapper parses with time.ParseDuration, are in C102."},
{"property": "C69", "status": "proved", "theorems": ["Water.C69_boolean", "Water.C69_string"], "note": ""},
{"property": "C70", "status": "proved", "theorems": ["Water.C70_frame", "Water.C70_hidden", "Water.C70_unexported", "Water.C70_nil"], "note": "For every outcome, including errors and panics."},
{"property": "C71", "status": "proved", "theorems": ["Water.C71_slice", "Water.C71_array", "Water.C71_files"], "note": ""},
{"property": "C72", "status": "proved", "theorems": ["Water.C72_ok", "Water.C72_first", "Water.C72_kept", "Water.C72_panic", "Water.C72_iff", "Water.C72_check"], "note": ""},
{"property": "C73", "status": "partial", "theorems": ["Water.C73_terminates_partial", "Water.C73_ends", "Water.C73_finite", "Water.C73_iff", "Water.C73_refuted"], "note": "Every struct type of finite depth; false of the code for a struct type with a pointer to itself, on any request that does not name it. C73_ends, C73_finite and C73_iff say exactly when it ends."},
{"property": "C74", "status": "proved", "theorems": ["Water.C74_slices", "Water.C74_strings", "Water.C74_order", "Water.C74_nil"], "note": ""},
{"property": "C75", "status": "partial", "theorems": ["Water.C75_rooted", "Water.C75_inside", "Water.C75_contained_partial", "Water.C75_refuted", "Water.C75_listed_refuted"], "note": "Every opened path is inside the root; false of the code for a directory asked for with a trailing slash, which is served by http.ServeFile from the operating system; C75_listed_refuted has net/http modelled: /static/// lists the root directory."},
{"property": "C76", "status": "proved", "theorems": ["Water.C76_flat", "Water.C76_ascii"], "note": "For full paths without white space at the ends, which holds of all ASCII patterns (C76_ascii) and fails only for patterns that are not valid UTF-8."},
{"property": "C77", "status": "proved", "theorems": ["Water.C77_isolated", "Water.C77_add"], "note": ""},
{"property": "C78", "status": "partial", "theorems": ["Water.C78_alone_partial", "Water.C78_determined_partial", "Water.C78_unshared", "Water.C78_enabled", "Water.C78_finishes", "Water.C78_answered", "Water.C78_once", "Water.C78_refuted"], "note": "Small-step semantics of requests with an explicit stack, interleaved arbitrarily; shown equivalent to the big-step model. False of the code for a hit in the static map under the static-route option, which sees the parameters of an earlier request. Sequentially consistent memory; handlers do not start goroutines of their own."},
{"property": "C79", "status": "proved", "theorems": ["Water.C79_unambiguous", "Water.C79_first", "Water.C79_anytime", "Water.C79_encode", "Water.C79_sent", "Water.C79_accessors"], "note": "The parser of net/url (Go 1.15) is modelled; the specification is a relation between strings and lists of pairs."},
{"property": "C80", "status": "partial", "theorems": ["Water.C80_body_first_partial", "Water.C80_multipart_partial", "Water.C80_refuted"], "note": "True of urlencoded bodies; false of the code for multipart bodies, where the values of the query string come first."},
{"property": "C81", "status": "partial", "theorems": ["Water.C81_wellformed", "Water.C81_panics_partial", "Water.C81_multipart", "Water.C81_bind", "Water.C81_left", "Water.C81_again", "Water.C81_refuted"], "note": "False of the code; the exact condition for the panic: a percent sign without two hexadecimal digits, a body of more than 10 MiB, a Content-Type that cannot be parsed, or (multipart) one that is not multipart/form-data or a body that cannot be read as such. After a recover the well-formed pairs can be read. The same condition for Bind."},
{"property": "C82", "status": "proved", "theorems": ["Water.C82_search", "Water.C82_once", "Water.C82_bound", "Water.C82_texts", "Water.C82_bytes"], "note": "The search is repeated with a record of what it examines and shown to be the search (C82_search). Counts nodes and bytes of compared text, not machine time; running a regular expression on a segment counts as one comparison."},
{"property": "C83", "status": "partial", "theorems": ["Water.C83_default", "Water.C83_sub", "Water.C83_chain", "Water.C83_contained_partial", "Water.C83_logged", "Water.C83_status_partial", "Water.C83_refuted", "Water.C83_refuted_before"], "note": "Proved for requests with a route when the Before handlers do not panic; false of the code for panics of Before and not-found handlers, which run outside of Recovery. The logged status is the received one if the handlers only use the context and valid codes."},
{"property": "C84", "status": "proved", "theorems": ["Water.C84_loop", "Water.C84_canonical", "Water.C84_idempotent", "Water.C84_shortest", "Water.C84_form", "Water.C84_rooted"], "note": "The byte loop of Go 1.15 path.Clean is modelled and shown equal to the description by elements used elsewhere."},
{"property": "C85", "status": "partial", "theorems": ["Water.C85_onhost", "Water.C85_target", "Water.C85_sent", "Water.C85_late_partial", "Water.C85_link", "Water.C85_directory_partial", "Water.C85_web_partial", "Water.C85_refuted", "Water.C85_refuted_web"], "note": "http.Redirect of Go 1.15 is modelled; url.Parse and http.StatusText are parameters. False of the code: a redirect after a status without content type appends its link to the body of the other response; directories whose names contain a question mark, hash or percent sign redirect elsewhere; a relative redirect from a path whose first segment starts with a backslash or is a tab leads a browser to another host."},
{"property": "C86", "status": "proved", "theorems": ["Water.C86_order", "Water.C86_unique", "Water.C86_served"], "note": "Refinement of the tree to a choice on the plain table of registrations (Spec/Table, Spec/Choice); without the static-route option, for which see C13."},
{"property": "C87", "status": "partial", "theorems": ["Water.C87_others_partial", "Water.C87_old_or_new", "Water.C87_anywhere_partial", "Water.C87_literal_partial", "Water.C87_refuted"], "note": "Proved for routes registered after the others; for routes registered anywhere, nothing changes if their patterns begin with literals (C87_literal_partial), and otherwise the only change is a tie between two beginnings of the same kind that a new route reverses (C87_anywhere_partial); false of the code for a route registered before others, which can reverse a tie between two of them without accepting the path itself."},
{"property": "C88", "status": "partial", "theorems": ["Water.C88_composition_partial", "Water.C88_replace", "Water.C88_pass", "Water.C88_middlewares", "Water.C88_refuted"], "note": "Proved if every handler calls Next at most once and answers when it recovers from a panic below it, as Recovery, Logger and CORS do; false of the code otherwise, where the chain goes on in the middle."},
{"property": "C89", "status": "partial", "theorems": ["Water.C89_found_partial", "Water.C89_found_exact_partial", "Water.C89_static_partial", "Water.C89_static_exact_partial", "Water.C89_static_hit_partial", "Water.C89_missing_partial", "Water.C89_missing_exact_partial", "Water.C89_refuted"], "note": "End to end refinement of ServeHTTP to Spec/Choice and Spec/Compose, under the conditions of C88 and C07; in the _exact_ theorems the parameters are those of C106 and C07 is not needed. With the static-route option a literal route may see the parameters of an earlier request (C89_static_partial). False of the code for handlers that do what C88 excludes (C89_refuted). The remaining case, no route and no not-found handlers, is C22."},
{"property": "C90", "status": "proved", "theorems": ["Water.C90_form", "Water.C90_query", "Water.C90_body"], "note": "Round trip against a client written in Spec/RoundTrip (send, encodeForm). Nil pointers to structs are not sent: Bind allocates them (C60). Times, floats and JSON texts are not part of it."},
{"property": "C91", "status": "partial", "theorems": ["Water.C91_saved_partial", "Water.C91_prefix", "Water.C91_smooth", "Water.C91_terminates", "Water.C91_refuted_self", "Water.C91_refuted_close"], "note": "False as stated: saving over the temporary file of the upload itself empties it and returns nil (C91_refuted_self); the error of Close is thrown away, so data lost at that point are not reported (C91_refuted_close). Proved without these two cases. Other processes changing the files meanwhile are not modelled."},
{"property": "C92", "status": "proved", "theorems": ["Water.C92_no_leak"], "note": "For every behaviour of the operating system, also when saving a file over itself."},
{"property": "C93", "status": "proved", "theorems": ["Water.C93_permissions"], "note": "Also respects the mask of the process."},
{"property": "C94", "status": "proved", "theorems": ["Water.C94_missing", "Water.C94_refused", "Water.C94_content"], "note": "http.ServeContent is arbitrary code; os.Open, Stat and Close do not panic."},
{"property": "C95", "status": "partial", "theorems": ["Water.C95_read_partial", "Water.C95_colour", "Water.C95_lines", "Water.C95_served_partial", "Water.C95_refuted", "Water.C95_refuted_body"], "note": "Trace-ID and X-Real-IP (client-controlled) and a logged body are written unquoted, so a client can make two different requests leave the same line, or forge whole lines; proved when the header fields hold no bracket or bar."},
{"property": "C96", "status": "partial", "theorems": ["Water.C96_body", "Water.C96_whole", "Water.C96_returns", "Water.C96_again", "Water.C96_logged_partial", "Water.C96_logged_iff", "Water.C96_refuted", "Water.C96_refines"], "note": "Proved without Logger. False behind a Logger that logs JSON bodies: it throws the read error away, so the handler takes a cut-off body for a complete one; the exact condition is proved."},
{"property": "C97", "status": "partial", "theorems": ["Water.C97_file", "Water.C97_value_partial", "Water.C97_other", "Water.C97_refines", "Water.C97_refuted", "Water.C97_refuted_spelling"], "note": "FormFile never depends on the history. Query does in multipart requests that content.go:334-335 does not take for one (DELETE, or Multipart/Form-Data): it sees the values exactly if FormFile was called before."},
{"property": "C98", "status": "proved", "theorems": ["Water.C98_source", "Water.C98_query", "Water.C98_agree"], "note": "Into a zero struct. A pointer to a struct for which nothing is sent (empty slices only) cannot come back and is excluded, as are defaults behind nil pointers."},
{"property": "C99", "status": "proved", "theorems": ["Water.C99_names", "Water.C99_canonical", "Water.C99_header", "Water.C99_determined", "Water.C99_handler"], "note": ""},
{"property": "C100", "status": "proved", "theorems": ["Water.C100_websocket", "Water.C100_ajax", "Water.C100_protocol"], "note": "Only characters whose upper or lower case is an ASCII letter are mapped; results are compared with ASCII texts only."},
{"property": "C101", "status": "partial", "theorems": ["Water.C101_tree_partial", "Water.C101_router_partial", "Water.C101_unsupported", "Water.C101_refuted"], "note": "All lines are proved, from the table of registrations. The rule for corners fails beside the row of /: it is written on top, but the drawing counts it in its place below; counterexample."},
{"property": "C102", "status": "partial", "theorems": ["Water.C102_bind_partial", "Water.C102_bind2", "Water.C102_bind2_text", "Water.C102_texts", "Water.C102_common", "Water.C102_clock", "Water.C102_refuted", "Water.C102_refuted_go"], "note": "False of the code: Bind takes a number of nanoseconds and Bind2 what time.ParseDuration reads, so that 1s and 5 are each refused by one of them (C102_refuted_go). C102_common: the only texts that both take are 0, +0 and -0. time.ParseDuration is modelled and characterised by an iff (C102_texts); the float64 arithmetic of fractions is a parameter."},
{"property": "C103", "status": "partial", "theorems": ["Water.C103_bind_partial", "Water.C103_round_partial", "Water.C103_other", "Water.C103_refuted", "Water.C103_refuted_spelling"], "note": "Proved for POST, PUT and PATCH requests whose type is written multipart/form-data. Other methods and spellings are bound as plain forms, without files, and the values of the body are seen only after FormFile; counterexamples. A file is a number; the JSON and XML decoders are not modelled."},
{"property": "C104", "status": "partial", "theorems": ["Water.C104_refused_partial", "Water.C104_served_partial", "Water.C104_helpers", "Water.C104_status", "Water.C104_late", "Water.C104_stays", "Water.C104_noCache", "Water.C104_refuted", "Water.C104_refuted_recover"], "note": "Proved when the handlers before the refusal call Next at most once and respond when they recover from a panic; handlers after it are arbitrary. False without: Next called twice, and a silent recover around a refusal that panics, run what comes after it."},
{"property": "C105", "status": "partial", "theorems": ["Water.C105_result", "Water.C105_returns", "Water.C105_whole_partial", "Water.C105_trailing", "Water.C105_again_partial", "Water.C105_read_first", "Water.C105_logged", "Water.C105_refuted", "Water.C105_refuted_again"], "note": "The decoders (jsoniter, encoding/xml) are parameters with the four laws of OneValue: they read one value and do not look at what follows. So text after the value, and a connection that fails there, go unnoticed. Behind Logger Close does nothing and a second Bind goes on in the middle of the text; counterexamples."},
{"property": "C106", "status": "proved", "theorems": ["Water.C106_exact", "Water.C106_picked"], "note": "Exact value of every entry of Params, found or not, without conditions on the patterns. Without the static-route option, under which a literal route leaves Params as it was (C34)."},
{"property": "C107", "status": "proved", "theorems": ["Water.C107_served", "Water.C107_params", "Water.C107_differs", "Water.C107_miss"], "note": "Exact, for every table. C89_static_hit_partial gives the response of a hit as a composition of its handlers."},
{"property": "C108", "status": "proved", "theorems": ["Water.C108_refines", "Water.C108_function", "Water.C108_total", "Water.C108_session", "Water.C108_application", "Water.C108_composed_partial", "Water.C108_concurrent", "Water.C108_concurrent_any", "Water.C108_concurrent_application"], "note": "The chain in the reference server is run by the code's own driver (described by C24 to C28); C108_composed_partial replaces it by composition, for handlers as in C88. C108_session is for requests one after another, C108_concurrent for requests in parallel, where each is answered as alone in a world that gives the same answers. Assumes that net/http takes the codes 404, 405 and 406."},
{"property": "C109", "status": "proved", "theorems": ["Water.C109_construction", "Water.C109_forest", "Water.C109_routed", "Water.C109_serve", "Water.C109_refines"], "note": "Trees in memory (Model/TreeHeap) against the trees as values of Model/Tree: equality of everything served."},
{"property": "C110", "status": "partial", "theorems": ["Water.C110_exact", "Water.C110_handed_partial", "Water.C110_handed_refuted", "Water.C110_middleware", "Water.C110_callers", "Water.C110_chains", "Water.C110_engine_partial", "Water.C110_insert"], "note": "False of the handlers of a route: handle keeps the slice of the caller, and assigning to it before Handler changes the route (C110_handed_refuted). C110_exact says exactly what happens in all cases; the rest holds without condition."},
{"property": "C111", "status": "partial", "theorems": ["Water.C111_in_order", "Water.C111_no_skip", "Water.C111_written_stops", "Water.C111_onion", "Water.C111_sticky", "Water.C111_closed", "Water.C111_isolated", "Water.C111_wrapper", "Water.C111_recovery_partial", "Water.C111_recovery_refuted"], "note": "All clauses hold without condition but the last: Recovery answers through the writer it finds, so it panics itself if a handler installed nil or a writer that panics (C111_recovery_refuted); otherwise it keeps its promise (C111_recovery_partial)."},
{"property": "C112", "status": "proved", "theorems": ["Water.C112_construction", "Water.C112_memory", "Water.C112_types", "Water.C112_answers"], "note": "Applications over arbitrary types of handlers; SameCall relates registration calls that differ in handlers, and in the types they are handed over as, only."},
{"property": "C113", "status": "proved", "theorems": ["Water.C113_escape", "Water.C113_means", "Water.C113_inert", "Water.C113_reader", "Water.C113_faithful", "Water.C113_same"], "note": "C113_escape is about HTMLEscapeString on any text; the others about CookieEscape on any request."},
{"property": "C114", "status": "proved", "theorems": ["Water.C114_param", "Water.C114_query", "Water.C114_cookie", "Water.C114_round_trip", "Water.C114_path"], "note": "ParseFloat is a parameter. The path version has the conditions of C38_path (distinct names, no inner regexp name)."},
{"property": "C115", "status": "partial", "theorems": ["Water.C115_label_partial", "Water.C115_alike", "Water.C115_stream", "Water.C115_iff", "Water.C115_refuted"], "note": "False of the code: the helpers set the type after the status is sent (C31), so net/http guesses the type from the first 512 bytes, and a text that looks like a page is shown as one (C115_refuted). C115_label_partial says what every response is shown as, C115_iff that the claim depends on the guess alone, C115_stream that Stream keeps the promise. C130 has the exact condition with the guess of net/http. Spec/Label describes how net/http finishes a response."},
{"property": "C116", "status": "partial", "theorems": ["Water.C116_request", "Water.C116_unchanged", "Water.C116_contexts", "Water.C116_history", "Water.C116_kept_partial", "Water.C116_environ", "Water.C116_readonly", "Water.C116_refines", "Water.C116_refuted", "Water.C116_context_refuted"], "note": "False of the code with the option for static routes: a literal route leaves the Params of the previous request in the context, and a handler that assigns to ctx.Params changes the kept map (C116_refuted). It holds without the option (C116_history, C116_kept_partial); with the option for the Environ (C116_environ), and for the Params if handlers only read ctx.Params (C116_readonly). A context itself is not kept (C116_context_refuted). C116_refines relates serving with maps in memory to serve."},
{"property": "C117", "status": "partial", "theorems": ["Water.C117_independent", "Water.C117_process_partial", "Water.C117_same", "Water.C117_alone", "Water.C117_memory", "Water.C117_memory_initial", "Water.C117_memory_refuted"], "note": "Engines are independent for all histories (C117_process_partial); the limit for multipart forms is a package variable, so the last engine built decides it for all (C117_memory, C117_memory_refuted)."},
{"property": "C118", "status": "partial", "theorems": ["Water.C118_partial", "Water.C118_exact", "Water.C118_notfound", "Water.C118_refuted"], "note": "True for functions of water. For handlers of net/http it is the name of the function literal around them, for pointers usually empty, and values without an address panic: C118_exact says which in every case, C118_refuted is an instance. reflect and runtime.FuncForPC are described by their results."},
{"property": "C119", "status": "partial", "theorems": ["Water.C119_hidden_partial", "Water.C119_before_partial", "Water.C119_guarded_partial", "Water.C119_paths_partial", "Water.C119_refuted"], "note": "The last sentence is false: a path below the prefix may be served by a route outside of the group (C119_refuted). The rest is proved for all histories and handlers (C119_hidden_partial, C119_before_partial), with handlers in front of the guard that call Next at most once and respond when they recover (C104 shows why); C119_paths_partial says which paths are guarded."},
{"property": "C120", "status": "proved", "theorems": ["Water.C120_exact", "Water.C120_sound", "Water.C120_complete", "Water.C120_position", "Water.C120_gap", "Water.C120_end"], "note": "Events are those of C24-C28; a call of Next is counted where the code increments the index. C120_complete gives handlers that work on every request and from every state in which a chain begins; it needs a ResponseWriter that accepts the status 200."},
{"property": "C121", "status": "partial", "theorems": ["Water.C121_bind", "Water.C121_pointer", "Water.C121_slice", "Water.C121_bind2", "Water.C121_agree_partial", "Water.C121_readable", "Water.C121_sent", "Water.C121_refuted"], "note": "All clauses about texts are proved for both mappers (C121_agree_partial: they store the same time). False is only the last: Bind makes a nil pointer to a time point to the zero time although nothing is said about it; Bind2 leaves it nil (C121_refuted). time.ParseInLocation and time.LoadLocation are parameters."},
{"property": "C122", "status": "partial", "theorems": ["Water.C122_fetch_partial", "Water.C122_read", "Water.C122_ask", "Water.C122_safe", "Water.C122_named_partial", "Water.C122_first", "Water.C122_refuted", "Water.C122_refuted_star"], "note": "Proved for CORS as the first Before handler of an application with a NoFound option, exactly, with the order of the origins (C122_fetch_partial), and for every chain that begins with CORS (C122_read, C122_ask). Never more than configured (C122_safe); less in two cases: with Use, or without a NoFound option, the OPTIONS request of the browser finds no route and is answered 404 without any CORS header (C122_refuted), and an origin behind * in the list is not named, so that cookies do not work for it (C122_refuted_star). The browser is Spec/Fetch.lean."},
{"property": "C123", "status": "proved", "theorems": ["Water.C123_kept", "Water.C123_kept_ip", "Water.C123_read", "Water.C123_read_ip", "Water.C123_last", "Water.C123_last_ip", "Water.C123_escaped", "Water.C123_escaped_ip", "Water.C123_forgotten", "Water.C123_line"], "note": "The browser is Spec/Jar.lean: section 5 of RFC 6265 without public suffixes; SameSite is not in that RFC. net/http on the side of the server is modelled (Model/Cookie). Which texts net/http takes for IPv4 addresses is a parameter (digits and dots) or, in the theorems with ip in their names, as net.ParseIP has it."},
{"property": "C124", "status": "partial", "theorems": ["Water.C124_link_partial", "Water.C124_alone", "Water.C124_different", "Water.C124_readable", "Water.C124_refuted", "Water.C124_refuted_empty", "Water.C124_refuted_taken"], "note": "Exact for values that are not empty and have no slash (C124_link_partial: the link leads back iff the pattern wins against every other one that accepts the path, and then every value comes back). False for values with a slash (matching is done on the decoded path), empty ones, and ones that are the text of another pattern. The client sends the link as it is; browsers drop segments . and .. themselves."},
{"property": "C125", "status": "partial", "theorems": ["Water.C125_tags", "Water.C125_dates_partial", "Water.C125_date_exact", "Water.C125_unquoted", "Water.C125_refuted", "Water.C125_refuted_strict"], "note": "Holds for options with tags and caches that send any tag back (C125_tags). False without tags, and with tags for strict caches, since the tags have no quotes (C125_unquoted): a file replaced by one with an older time is answered with 304; exact condition in C125_date_exact, and true if times never go back (C125_dates_partial). http.ServeContent of go 1.15 is modelled (Model/Content); writing and reading dates are parameters with the law Dated, which C129 proves of net/http. The cache always asks (Expires is not used), the router has no middleware of its own, and files do not change while they are served."},
{"property": "C126", "status": "partial", "theorems": ["Water.C126_dates_partial", "Water.C126_download_partial", "Water.C126_tags", "Water.C126_exact", "Water.C126_refuted", "Water.C126_refuted_mixed"], "note": "Holds for downloads, and for static files without tags or with clients that do not send back tags without quotes, if no file has two contents in one second (C126_dates_partial, C126_download_partial: with the exact condition for 206). False without that: a file rewritten in the same second is put together with the bytes of the old one (C126_refuted_mixed; exact outcome in C126_exact). False with tags: they have no quotes, If-Range reads them as dates, and every download begins again (C126_tags, C126_refuted). http.ServeContent of go 1.15 is modelled; dates are parameters with the law PlainDate. Files do not change while they are served; sizes are below 2^63."},
{"property": "C127", "status": "partial", "theorems": ["Water.C127_accepts_partial", "Water.C127_served_partial", "Water.C127_values", "Water.C127_built", "Water.C127_dead", "Water.C127_alive", "Water.C127_whole", "Water.C127_digits", "Water.C127_first_run", "Water.C127_type", "Water.C127_go", "Water.C127_refuted", "Water.C127_refuted_dead", "Water.C127_refuted_colon"], "note": "False of the code: the expression need not describe the whole segment (C127_refuted), without groups it is never matched (C127_refuted_dead, C127_dead), and the name ends at a colon of the expression (C127_refuted_colon). Exact condition, for all expressions of the subset: C127_accepts_partial, C127_served_partial; what can be registered: C127_built; which group goes under which name: C127_values. It holds of expressions written ^(re)$ (C127_whole). C127_type: the type is no restriction. C127_go: the package as modelled (its parser and its search on the subset) meets the hypothesis Does for every expression. Which of several readings from the first position is preferred is said by the model (runs), in C127_first_run for runs of characters."},
{"property": "C128", "status": "partial", "theorems": ["Water.C128_partial", "Water.C128_exact", "Water.C128_same", "Water.C128_every", "Water.C128_refused", "Water.C128_bind", "Water.C128_bind2", "Water.C128_stored_partial", "Water.C128_refuted", "Water.C128_refuted_fraction", "Water.C128_refuted_other"], "note": "Holds for texts with capital T and Z, without leap second, with at most nine digits of a fraction: C128_partial, C128_same, C128_stored_partial; the calendar of the specification counts days one by one. False of the other texts of RFC 3339 (C128_refuted: refused; C128_refuted_fraction: a tenth of a nanosecond becomes one) and other texts are accepted (C128_refuted_other: hours of one digit, offsets +99:99 and +-5:00). Exact: C128_exact (all texts and moments), C128_refused (which texts of RFC 3339 are refused), C128_bind and C128_bind2 for whole structures. time.Parse of Go 1.15 with this layout is modelled; that a parsed time is the moment modelled is the hypothesis Parses3339."},
{"property": "C129", "status": "partial", "theorems": ["Water.C129_written", "Water.C129_only", "Water.C129_exact", "Water.C129_read", "Water.C129_round", "Water.C129_differs", "Water.C129_served_partial", "Water.C129_since_partial", "Water.C129_cache_partial", "Water.C129_resume_partial", "Water.C129_refuted", "Water.C129_refuted_years", "Water.C129_refuted_day"], "note": "Holds but for files of the first nanosecond of 1970 and of the zero time of Go, which have no date and are always sent (C129_refuted), and for texts that are no dates but are read: the day of the week is not checked, letters may be small, spaces several, the hour one digit, and seconds may have a fraction (C129_refuted_day; C129_exact says exactly which). C129_written and C129_only: the text that is written for every second of ten thousand years is the one of the specification, which counts days and days of the week one by one; C129_refuted_years shows that it is no date afterwards. C129_cache_partial and C129_resume_partial are C125 and C126 with the hypotheses on dates proved of net/http. The two obsolete formats are a parameter."},
{"property": "C130", "status": "partial", "theorems": ["Water.C130_page", "Water.C130_xml", "Water.C130_text", "Water.C130_shown_partial", "Water.C130_json_partial", "Water.C130_json_no_page", "Water.C130_write", "Water.C130_file", "Water.C130_refuted", "Water.C130_refuted_html", "Water.C130_refuted_xml", "Water.C130_refuted_json"], "note": "False of the code for all four helpers: a text is shown as a page (C130_refuted), a page that begins with another tag as text (C130_refuted_html), the XML of a type called Title as a page (C130_refuted_xml), a JSON value with LP at byte 34 as a font (C130_refuted_json). C130_shown_partial has the exact conditions with DetectContentType modelled; C130_json_partial and C130_json_no_page say that no JSON value is ever shown as a page; C130_write and C130_file hold of ctx.Write and of static files."},
{"property": "C131", "status": "partial", "theorems": ["Water.C131_read_partial", "Water.C131_file_partial", "Water.C131_query_partial", "Water.C131_saved_partial", "Water.C131_bind_partial", "Water.C131_memory", "Water.C131_cut", "Water.C131_name", "Water.C131_filename", "Water.C131_refuted_dropped", "Water.C131_refuted_escape", "Water.C131_refuted_quote", "Water.C131_refuted_empty", "Water.C131_refuted_merge"], "note": "Holds, for all bytes of texts and files, of the names that NameKept describes: not empty, without quotes and line breaks, no backslash at the end or before a special. C131_name and C131_filename say that exactly these arrive. Otherwise false: a control whose name ends in a backslash is dropped without an error (C131_refuted_dropped), escapes and quotes change names (C131_refuted_escape, C131_refuted_quote), two names can become one (C131_refuted_merge), and a file with an empty name is a text (C131_refuted_empty). The reader is mime/multipart, mime.ParseMediaType and textproto of Go 1.15, modelled; outside are temporary files (C131_memory: not needed if the files fit), continued parameters (RFC 2231) and quoted-printable, which the theorems show not to matter."},
{"property": "C132", "status": "partial", "theorems": ["Water.C132_read", "Water.C132_limit_partial", "Water.C132_limit", "Water.C132_same", "Water.C132_file", "Water.C132_refuted", "Water.C132_refuted_total", "Water.C132_refuted_names"], "note": "For all bodies and calls. False of the code: FormFile uses the 32 MiB of net/http whatever WithMaxMultipartMemory says (C132_refuted), a text of limit + 10 MiB and a file of the limit behind it are both held (C132_refuted_total), and names are not counted at all (C132_refuted_names). What holds: C132_limit_partial (files at most the limit, all at most 2 limits + 10 MiB, without FormFile; by C132_refuted_total the best bound), C132_limit (with FormFile: the larger of limit and 32 MiB). C132_same and C132_file: the limits change nothing else."},
{"property": "C133", "status": "partial", "theorems": ["Water.C133_local", "Water.C133_as_is", "Water.C133_there", "Water.C133_leaves_partial", "Water.C133_stays_partial", "Water.C133_sent_partial", "Water.C133_refuted", "Water.C133_refuted_percent", "Water.C133_refuted_fragment"], "note": "url.Parse of Go 1.15 is modelled as http.Redirect asks it, and shown to accept exactly the references without scheme and host (C133_local). False of the code: the address is cleaned with the backslash and the fragment in it, so that /./\\evil.example, which stays, becomes /\\evil.example, which leaves (C133_refuted); the fragment is changed or lost (C133_refuted_fragment). What holds: with no backslash in the address, no tab or line end in the fragment and, for relative addresses, none of these in the path of the request, a browser leaves only where the address says so."},
{"property": "C134", "status": "partial", "theorems": ["Water.C134_opened", "Water.C134_refused", "Water.C134_index", "Water.C134_missing", "Water.C134_sent_partial", "Water.C134_exact", "Water.C134_directory", "Water.C134_listing", "Water.C134_registers", "Water.C134_refuted"], "note": "http.ServeFile of Go 1.15 is modelled whole. False of the code: StaticFile(\"/index.html\", f) never sends f, every request is answered with 301 to ./ (C134_refuted, C134_index), a path with .. as an element gets 400 (C134_refused), and a name that ends with .. opens the directory before it (C134_opened). C134_exact: a file that is there is sent exactly for the other paths; C134_missing, C134_directory and C134_listing cover the other branches."},
{"property": "C135", "status": "proved", "theorems": ["Water.C135_static", "Water.C135_single"], "note": "With http.Redirect, http.ServeFile and http.ServeContent modelled. Prefixes have ordinary elements, and the prefix itself with a slash at the end is not below it (see C48). The header is the one that handlers set; what net/http adds when it sends it (Date, Content-Length of short bodies) is not modelled."},
{"property": "C136", "status": "proved", "theorems": ["Water.C136_same", "Water.C136_told", "Water.C136_ends", "Water.C136_goes_on", "Water.C136_added", "Water.C136_attachment"], "note": "With http.ServeFile and http.ServeContent modelled. Codes from 100 to 999 are accepted by the writer, as net/http does. Not modelled: net/http drops what is written beyond a Content-Length that was set, so that what is added behind a file by C136_added is dropped there, and shows behind error pages and lists of directories."},
{"property": "C137", "status": "partial", "theorems": ["Water.C137_link_partial", "Water.C137_page_partial", "Water.C137_nowhere", "Water.C137_refuted", "Water.C137_script_refuted"], "note": "False for names with an ampersand: net/http does not escape the address for HTML, so that a&lt;b is a link to a<b, and javascript&colon;alert(1) one that runs a script. Proved for all other names. C137_nowhere: in the list of a directory served by StaticFile the links never lead to the entries, as there is one address for all of it. The reader of HTML in the statement knows six character references, and takes a carriage return for itself."},
{"property": "C138", "status": "partial", "theorems": ["Water.C138_says", "Water.C138_shown", "Water.C138_one", "Water.C138_string_partial", "Water.C138_strings", "Water.C138_safe", "Water.C138_sent", "Water.C138_no_page", "Water.C138_refuted", "Water.C138_names_refuted"], "note": "False for strings that are not valid UTF-8 (each byte that belongs to no character arrives as U+FFFD; C138_string_partial: exactly for these), and the names of fields are not made safe for pages (C138_names_refuted). All else is proved for all values. Go values are trees: MarshalJSON, omitempty, the order of the keys of a map and the text of a floating-point number are taken as given."},
{"property": "C139", "status": "partial", "theorems": ["Water.C139_exact_partial", "Water.C139_replaced", "Water.C139_skipped", "Water.C139_case", "Water.C139_bind_partial", "Water.C139_decoder", "Water.C139_refuted", "Water.C139_fresh_refuted"], "note": "False in general (C139_refuted: a pointer to a nil slice comes back nil; C139_fresh_refuted: elements of a slice that is there keep what is not sent). C139_exact_partial is the exact condition, ReadBack: valid UTF-8, no pointers to nil, and what is not sent is in the variable already. C139_replaced: if all is sent, the target does not matter. How jsoniter reads text is a law (ReadsJson), with a decoder that meets it (C139_decoder). Embedded fields, []byte, floats, times, maps and the option string are left out."},
{"property": "C140", "status": "partial", "theorems": ["Water.C140_wellformed", "Water.C140_text", "Water.C140_exact_partial", "Water.C140_bind_partial", "Water.C140_skipped", "Water.C140_string", "Water.C140_spaces", "Water.C140_decoder", "Water.C140_refuted", "Water.C140_fresh_refuted"], "note": "Well-formed and unambiguous for all values (C140_wellformed, C140_text). The round trip is false in general (C140_refuted: omitempty drops empty elements of a slice; C140_fresh_refuted: elements are added to a slice that is there). C140_exact_partial is the exact condition for new variables, XmlBack. How encoding/xml reads text is a law (ReadsXml) for texts without attributes, comments and CDATA, with a decoder that meets it (C140_decoder). Embedded fields, XMLName, []byte, floats, times, attributes and paths are left out."},
{"property": "C141", "status": "partial", "theorems": ["Water.C141_xml_label", "Water.C141_xml_ignored", "Water.C141_json_ignored", "Water.C141_json_partial", "Water.C141_xml_partial", "Water.C141_refuted"], "note": "False for every value: the response comes as text, as a page or as a font (C141_xml_label, C130_json_partial), and Bind does not look at a body of these types (C141_json_ignored, C141_xml_ignored). If the client names the type that the helper means to give, and does not use GET, the value comes back (C141_json_partial, C141_xml_partial). Sniffing and ParseMediaType are modelled; the decoders are laws as in C139 and C140."},
{"property": "C142", "status": "partial", "theorems": ["Water.C142_silent", "Water.C142_same", "Water.C142_body", "Water.C142_label_partial", "Water.C142_no_page_partial", "Water.C142_declared", "Water.C142_refuted", "Water.C142_page_refuted"], "note": "That a stable program tells nothing and that the report comes after what was sent are proved (C142_silent, C142_same, C142_body). That the report is never a page holds if nothing was sent and no Content-Type, Content-Encoding or Transfer-Encoding was set (C142_no_page_partial; C142_label_partial says exactly what it is taken for: text, data or a font). False otherwise: a type that was set before the panic stays (C142_declared), so a handler that announced a page and crashes with input of the visitor sends a script (C142_refuted, C142_page_refuted)."},
{"property": "C143", "status": "partial", "theorems": ["Water.C143_lines", "Water.C143_request", "Water.C143_tags", "Water.C143_tags2", "Water.C143_string", "Water.C143_strings", "Water.C143_string2", "Water.C143_untagged_partial", "Water.C143_refuted"], "note": "Spellings do not matter: proved for both mappers and whole structs (C143_request, C143_tags, C143_tags2), with the values of strings (C143_string, C143_string2) and slices (C143_strings). Fields without a tag are left alone by Bind (C143_untagged_partial); Bind2 fills them from the header named like the field, so that a client can set a field that was not meant for it (C143_refuted)."},
{"property": "C144", "status": "partial", "theorems": ["Water.C144_exact", "Water.C144_named_partial", "Water.C144_listed_partial", "Water.C144_direct_partial", "Water.C144_forged", "Water.C144_last", "Water.C144_refuted", "Water.C144_refuted_six", "Water.C144_refuted_twice"], "note": "False as stated. C144_exact gives the answer for every chain and every header. It is the address of the client if the first proxy and no other sets X-Real-IP (C144_named_partial), if an honest client is behind proxies that only add to the list (C144_listed_partial), and for an honest client of version 4 without proxies (C144_direct_partial). A client chooses the answer unless some proxy sets X-Real-IP (C144_forged, C144_refuted); addresses of version 6 come with brackets (C144_refuted_six); the last proxy to set X-Real-IP wins (C144_last, C144_refuted_twice)."},
{"property": "C145", "status": "proved", "theorems": ["Water.C145_registers", "Water.C145_sent", "Water.C145_missing"], "note": "The file is named by where paths lead from any working directory (Spec walk), not by the path that the code makes of it."},
{"property": "C146", "status": "proved", "theorems": ["Water.C146_bind", "Water.C146_bind2", "Water.C146_map"], "note": "C124 and the round trips C90 and C98 fit together. The handler that copies ctx.Params into the map for binding.Uri is user code: the map is any one with these values (ParamsForm), and C146_map says that there is one."},
{"property": "C147", "status": "partial", "theorems": ["Water.C147_bind_partial", "Water.C147_bind2_partial", "Water.C147_exact_partial", "Water.C147_exact2_partial", "Water.C147_text", "Water.C147_arrives", "Water.C147_kept", "Water.C147_listed", "Water.C147_refuted", "Water.C147_refuted_host"], "note": "False as stated: blanks at the ends of a text and line breaks are lost on the wire (C147_refuted; C147_text says exactly which texts arrive, C147_exact_partial and C147_exact2_partial what comes back for every struct), and net/http keeps Host and a few other fields for itself (C147_refuted_host). Proved for all other texts and names. The limit on the size of a header is not modelled."},
{"property": "C148", "status": "proved", "theorems": ["Water.C148_names", "Water.C148_cached", "Water.C148_asked", "Water.C148_safe", "Water.C148_taken"], "note": "The rule of caches is in Spec/Vary, the checks of browsers in Spec/Fetch. C148_taken shows that a handler that deletes Vary makes caches give configured pages responses that they cannot read; C148_safe that they never get more."},
{"property": "C149", "status": "partial", "theorems": ["Water.C149_partial", "Water.C149_exact_partial", "Water.C149_query_partial", "Water.C149_refuted"], "note": "False as stated: white space around values is lost, and keys that are empty or hold a closing bracket, as names that are empty or hold an opening one, do not come back (C149_refuted). C149_exact_partial says exactly which maps come back."},
{"property": "C150", "status": "partial", "theorems": ["Water.C150_exact_partial", "Water.C150_read", "Water.C150_old", "Water.C150_unnamed", "Water.C150_refuted", "Water.C51_attachment"], "note": "False for names with a colon, a sign of equality or an at sign, which url.PathEscape leaves as they are and RFC 5987 does not allow (C150_refuted), and for names that are not UTF-8. C150_exact_partial: these are the only ones; C150_read: a reader by the grammar never takes another name. C150_old is about readers that do not know the parameter with a star."},
{"property": "C151", "status": "partial", "theorems": ["Water.C151", "Water.C151_text_partial", "Water.C151_refuted"], "note": "C151 is the statement for the list of lines. For the text, with a line feed after each line, it is false: a pattern may hold a line feed and the line of another route behind it (C151_refuted). C151_text_partial: it holds if no pattern has a line feed. Both applications must use EnableStaticRouter alike, which is not printed."},
{"property": "C152", "status": "proved", "theorems": ["Water.C152", "Water.C152_attachment", "Water.C152_sent_back"], "note": "C152 for static files, C152_attachment for ctx.Attachment. C152_sent_back says what happens to a condition that is not well formed: the tags of StaticAdvance have no quotes, and a client that sends one back in If-Match is always refused with 412. http.ServeContent is modelled (Go 1.15); obsolete date formats are a parameter."},
{"property": "C153", "status": "partial", "theorems": ["Water.C153_partial", "Water.C153_parts", "Water.C153_refuted", "Water.C153_large", "Water.C153_units"], "note": "False of the last 0 bytes, and of the last bytes of an empty file: the answer is 206 with a range that ends before it begins (C153_refuted); of positions from 2^63 on, which are refused (C153_large); and of other units, which are refused (C153_units). C153_partial is the statement without these. C153_parts: several ranges are found in the answer by a client with the reader of mime/multipart, if the random boundary is not in the file. http.ServeContent and multipart.Writer are modelled (Go 1.15)."},
{"property": "C154", "status": "proved", "theorems": ["Water.C154", "Water.C154_app", "Water.C154_value", "Water.C154_content", "Water.C154_cookie", "Water.C154_redirect", "Water.C154_middleware", "Water.C154_files", "Water.C154_names"], "note": "C154 for every chain of handlers that use names of fields for names, C154_app for every application of such handlers and every request; C154_content, C154_cookie, C154_redirect, C154_middleware and C154_files show that every helper does, whatever it is given. C154_names shows that the names matter: a handler that takes the name of a field from outside can be made to set a cookie. The writing of the head is modelled (net/http, Go 1.15); which fields net/http adds and the order of lines are arbitrary."},
{"property": "C155", "status": "partial", "theorems": ["Water.C155_partial", "Water.C155_lacking", "Water.C155_http2", "Water.C155_same_iff", "Water.C155_refuted"], "note": "False: rw.(ResponseWriter) panics for a writer that lacks one of the three methods, so every routed HTTP/2 request panics before any handler (so also before Recovery) and its context is lost (C155_http2, for all engines). C155_partial: requests turned away before routing and writers with all three methods, so all HTTP/1 requests; C155_same_iff is the exact condition."},
{"property": "C156", "status": "partial", "theorems": ["Water.C156_partial", "Water.C156_settles", "Water.C156_unseen", "Water.C156_refuted"], "note": "False: a Flush before the answer has begun sends 200, which ctx.Written does not see (C156_unseen), and nothing can change it afterwards (C156_settles, for all handlers at any point of a chain). C156_partial: once the answer has begun a Flush changes nothing."},
{"property": "C157", "status": "partial", "theorems": ["Water.C157_cases", "Water.C157_partial", "Water.C157_nothing", "Water.C157_broken", "Water.C157_simple", "Water.C157_refuted"], "note": "False: once a byte was copied the client receives 200 whatever handlers do about the error (C157_broken), and an empty stream sends nothing, so later handlers answer (C157_nothing). C157_partial: a text that is not empty, in any pieces, without failure. C157_cases: there are no other cases."},
{"property": "C158", "status": "partial", "theorems": ["Water.C158_partial", "Water.C158_unused", "Water.C158_last", "Water.C158_args", "Water.C158_default", "Water.C158_nil", "Water.C158_nil_500", "Water.C158_refuted"], "note": "False: the render is one variable of the process, so the application that calls SetRender last makes the pages of all (C158_last, for every history). C158_partial: as alone if no other application calls SetRender; C158_unused: or if it makes no pages with HTML. C158_nil, C158_nil_500: a nil render."},
{"property": "C159", "status": "proved", "theorems": ["Water.C159", "Water.C159_swap", "Water.C159_last", "Water.C159_rejected"], "note": "C159_swap: neighbouring options of different kinds may be exchanged. C159_last: one before another of its kind may be left out."},
{"property": "C160", "status": "proved", "theorems": ["Water.C160", "Water.C160_accepted", "Water.C160_late", "Water.C160_pieces"], "note": "C160_accepted: exactly which histories run without a panic. C160_late: all middleware last. C160_pieces: Use and Before in pieces. The handlers given are lists here; slices that programs share are in C110."},
{"property": "C161", "status": "proved", "theorems": ["Water.C161", "Water.C161_raw", "Water.C161_body", "Water.C161_sent", "Water.C161_outer", "Water.C161_recovered"], "note": "C161: before anything was sent; simulation between the chain on the connection and the chain on the outer context. C161_raw: with ctx.ResponseWriter after a status line; the same is sent but for status lines after the first, which net/http ignores. C161_sent: after the outer application answered, also for handlers that use ctx.ResponseWriter. C161_recovered: with the outer Recovery around it, for handlers that write through their context and before anything was sent. C161_outer: the rest of the outer context is as before. The outer handlers have not parsed the form of the request, and a form the mounted ones parse is not carried over."}
]}
