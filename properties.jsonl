{"id": "C01", "title": "Header names are case-insensitive and canonical", "statement": "Two strings name the same header exactly when both are ASCII and they are equal up to ASCII letter case. A constructed header name prints as the lowercase form of its input, constructing from a printed name gives the same name back, and any string with a non-ASCII character is refused by the checked constructors (the infallible `From<&str>` conversion panics exactly on those).", "quantifier": "all pairs of strings", "why_tests_cant": "The set of strings is infinite and the claim is an if-and-only-if between two inputs; tests sample a few spellings of one name.", "anchors": ["src/headers/header_name.rs: HeaderName::from_bytes, from_string, FromStr, From<&str>, PartialEq<str>, as_str"]}
{"id": "C02", "title": "A header collection behaves like a map from names to value lists", "statement": "After any sequence of insert, append and remove calls, looking up a name returns exactly the values given by the last insert of that name (under any letter case) since it was last removed, followed in order by every value appended since; names never mentioned are absent; insert and remove return the previously stored list. Operations on one name never affect another name.", "quantifier": "all finite histories of insert/append/remove calls with arbitrary names and values, and all looked-up names", "why_tests_cant": "Histories are unbounded and interleave many names; a test fixes one short history.", "anchors": ["src/headers/headers.rs: Headers::insert, append, get, remove", "src/headers/header_values.rs: HeaderValues::append"]}
{"id": "C03", "title": "A rejected header write leaves the collection untouched", "statement": "If insert or append is given a value that is not ASCII it returns an error with status 500 and every later lookup gives the same answer as before the call; it is rejected only for that reason.", "quantifier": "all collections, names and value strings", "why_tests_cant": "Requires quantifying over every prior state and every invalid value.", "anchors": ["src/headers/headers.rs: Headers::insert, append", "src/headers/to_header_values.rs", "src/headers/header_value.rs: HeaderValue::from_str"]}
{"id": "C04", "title": "Stored header data stays ASCII and lowercase-keyed", "statement": "Through the safe string API, every stored header name is lowercase ASCII and every stored value is ASCII, after any history. (Violated by values built from a media type: a `Mime` parsed from a string may carry U+0080..U+00FF in a parameter and converts to a header value without a check.)", "quantifier": "all histories of header operations; all media types", "why_tests_cant": "An invariant over unbounded histories; the violating input needs a quoted Latin-1 parameter that tests never use.", "anchors": ["src/headers/headers.rs: Headers::insert, append", "src/headers/header_value.rs: HeaderValue::from_str", "src/mime/mod.rs: ToHeaderValues for Mime, From<Mime> for HeaderValue", "src/request.rs: set_content_type"]}
{"id": "C05", "title": "A present header has at least one value", "statement": "Whenever a header is present it has at least one value, so reading its first or last value cannot panic. (Violated: inserting an empty slice of header values stores an empty list, and moving the values of a header into another one leaves it without values; the documented accessors then panic. Proved for every history that does neither.)", "quantifier": "all histories of insert/append/remove with arbitrary value lists", "why_tests_cant": "The documented invariant ranges over all histories; the violating call (an empty slice) is absent from the tests.", "anchors": ["src/headers/header_values.rs: HeaderValues::last, Deref, AsRef", "src/headers/headers.rs: Headers::insert", "src/headers/to_header_values.rs"]}
{"id": "C06", "title": "Iterating header values visits every value exactly once", "statement": "Iterating over all values of a collection yields, for each name, its values in order, each exactly once and nothing else, in whatever order the names are visited; iterating over one header's list yields exactly the list. The advertised size hint of the collection iterator is a correct bound. (The last part is violated: the hint counts names, not values.)", "quantifier": "all collections, all hash-map visiting orders", "why_tests_cant": "Needs every shape of collection, including empty lists in the middle and multi-valued names, and every iteration order.", "anchors": ["src/headers/values.rs: Values::next, size_hint", "src/headers/headers.rs: Headers::values, iter, names", "src/headers/header_values.rs: HeaderValues::iter"]}
{"id": "C07", "title": "Indexing and comparing headers", "statement": "`headers[name]` panics exactly when the name is absent (or not ASCII), otherwise equals `get`. A value list compares equal to a string exactly when it holds that single value, and equal to a slice of strings exactly when the lists agree element by element.", "quantifier": "all collections, names, strings", "why_tests_cant": "Equivalences over all inputs including panicking ones.", "anchors": ["src/headers/headers.rs: Index", "src/headers/header_values.rs: PartialEq impls", "src/headers/header_value.rs: PartialEq impls"]}
{"id": "C08", "title": "A body with a declared length never yields more than that", "statement": "Reading a body with declared length n, with any sequence of buffer sizes and any behaviour of the underlying reader (short reads, would-block, errors, retries), yields only a prefix of the first n bytes of the reader; when a read with a non-empty buffer returns 0 the bytes delivered are exactly the first n bytes available (or all, if there are fewer). Without a declared length the bytes are exactly those of the reader.", "quantifier": "all readers, data, declared lengths, buffer-size sequences and poll schedules", "why_tests_cant": "The set of poll schedules and buffer sizes is infinite; unit tests fix one cursor and buffer sizes 1..12.", "anchors": ["src/body.rs: AsyncRead for Body::poll_read, Body::from_reader"]}
{"id": "C09", "title": "Chaining bodies concatenates them", "statement": "Reading `a.chain(b)` to the end yields the remaining declared bytes of `a` followed by the remaining declared bytes of `b`, for any schedule; its length is the sum of the remaining lengths when both are known and the sum fits in 64 bits, otherwise unknown; its fallback media type is the common one or application/octet-stream. Chaining never panics on bodies that were read before through the read interface.", "quantifier": "all pairs of bodies in any partially-read state, all schedules and buffer sizes", "why_tests_cant": "Partially-read states times schedules are unbounded.", "anchors": ["src/body.rs: Body::chain, poll_read"]}
{"id": "C10", "title": "The buffered read interface honours the declared length", "statement": "Bytes obtained through the buffered interface (fill_buf/consume) never exceed the declared length, and mixing it with plain reads never yields more than the declared length. (Violated for every reader and length: the buffered interface ignores the length and does not count consumed bytes. Proved when the reader holds no more than the declared length or there is no declared length; in general, for any mixture: bytes arrive in order, nothing panics, plain reads are limited to the declared length of their own.)", "quantifier": "all readers, lengths and sequences of fill_buf/consume/read calls", "why_tests_cant": "The violation appears only when a reader holds more than the declared length and the buffered interface is used; no test does both.", "anchors": ["src/body.rs: AsyncBufRead for Body::poll_fill_buf, consume"]}
{"id": "C11", "title": "Bytes and strings survive a body", "statement": "A body built from bytes or a string reports their exact length, reading it to the end gives the same bytes back whatever the schedule, and converting to a string succeeds exactly when the declared prefix is valid UTF-8, giving status 422 otherwise.", "quantifier": "all byte strings, all schedules", "why_tests_cant": "Round trip over unbounded data and schedules.", "anchors": ["src/body.rs: Body::from_bytes, from_string, into_bytes, into_string, len, is_empty"]}
{"id": "C12", "title": "Body operations never overwrite an explicit content type", "statement": "Setting, replacing, swapping or taking the body of a request or response sets the Content-Type header from the body's media type only when no Content-Type is present; if one is present it is left as it is. After any sequence of body operations following an explicit content type, the content type reported is the one set explicitly. No other header is changed.", "quantifier": "all requests/responses and all finite sequences of body operations", "why_tests_cant": "Invariant over unbounded operation sequences.", "anchors": ["src/request.rs: set_body, replace_body, swap_body, take_body, copy_content_type_from_body, set_content_type", "src/response.rs: same"]}
{"id": "C13", "title": "Trailers are delivered exactly once", "statement": "For every interleaving of the sender and the receiver, the receiver yields the trailers that were sent (once), or nothing when the sender was dropped without sending; nothing is duplicated or invented, and obtaining the sender or receiver a second time panics. A cloned request has neither half.", "quantifier": "all interleavings of taking, sending, dropping and polling", "why_tests_cant": "Concurrency: the property ranges over all interleavings.", "anchors": ["src/trailers.rs: Sender::send, Receiver::poll", "src/request.rs: send_trailers, recv_trailers, Clone", "src/response.rs: send_trailers, recv_trailers"]}
{"id": "C14", "title": "At most one trailer/upgrade sender exists per message", "statement": "For one message at most one trailer sender (and at most one upgrade sender) can ever be handed out, also counting clones. (Violated for responses: cloning a response clones the channel ends, so each clone hands out its own sender and a second send can wait forever. Proved for requests.)", "quantifier": "all histories of send_trailers/recv_trailers/clone over a family of clones", "why_tests_cant": "The violating history involves cloning before taking; ranges over histories.", "anchors": ["src/response.rs: Clone for Response, send_trailers, send_upgrade", "src/request.rs: Clone for Request", "src/trailers.rs: Sender docs"]}
{"id": "C15", "title": "Extensions behave like one slot per type", "statement": "After any history of insert, remove and clear, getting a type returns the last value of that type inserted since its last removal or clear, insert and remove return the previous value of that type, `contains` agrees with `get`, and operations on one type never affect another.", "quantifier": "all histories over any set of types and values", "why_tests_cant": "Unbounded histories over an open set of types.", "anchors": ["src/extensions.rs: Extensions::insert, contains, get, get_mut, remove, clear"]}
{"id": "C16", "title": "Effective host and remote address follow the documented priority", "statement": "`remote()` is the `for` element of Forwarded if present, else the first comma-separated element of X-Forwarded-For, else the peer address; `host()` is the `host` element of Forwarded, else the first element of X-Forwarded-Host, else the Host header, else the URL host. (Violated where Forwarded is legal but has spaces after ';', a quoted value or several for-elements: the element is missed or returned with its quotes. Proved for elements in the plain form, and for every text exactly which element is taken.)", "quantifier": "all requests (header collections, peer addresses, URLs)", "why_tests_cant": "Decision over all combinations of headers and all values.", "anchors": ["src/request.rs: Request::remote, host, forwarded_header_part, forwarded_for"]}
{"id": "C17", "title": "HTTP methods round-trip and parse case-insensitively", "statement": "Parsing succeeds exactly for strings that equal a method's printed name up to ASCII case and gives that method; printing then parsing is the identity; distinct methods print differently; all methods reported safe are exactly the eight registered safe ones.", "quantifier": "all strings and all methods", "why_tests_cant": "All strings, including every wrong one, must be rejected.", "anchors": ["src/method.rs: FromStr, AsRef, Display, Method::is_safe"]}
{"id": "C18", "title": "Status codes convert faithfully to and from numbers", "statement": "A 16-bit number converts to a status code exactly when it is one of the supported numbers, and converting back gives the same number; each status is in exactly one of the five classes, determined by its hundreds digit; distinct statuses print distinct numbers.", "quantifier": "all 16-bit numbers, all status codes", "why_tests_cant": "All 65536 numbers and the uniqueness of the table.", "anchors": ["src/status_code.rs: TryFrom<u16>, From<StatusCode> for u16, is_informational, is_success, is_redirection, is_client_error, is_server_error"]}
{"id": "C19", "title": "Deserialising a status code accepts only its own number", "statement": "Deserialising an integer as a status code succeeds exactly when the integer is a supported status number. (Violated: wider integers are truncated to 16 bits, so 65736 deserialises to 200. Proved for integers in 0..65535.)", "quantifier": "all integers", "why_tests_cant": "The violating inputs are outside any range a test would choose.", "anchors": ["src/status_code.rs: mod serde, StatusCodeU16Visitor"]}
{"id": "C20", "title": "Protocol versions order and print consistently", "statement": "Deserialising a printed version gives it back, no other string deserialises, and the order on versions agrees with the numeric protocol version.", "quantifier": "all strings and pairs of versions", "why_tests_cant": "All strings.", "anchors": ["src/version.rs: AsRef, serde visitor, derived Ord"]}
{"id": "C21", "title": "Attaching a status changes only failures", "statement": "`.status(s)` on a success (or present option) returns it unchanged whatever s is; on a failure it yields a failure whose status is s, keeping the underlying error; it panics exactly when there is a failure and s is not a supported status. The lazy variant evaluates its closure only on failure. Errors converted without a status have status 500.", "quantifier": "all results, options and status numbers", "why_tests_cant": "All combinations of outcome and status including invalid statuses.", "anchors": ["src/status.rs: Status::status, with_status", "src/error.rs: Error::new, from_str, set_status, From<E>"]}
{"id": "C22", "title": "Media types survive printing and parsing", "statement": "For every string that parses as a media type, printing the result and parsing again gives the same media type, and printing is idempotent.", "quantifier": "all strings", "why_tests_cant": "The grammar has unbounded parameters, escapes and quoting.", "anchors": ["src/mime/parse.rs: parse, format", "src/mime/mod.rs: FromStr, Display"]}
{"id": "C23", "title": "Parsed media types are well formed", "statement": "Every media type obtained by parsing has a non-empty lowercase token basetype and subtype, its essence is basetype/subtype, parameter names are non-empty lowercase tokens without duplicates, and parameter values contain only legal quoted-string characters; parsing never panics.", "quantifier": "all strings", "why_tests_cant": "All inputs, including non-ASCII ones.", "anchors": ["src/mime/parse.rs: parse", "src/mime/mod.rs: basetype, subtype, essence, param"]}
{"id": "C24", "title": "Media type parameters are looked up by name", "statement": "`param` finds a parameter regardless of letter case and returns the first occurrence in the input, `charset=utf-8` included; removing a parameter makes it absent and leaves the others. (Violated when the input has both another charset and charset=utf-8: lookup returns utf-8 even if it comes second, and one removal leaves the other visible. A non-ASCII name given as a string panics.)", "quantifier": "all media types obtained by parsing, all names", "why_tests_cant": "Needs all parameter lists.", "anchors": ["src/mime/mod.rs: Mime::param, remove_param", "src/mime/parse.rs: parse"]}
{"id": "C25", "title": "Media type matching is a preorder", "statement": "Every media type matches itself and `*/*`; matching is transitive; a type matches `type/*` exactly when its basetype agrees; parameters of the pattern must be present with the same value. (Reflexivity violated for a type with both a non-utf-8 and a utf-8 charset parameter; a charset=utf-8 of the pattern is not required.)", "quantifier": "all triples of media types", "why_tests_cant": "Algebraic law over all triples.", "anchors": ["src/mime/mod.rs: Mime::subset_eq"]}
{"id": "C26", "title": "Formatting a date then parsing it is the identity", "statement": "For every time from 1970-01-01T00:00:00Z up to and including 9999-12-31T23:59:59Z, writing it as an HTTP date and parsing that gives the same time truncated to whole seconds; the written text has the IMF-fixdate form with the correct Gregorian date, time and weekday; writing a time outside the range panics.", "quantifier": "all times", "why_tests_cant": "Leap years, centuries and month ends across eight thousand years.", "anchors": ["src/utils/date.rs: fmt_http_date, parse_http_date, From<SystemTime> for HttpDate, From<HttpDate> for SystemTime, Display, FromStr"]}
{"id": "C27", "title": "All three date formats denote the same instant", "statement": "For every valid Gregorian date-time whose weekday name is right, the IMF-fixdate, RFC 850 and asctime spellings parse to the instant they denote (RFC 850 with the two-digit-year window 1970-2069), whatever the surrounding whitespace; any accepted text parses to the instant of the date fields it spells, and anything else gives status 400 without panicking.", "quantifier": "all calendar date-times and all strings", "why_tests_cant": "All dates times three formats; rejection ranges over all strings.", "anchors": ["src/utils/date.rs: parse_imf_fixdate, parse_rfc850_date, parse_asctime, is_valid, FromStr"]}
{"id": "C28", "title": "Accepted dates exist", "statement": "Every text accepted as an HTTP date denotes a real calendar day whose weekday matches. (Violated: days are only checked to be at most 31 and weekdays are not checked, so 31 Feb and a wrong weekday are accepted. Proved: month, hour, minute, second and day ranges always hold.)", "quantifier": "all strings", "why_tests_cant": "All strings; the violating ones are rarely in tests.", "anchors": ["src/utils/date.rs: is_valid, FromStr"]}
{"id": "C29", "title": "Date headers round-trip", "statement": "Writing and reading back the Date, Expires, Last-Modified, If-Modified-Since, If-Unmodified-Since and (date-valued) Retry-After headers gives the same instant in whole seconds; when a header appears several times the last one is used; a malformed date gives status 400.", "quantifier": "all times in the supported range, all header collections", "why_tests_cant": "All times and all collections.", "anchors": ["src/other/date.rs", "src/cache/expires.rs", "src/conditional/last_modified.rs", "src/conditional/if_modified_since.rs", "src/conditional/if_unmodified_since.rs", "src/other/retry_after.rs"]}
{"id": "C30", "title": "Age round-trips", "statement": "Writing an Age and reading it back gives the same whole number of seconds. (Violated above 2^53 seconds: the value is rounded through a double and near 2^64 reading panics. Proved up to 2^53, and exactly which values survive.)", "quantifier": "all durations, all header values", "why_tests_cant": "The violating values are beyond any test.", "anchors": ["src/cache/age.rs: Age::from_headers, header_value"]}
{"id": "C31", "title": "Cache-Control directives survive a round trip", "statement": "Writing a list of cache directives and reading it back gives the same list. (Violated for s-maxage, which is written as s-max-age and silently dropped when read. Proved for lists of all other directives.) Unknown directives are skipped without affecting the others; a malformed number gives status 400; reading never panics.", "quantifier": "all lists of directives; all header values", "why_tests_cant": "All lists and all strings.", "anchors": ["src/cache/cache_control/cache_control.rs", "src/cache/cache_control/cache_directive.rs"]}
{"id": "C32", "title": "Clear-Site-Data round-trips", "statement": "Writing a set of directives and wildcard and reading it back gives the same. (Violated for the empty policy, and reading panics on any unrecognised directive.)", "quantifier": "all directive lists; all header values", "why_tests_cant": "All strings; panic on unknown input is not tested.", "anchors": ["src/cache/clear_site_data/mod.rs", "src/cache/clear_site_data/directive.rs"]}
{"id": "C33", "title": "Entity tags round-trip exactly", "statement": "Parsing accepts exactly `\"...\"` or `W/\"...\"` whose content has only legal etag characters, gives status 400 otherwise, never panics, and printing gives back the accepted text; printing then parsing any etag with legal content is the identity. Making a tag from any text gives one that prints that text between quotes; only a build with debug assertions panics, exactly if the text has a backslash.", "quantifier": "all strings; all entity tags", "why_tests_cant": "All strings.", "anchors": ["src/conditional/etag.rs: from_str, Display, from_headers, header_value"]}
{"id": "C34", "title": "If-Match / If-None-Match lists round-trip", "statement": "Writing a list of entity tags with optional wildcard and reading it back gives the same. (Violated for a tag containing a comma and for the empty list; proved for non-empty lists or wildcard with comma-free legal tags.)", "quantifier": "all lists of tags", "why_tests_cant": "All lists and contents.", "anchors": ["src/conditional/if_match.rs", "src/conditional/if_none_match.rs"]}
{"id": "C35", "title": "Vary round-trips", "statement": "Writing a Vary header and reading it back gives the same header names in order and wildcard flag. (Violated for the empty list, which reads back as one empty name.)", "quantifier": "all lists of header names", "why_tests_cant": "All lists.", "anchors": ["src/conditional/vary.rs"]}
{"id": "C36", "title": "Proposals are ordered by weight, later first among equals", "statement": "Sorting proposals gives a permutation of them in which weights never increase, proposals without weight come after all weighted ones, and among equal or absent weights the one given later comes first.", "quantifier": "all lists of proposals", "why_tests_cant": "Permutation and order over all lists.", "anchors": ["src/utils/mod.rs: sort_by_weight", "src/content/encoding_proposal.rs: PartialOrd", "src/content/media_type_proposal.rs: PartialOrd"]}
{"id": "C37", "title": "Encoding negotiation picks the best acceptable encoding", "statement": "Negotiation returns an encoding from the available list that has the greatest weight among proposed available encodings (latest proposal among equals); if none is proposed and a wildcard is set it returns the first available one; otherwise it fails with status 406. It never returns something unavailable.", "quantifier": "all proposal lists, wildcards and available lists", "why_tests_cant": "Optimality over all lists.", "anchors": ["src/content/accept_encoding.rs: AcceptEncoding::negotiate", "src/transfer/te.rs: TE::negotiate"]}
{"id": "C38", "title": "Media negotiation picks the best acceptable type", "statement": "Same as encoding negotiation, for media types with wildcards: the result is available and matches a proposal of the greatest weight among those matched by an available type; the first available match is chosen; otherwise the wildcard rule; otherwise 406.", "quantifier": "all proposal lists and available lists", "why_tests_cant": "Optimality over all lists.", "anchors": ["src/content/accept.rs: Accept::negotiate"]}
{"id": "C39", "title": "A zero weight means not acceptable", "statement": "Negotiation never returns something whose only matching proposals have weight 0. (Violated: zero weight is treated as lowest priority. Proved: a zero-weight match is returned only when no available candidate matches a proposal with a positive weight.)", "quantifier": "all proposal lists", "why_tests_cant": "The violating lists combine q=0 with a single available item.", "anchors": ["src/content/accept_encoding.rs: negotiate", "src/content/accept.rs: negotiate", "src/transfer/te.rs: negotiate"]}
{"id": "C40", "title": "Weights stay in range", "statement": "Constructing or parsing a proposal gives a weight in [0,1] or fails; NaN, infinities, negatives (including -0) and numbers above 1 are refused. Malformed weights give status 400. (Status violated: an out-of-range weight gives 500.)", "quantifier": "all strings and all 32-bit floats", "why_tests_cant": "All floats, including special values.", "anchors": ["src/content/encoding_proposal.rs: new, from_str", "src/content/media_type_proposal.rs", "src/transfer/encoding_proposal.rs", "src/utils/mod.rs: parse_weight"]}
{"id": "C41", "title": "Weighted headers round-trip", "statement": "Writing Accept, Accept-Encoding or TE and reading it back gives the same proposals when weights have at most three decimals; with more, the weight moves by at most 0.0005 plus float rounding, and a second round trip changes nothing. (Violated for Accept: a media type without a weight comes back with weight 1, a `q` parameter of the media type itself is taken for the weight, and a comma inside a quoted parameter cuts the entry in two. Proved for the two lists of codings exactly as stated, and for Accept lists without such types, exactly when they survive.)", "quantifier": "all proposal lists", "why_tests_cant": "All lists and weights.", "anchors": ["src/content/accept_encoding.rs: header_value, from_headers", "src/content/encoding_proposal.rs: From for HeaderValue", "src/transfer/te.rs"]}
{"id": "C42", "title": "Content-Length is exact", "statement": "Writing a length and reading it back gives the same 64-bit number; reading accepts exactly decimal digits with an optional leading '+' and surrounding whitespace denoting a number below 2^64, uses the last value, and gives status 400 otherwise.", "quantifier": "all 64-bit numbers; all header values", "why_tests_cant": "All numbers and strings.", "anchors": ["src/content/content_length.rs"]}
{"id": "C43", "title": "Single-coding headers round-trip and never panic", "statement": "Writing Content-Encoding or Transfer-Encoding and reading it back gives the same coding; reading never panics. (Second part violated: unrecognised codings, or several in one value, panic.)", "quantifier": "all codings; all header values", "why_tests_cant": "Panics on arbitrary peer input.", "anchors": ["src/content/content_encoding.rs", "src/transfer/transfer_encoding.rs", "src/content/encoding.rs", "src/transfer/encoding.rs"]}
{"id": "C44", "title": "Allow round-trips", "statement": "Writing a non-empty set of methods, in any order, and reading it back gives the same set; an unknown method makes reading fail with status 400 without panicking. (Violated: the empty set reads back as an error, and the status for an unknown method is 500.)", "quantifier": "all sets of methods and enumeration orders; all header values", "why_tests_cant": "All subsets and hash orders.", "anchors": ["src/server/allow.rs"]}
{"id": "C45", "title": "Authorization round-trips", "statement": "Writing any scheme with credentials and reading it back gives the same scheme and credentials; reading splits at the first space only, scheme names are matched ignoring case, unknown schemes or a missing space give status 400, and reading never panics.", "quantifier": "all schemes, credentials and header values", "why_tests_cant": "All strings.", "anchors": ["src/auth/authorization.rs", "src/auth/authentication_scheme.rs"]}
{"id": "C46", "title": "Basic credentials round-trip", "statement": "Encoding a username and password and decoding gives them back, for every username without ':' and any password. (Violated when the username contains ':'.) Decoding refuses text that is not base64 of UTF-8 with a ':', with status 400.", "quantifier": "all usernames and passwords", "why_tests_cant": "All strings and base64 padding cases.", "anchors": ["src/auth/basic_auth.rs"]}
{"id": "C47", "title": "WWW-Authenticate round-trips", "statement": "Writing a challenge and reading it back gives the same scheme and realm. (Violated for realms containing '\"'; proved for the rest.) Reading never panics.", "quantifier": "all schemes, realms and header values", "why_tests_cant": "All strings.", "anchors": ["src/auth/www_authenticate.rs"]}
{"id": "C48", "title": "Forwarded round-trips", "statement": "Writing a Forwarded element and reading it back gives the same by, for, host and proto. (Violated when by/host/proto are not tokens, when the for-list is empty but host/proto are present, for an empty for-value, and for values with '!' that need quoting. Proved for non-empty for-lists whose values are legal and by/host/proto tokens.)", "quantifier": "all Forwarded values", "why_tests_cant": "All strings, quoting and escaping.", "anchors": ["src/proxies/forwarded.rs: Forwarded::parse, header_value", "src/parse_utils.rs: parse_token, parse_quoted_string"]}
{"id": "C49", "title": "Reading Forwarded never panics", "statement": "Parsing any Forwarded text terminates without panicking and fails with status 400 when malformed. (Violated: a short remainder after a comma, a multi-byte character at the wrong offset, or in a quoted value a character whose code point ends in the bits of a quote, panics.)", "quantifier": "all strings", "why_tests_cant": "Arbitrary peer input.", "anchors": ["src/proxies/forwarded.rs: Forwarded::parse, parse_for, match_ignore_case, starts_with_ignore_case"]}
{"id": "C50", "title": "Forwarded falls back to the X-Forwarded headers", "statement": "When Forwarded is present it alone determines the result; otherwise the result is built from X-Forwarded-For/By/Host/Proto exactly as given, and absent when none of them is present.", "quantifier": "all header collections", "why_tests_cant": "All combinations.", "anchors": ["src/proxies/forwarded.rs: from_headers, from_x_headers, from_forwarded_header"]}
{"id": "C51", "title": "Strict-Transport-Security round-trips", "statement": "Writing a policy and reading it back gives the same max-age, includeSubDomains and preload. (Violated: includeSubdomains is written in a letter case the reader does not recognise. Proved for policies without it.) Reading never panics; a missing or malformed max-age gives 400.", "quantifier": "all policies; all header values", "why_tests_cant": "All numbers and strings.", "anchors": ["src/security/strict_transport_security.rs"]}
{"id": "C52", "title": "Timing-Allow-Origin round-trips", "statement": "Writing a list of origins with optional wildcard and reading it back gives the same. (Violated for the empty policy, and for URLs containing a comma; proved for others, given a URL printer whose output parses back.)", "quantifier": "all lists of origins", "why_tests_cant": "All lists.", "anchors": ["src/security/timing_allow_origin.rs"]}
{"id": "C53", "title": "A security policy value is deterministic and complete", "statement": "The Content-Security-Policy value does not depend on hash order; it contains each configured directive exactly once with its sources in the order added, sorted; applying the same policy twice gives the same header. (Last part violated: each application appends the directives again.)", "quantifier": "all sequences of policy-building calls, all hash orders", "why_tests_cant": "Hash order and repeated application.", "anchors": ["src/security/csp.rs: value, apply, insert_directive"]}
{"id": "C54", "title": "Default protections are in force", "statement": "After applying the default protections every header documented is present with its documented value and X-Powered-By is gone; other headers are unchanged. (Violated: X-Powered-By is never removed because the name is not lowercased.)", "quantifier": "all header collections", "why_tests_cant": "All prior states.", "anchors": ["src/security/mod.rs: default, powered_by, hsts, frameguard, nosniff, xss_filter, dns_prefetch_control, referrer_policy"]}
{"id": "C55", "title": "Trace context round-trips and children stay in the trace", "statement": "Writing a trace context and reading it back gives its trace id, id, version and flags; a child keeps the trace id, version and flags and has its parent's id as parent; setting the sampled flag changes only that bit and reading it returns what was set.", "quantifier": "all ids and flags", "why_tests_cant": "All 128-bit and 64-bit ids.", "anchors": ["src/trace/trace_context.rs: from_headers, header_value, child, sampled, set_sampled"]}
{"id": "C56", "title": "Reading a trace context never panics", "statement": "Reading any traceparent value fails with status 400 when malformed, without panicking. (Violated: fewer than four parts panics; a malformed version gives 500.)", "quantifier": "all header values", "why_tests_cant": "Arbitrary peer input.", "anchors": ["src/trace/trace_context.rs: from_headers"]}
{"id": "C57", "title": "Server-Timing round-trips and never panics", "statement": "Writing metrics and reading them back gives the same names, descriptions and durations; reading never panics. (Violated: descriptions containing ',' ';' or '=' are not read back, a negative, non-finite or huge duration panics, durations from 4096 s on can come back a nanosecond short, and the empty list comes back as one nameless metric. Proved exactly when a list survives, and for all durations below 4096 s.)", "quantifier": "all metric lists; all header values", "why_tests_cant": "All strings.", "anchors": ["src/trace/server_timing/mod.rs", "src/trace/server_timing/metric.rs", "src/trace/server_timing/parse.rs"]}
{"id": "C58", "title": "Retry-After seconds round-trip", "statement": "Writing a delay in seconds and reading it back gives the same number of seconds; a value that is neither a number nor a date gives 400; reading never panics.", "quantifier": "all delays; all header values", "why_tests_cant": "All numbers.", "anchors": ["src/other/retry_after.rs"]}
{"id": "C59", "title": "Expect accepts only 100-continue", "statement": "Reading Expect succeeds exactly when the last value is 100-continue (letter for letter, no trimming), fails with 400 otherwise, and round-trips.", "quantifier": "all header values", "why_tests_cant": "All strings.", "anchors": ["src/other/expect.rs"]}
{"id": "C60", "title": "Header collections convert to and from the http crate without loss", "statement": "Converting a collection to the http crate and back gives the same names and value lists. (Violated: from the http crate only the first value of each name survives. Proved for single-valued collections.) Converting a message with a content type keeps exactly that content type. (Violated: the body's fallback type is inserted first and the real one appended.)", "quantifier": "all header collections", "why_tests_cant": "All collections; multi-valued headers are not tested.", "anchors": ["src/hyperium_http.rs: TryFrom<http::HeaderMap> for Headers, hyperium_headers_to_headers, TryFrom<http::Request<Body>>"]}
{"id": "C61", "title": "Quoted strings decode what quoting encodes", "statement": "Escaping quotes and backslashes and wrapping in quotes is undone by the quoted-string parser for every text of legal characters; a token is consumed exactly up to the first non-token character. (Violated for '!', which the quoted-string parser refuses, and outside ASCII, where characters are judged by the lowest eight bits of their code point: those that look like a backslash are dropped, those that look like a quote panic.)", "quantifier": "all strings", "why_tests_cant": "All strings and escapes.", "anchors": ["src/parse_utils.rs: parse_token, parse_quoted_string", "src/proxies/forwarded.rs: format_value"]}
{"id": "C62", "title": "Malformed peer input is a client error, not a crash", "statement": "Reading each of Age, Cache-Control, Content-Length, Accept, Accept-Encoding, TE, ETag, If-Match, If-None-Match, Vary, Allow, Authorization, Basic, WWW-Authenticate, HSTS, Retry-After, Expect and the date headers from any stored header values either succeeds, reports absence, or fails with status 400 — never panics. (Exceptions are named in the individual properties.)", "quantifier": "all header collections with non-empty value lists", "why_tests_cant": "Arbitrary peer input.", "anchors": ["src/cache", "src/content", "src/conditional", "src/auth", "src/other", "src/security", "src/server", "src/transfer"]}
{"id": "C63", "title": "Converting a body to a string does not panic", "statement": "Converting a body to a string always completes with a string or an error. (Violated: a declared length of 2^63 or more panics with capacity overflow before anything is read, whatever the reader holds. Proved for all smaller declared lengths.)", "quantifier": "all bodies, declared lengths, readers and schedules", "why_tests_cant": "No test declares such a length; the bound is exact.", "anchors": ["src/body.rs: Body::into_string"]}
{"id": "C64", "title": "JSON and form bodies carry their text", "statement": "A body made from a serialisable value has the exact length of its serialised text and the JSON or form media type; reading it back hands exactly that text to the decoder; a decoding failure is status 422, a failed serialisation or a failed poll of into_json status 500.", "quantifier": "all texts, decoders, readers and schedules", "why_tests_cant": "Ranges over all decoders, texts and schedules.", "anchors": ["src/body.rs: Body::from_json, into_json, from_form, into_form"]}
{"id": "C65", "title": "The in-progress flag tells whether the sender was requested", "statement": "`has_trailers` is true exactly when the sender of that very message was asked for (also if the request panicked); `has_upgrade` is true exactly when its sender or receiver was asked for; a clone starts with the flag unset, whatever the original did.", "quantifier": "all histories over a family of clones", "why_tests_cant": "Ranges over histories with clones.", "anchors": ["src/request.rs: has_trailers, send_trailers, Clone", "src/response.rs: has_trailers, has_upgrade, send_upgrade, recv_upgrade, Clone"]}
{"id": "C66", "title": "Negotiation is repeatable", "statement": "Negotiating twice with the same list of proposals gives the same answer. (Violated by every pair of available proposals of equal weight: negotiation reorders the list, and the second time the other one wins. Proved when all weights differ; for a list that names nothing twice that is also exactly when every negotiation is repeatable.)", "quantifier": "all proposal lists and available lists", "why_tests_cant": "Needs two negotiations on one list and a tie; the tests negotiate once.", "anchors": ["src/content/accept_encoding.rs: negotiate, sort", "src/content/accept.rs: negotiate, sort", "src/transfer/te.rs: negotiate, sort", "src/utils/mod.rs: sort_by_weight"]}
{"id": "C67", "title": "Methods, versions and statuses convert to and from the http crate without loss", "statement": "Every version, method and status of this crate converts to the http crate and back to itself; from the http crate, every value that both sides know converts and back. (Violated: an unregistered extension method such as FOO, or a status such as 102 or 299 that this crate does not know, panics instead of being refused.)", "quantifier": "all methods, versions and statuses of either crate", "why_tests_cant": "All extension methods and all statuses; tests convert none of the unknown ones.", "anchors": ["src/hyperium_http.rs: From<http::Method>, From<http::StatusCode>, From<http::Version>"]}
{"id": "C68", "title": "Converting a message to the http crate keeps every header and never panics", "statement": "Converting a request or response to the http crate keeps method, address or status, version, body and every header value in order. (Violated: a stored header name with a blank, or a value with a line break, which this crate accepts, panics on conversion. Proved: the conversion succeeds exactly when all names and values are legal for the http crate, and then loses nothing.)", "quantifier": "all requests and responses", "why_tests_cant": "All header collections the crate lets a program build.", "anchors": ["src/hyperium_http.rs: From<Request> for http::Request<Body>, From<Response> for http::Response<Body>, headers_to_hyperium_headers"]}
{"id": "C69", "title": "A typed header touches its own field only", "statement": "Reading a typed header depends on the values stored under its standard field name and on nothing else; writing it sets that field and leaves every other field as it was.", "quantifier": "all header collections, all typed headers modelled", "why_tests_cant": "Non-interference is over all collections.", "anchors": ["src/headers/constants.rs", "src/cache", "src/conditional", "src/content", "src/auth", "src/security", "src/other", "src/server", "src/transfer", "src/trace", "src/proxies"]}
{"id": "C70", "title": "Cache directives know where they are valid", "statement": "A cache directive read from a header is reported valid in requests exactly when the standards define it for requests, and valid in responses exactly when they define it for responses. (Violated: immutable, a response directive by RFC 8246, is reported valid nowhere.)", "quantifier": "all directive texts", "why_tests_cant": "All spellings of all directives.", "anchors": ["src/cache/cache_control/cache_directive.rs"]}
{"id": "C71", "title": "A content security policy says what the method is named after", "statement": "Each building method of a content security policy, with each named source, produces exactly the directive the method is named after followed by the source as the standard writes it; different methods and sources are told apart.", "quantifier": "all methods and named sources", "why_tests_cant": "Every pair has to be right, and they are strings no compiler checks.", "anchors": ["src/security/csp.rs"]}
{"id": "C72", "title": "File extensions have the right media type", "statement": "For every string, looking it up as a file extension gives the media type of the table, printed in full, or nothing; that text parses back to the same media type.", "quantifier": "all strings", "why_tests_cant": "Strings outside the table are unbounded, and each entry has to be right.", "anchors": ["src/mime/mod.rs", "src/mime/constants.rs"]}
{"id": "C73", "title": "An empty body delivers nothing", "statement": "A body reports whether it is empty exactly when it has a declared length, and the answer says whether that is zero; a body that says it is empty never delivers a byte, whatever its reader does.", "quantifier": "all bodies, readers and read sequences", "why_tests_cant": "All readers and schedules.", "anchors": ["src/body.rs"]}
{"id": "C74", "title": "Content-Location, Referer and SourceMap resolve against the base", "statement": "Reading Content-Location, Referer or SourceMap gives the URL the last value refers to, seen from the base URL; a URL that was written reads back whatever the base. A reference that does not resolve is a client error (400), and reading never panics. (Violated: Referer and SourceMap report such references with status 500. Content-Location cannot be read without a base even if its value is absolute, and its setter panics on a value that is no URL.)", "quantifier": "all header collections, bases and URLs; any URL library", "why_tests_cant": "All values and bases, and a third-party parser.", "anchors": ["src/content/content_location.rs", "src/other/referer.rs", "src/other/source_map.rs"]}
{"id": "C75", "title": "The Content-Type header is a media type", "statement": "Reading the Content-Type header gives exactly the media type the last value parses to, a client error (400) if it is none, and never panics; the media types written to the header which read back are exactly the well-formed ASCII ones. The content type a request or response reports is the same, with errors hidden.", "quantifier": "all header collections and media types", "why_tests_cant": "Exactness over all values and media types.", "anchors": ["src/content/content_type.rs", "src/request.rs: content_type", "src/response.rs: content_type"]}
{"id": "C76", "title": "The parts of a message do not interfere", "statement": "After any sequence of calls on a new request or response, the method or status, URL, version and addresses are the ones set last, each extension slot and each header holds what the calls about it say, and the body is the one set last; the only interaction is that a body brings its media type along when there is no content type. The shorthand constructors use the method they are named after and panic only if the URL does not convert. A clone has the same method or status, URL, version, addresses and headers, no extensions and an empty body. Reading the query decodes the URL's query (empty if absent), setting it changes only the URL and does nothing on failure; both fail with 400 only.", "quantifier": "all finite sequences of calls in any order; all URLs, bodies, extension types, codecs", "why_tests_cant": "Non-interference is about all interleavings of all setters.", "anchors": ["src/request.rs", "src/response.rs"]}
{"id": "C77", "title": "Reading the body of a message takes it", "statement": "Reading the body as text, bytes, JSON or form returns exactly what converting the current body returns and leaves an empty body, so a second read returns nothing; the rest of the message, headers included, is unchanged. (Violated for headers: a message without content type has content type application/octet-stream after its body was read.)", "quantifier": "all requests and responses, conversions, readers and poll schedules", "why_tests_cant": "All bodies and header states, and what happens on the second call.", "anchors": ["src/request.rs: body_string, body_bytes, body_json, body_form, take_body", "src/response.rs: same"]}
{"id": "C78", "title": "Times computed from headers", "statement": "The time to retry is the header's date, or the header's delay after the moment of asking; the wait from a given moment is exactly the time until then, an error exactly if that is past. An Expires made from a duration is exactly that long after now. None of these panics for a header a peer can send. (Violated: a huge delay, such as 9223372036854775807 seconds, panics every reader that asks when or how long.)", "quantifier": "all clock readings, delays, dates and header collections", "why_tests_cant": "All clock states and all 64-bit delays, carries of nanoseconds and the end of representable time.", "anchors": ["src/other/retry_after.rs", "src/cache/expires.rs", "src/other/date.rs"]}
{"id": "C79", "title": "A body made from a file", "statement": "Making a body from a file or a path fails exactly if the operating system does; otherwise the body has the length of the file and delivers exactly its bytes from the beginning, wherever the handle stood. Its media type is the one recognised from the beginning of the file, otherwise that of the path's extension (after the last dot of the file name), otherwise application/octet-stream. (Violated: the recognition looks from the handle's current position, and only at what one read returns.)", "quantifier": "all files, handle positions, paths, outcomes of system calls, recognisers", "why_tests_cant": "All contents, positions, short reads and path shapes.", "anchors": ["src/body.rs: from_file, from_path, peek_mime, guess_ext", "src/mime/mod.rs: sniff"]}
{"id": "C80", "title": "Iterating over headers", "statement": "Whatever calls made the collection and in whatever order its entries are visited, iterating visits each header present exactly once with its full list of values and nothing else, announces the number of entries left exactly, and stays at the end; the names are visited in the same order. Inserting what was visited, in any order, into an empty collection gives the same answers to every lookup. Changing values through the mutable iterator changes each list once and nothing else.", "quantifier": "all histories of calls, all visiting orders, all loop bodies", "why_tests_cant": "Histories and hash orders cannot be enumerated.", "anchors": ["src/headers/iter.rs", "src/headers/iter_mut.rs", "src/headers/names.rs", "src/headers/into_iter.rs", "src/headers/headers.rs"]}
{"id": "C81", "title": "A pair of strings is a header", "statement": "Applying a (name, value) pair of strings to a message panics exactly if one of them has a non-ASCII character; otherwise it does what inserting that value under that name does: the name, in any case, has this one value, and every other header is as before.", "quantifier": "all pairs of strings, all header collections", "why_tests_cant": "All strings and all histories.", "anchors": ["src/headers/header.rs"]}
{"id": "C82", "title": "An error keeps what it was made from", "statement": "Whatever calls are made on an error, it holds the value it was made from, or the last value written to it, at the type of that value and at no other; its status is the last one given, its text is the value's. A downcast gives that value or the unchanged error and never panics. Only a number that is no status code panics, and only where a status is given. The type name is the name of the type held. (Violated for the name: errors made from text or from an anyhow error call themselves anyhow::Error.)", "quantifier": "all error types, values, layers of context, statuses and finite sequences of calls", "why_tests_cant": "All types and all interleavings of setting the status, writing the value and failed downcasts.", "anchors": ["src/error.rs", "src/lib.rs: private::new_adhoc"]}
{"id": "C83", "title": "The early-return macros return exactly when they say", "statement": "bail returns at once; ensure and ensure_eq return an error exactly if the condition is false or the sides differ, otherwise the rest of the function runs and the message is not evaluated. The error holds the message and has the status given, or 500. A status that is no status code panics only when the check fails.", "quantifier": "all conditions, messages, effects, function bodies and status numbers", "why_tests_cant": "All function bodies around the macro and all effects of its arguments.", "anchors": ["src/macros.rs"]}
{"id": "C84", "title": "A list header says what was put in", "statement": "After any sequence of pushes, wildcard settings and writes through the mutable iterator, If-Match, If-None-Match, Vary, Clear-Site-Data, Timing-Allow-Origin, Cache-Control and Server-Timing hold the items pushed in order, each with the last value written to its place, and the wildcard flag set last; the header value lists exactly these. Iterating visits them once in order with an exact size. The weighted lists keep exactly the proposals pushed through any sorting and negotiating; changing codings or media types in place keeps their weights and everything else, and no change brings in a weight outside of 0 to 1. Allow contains exactly the methods inserted.", "quantifier": "all finite sequences of calls, all items", "why_tests_cant": "Sequences of calls of any length in any order.", "anchors": ["src/conditional/if_match.rs", "src/conditional/if_none_match.rs", "src/conditional/vary.rs", "src/cache/clear_site_data/mod.rs", "src/cache/cache_control/cache_control.rs", "src/security/timing_allow_origin.rs", "src/trace/server_timing/mod.rs", "src/content/accept.rs", "src/content/accept_encoding.rs", "src/transfer/te.rs", "src/server/allow.rs"]}
{"id": "C85", "title": "A setter changes its own field", "statement": "After any sequence of setter calls on Strict-Transport-Security, Authorization, WWW-Authenticate, Content-Length or Forwarded each field is the last value given to it, or the original one; the addresses of Forwarded are those added, in order. Making a Forwarded owned changes nothing.", "quantifier": "all finite sequences of setter calls, all values", "why_tests_cant": "All interleavings of setters.", "anchors": ["src/security/strict_transport_security.rs", "src/auth/authorization.rs", "src/auth/www_authenticate.rs", "src/content/content_length.rs", "src/proxies/forwarded.rs"]}
{"id": "C86", "title": "A header value stays within its field", "statement": "No header value written by the library contains a control character other than tab, so none can end its line and start another header: values of the headers built from numbers, dates and fixed words never do; those that carry the caller's text do exactly if that text does; what was read by the entity tag, media type and Accept readers can always be relayed. A collection holds such values as long as every call passes such values. (Violated: the collection itself accepts any ASCII name and value, line ends included, and the Authorization, WWW-Authenticate, Vary, Server-Timing and Forwarded readers accept control characters and write them again.)", "quantifier": "all header values, all texts, all finite sequences of calls on a collection, all collections received", "why_tests_cant": "All texts, each of which may hold a line end in any place, through every writer and every reader.", "anchors": ["src/headers/header_value.rs", "src/headers/header_name.rs", "src/headers/headers.rs", "src/proxies/forwarded.rs", "src/auth/authorization.rs", "src/auth/www_authenticate.rs", "src/trace/server_timing/metric.rs", "src/security/csp.rs"]}
{"id": "C87", "title": "A list header may be split over several lines", "statement": "A list header sent in several field lines is read, or refused, exactly as the one line that joins them with commas: Cache-Control, Clear-Site-Data, If-Match, If-None-Match, Vary, Accept, Accept-Encoding, TE, Allow, Timing-Allow-Origin and Server-Timing. (Violated: of Forwarded and X-Forwarded-For only the first line is read; Content-Encoding and Transfer-Encoding with several codings in one line panic.)", "quantifier": "all values, all ways to cut them into lines, all whitespace after the commas, any other headers", "why_tests_cant": "All texts and all ways to cut them.", "anchors": ["src/cache/cache_control/cache_control.rs", "src/cache/clear_site_data/mod.rs", "src/conditional/if_match.rs", "src/conditional/if_none_match.rs", "src/conditional/vary.rs", "src/content/accept.rs", "src/content/accept_encoding.rs", "src/transfer/te.rs", "src/server/allow.rs", "src/security/timing_allow_origin.rs", "src/trace/server_timing/mod.rs", "src/proxies/forwarded.rs", "src/content/content_encoding.rs", "src/transfer/transfer_encoding.rs"]}
{"id": "C88", "title": "A typed header that was read can be passed on", "statement": "Whatever a typed header reader accepts from a received message (ASCII values), writing it into any other message and reading it there gives the same value: Content-Length, Expect, Age, Retry-After, the five date headers, ETag, If-Match, If-None-Match, Clear-Site-Data, Authorization, Basic credentials, WWW-Authenticate, Content-Encoding, Transfer-Encoding, Content-Type and Allow (as a set); Accept, Accept-Encoding and TE after their weights are rounded once to three decimals. (Violated: Cache-Control loses s-maxage, Strict-Transport-Security its subdomain flag, Vary an empty name before the wildcard, Timing-Allow-Origin with only null and Forwarded with a quoted host or without for become unreadable; Server-Timing changes exactly the durations that do not survive being written.)", "quantifier": "all received header collections, all target collections", "why_tests_cant": "All texts a sender can choose, all values of the headers.", "anchors": ["src/headers/to_header_values.rs", "src/cache", "src/conditional", "src/content", "src/auth", "src/other", "src/security", "src/server/allow.rs", "src/trace/server_timing/mod.rs", "src/proxies/forwarded.rs", "src/transfer"]}
{"id": "C89", "title": "Canonical reason phrases are the registered ones", "statement": "The canonical reason of every status code is the phrase registered for its number. (Violated: 203, 226, 300 and 416 give another phrase; all others the registered one.)", "quantifier": "all status codes", "why_tests_cant": "A test repeats the strings of the code; the statement is against the registry for the whole table.", "anchors": ["src/status_code.rs: canonical_reason, Display, Debug"]}
{"id": "C90", "title": "What is printed for logging tells what is held, on one line", "statement": "Two header collections, lists of values or single values print the same debug text exactly if they are equal (in the same visiting order); the printed text has no control character whatever the values hold. A body prints its declared length and the number of bytes read, and nothing else of it.", "quantifier": "all collections, values and bodies, whichever characters count as printable", "why_tests_cant": "All texts with quotes, escapes and control characters in any place.", "anchors": ["src/headers/header_name.rs: Debug", "src/headers/header_value.rs: Debug", "src/headers/header_values.rs: Debug, Display", "src/headers/headers.rs: Debug", "src/body.rs: Debug"]}
{"id": "C91", "title": "Wrappers pass everything on", "statement": "Reading a request or response directly, in any mixture of plain and buffered reads, does to the body what the same reads on the body do and changes nothing else; what was read directly followed by the bytes taken afterwards is the body. Trailers hold exactly what the history of calls says, like a header collection. Every call on an upgraded connection gets the answer of the transport.", "quantifier": "all messages, bodies, readers, buffer sizes, finite sequences of calls and transports", "why_tests_cant": "All interleavings of reads and conversions with all readers.", "anchors": ["src/request.rs: AsyncRead, AsyncBufRead", "src/response.rs: AsyncRead, AsyncBufRead", "src/trailers.rs", "src/upgrade/connection.rs"]}
{"id": "C92", "title": "Media types compare by content, not by spelling", "statement": "Two media types that were parsed are equal exactly if they are the same by RFC 7231 3.1.1.1: type, subtype and parameter names up to case, whatever the white space and quoting; and exactly if they print the same text. (Violated: parameters in another order and charset values in another case compare unequal.)", "quantifier": "all pairs of media type texts of the grammar", "why_tests_cant": "All pairs of texts.", "anchors": ["src/mime/mod.rs: PartialEq, Display", "src/mime/parse.rs: parse", "src/content/content_type.rs: PartialEq", "src/content/media_type_proposal.rs: PartialEq"]}
{"id": "C93", "title": "Trace contexts follow the W3C recommendation", "statement": "Every valid traceparent value is read with its version, trace id, parent id and flags; what a context made from valid input is written as is valid again with the same trace id, also after any number of children. (Violated: a random id of zero is written although it is not valid; values that are not valid, such as zero ids, version ff, wrong widths, upper case or plus signs, are read. Proved exactly when a written value is valid.)", "quantifier": "all texts, contexts, chains of children and random numbers", "why_tests_cant": "The all-zero random id and the space of invalid texts cannot be sampled.", "anchors": ["src/trace/trace_context.rs"]}
{"id": "C94", "title": "Preference lists in the form of the standards are read with their meaning", "statement": "Every weight of RFC 7231 is read as the nearest float. From a list of codings as the standards write it, each known coding gives a proposal with its weight, in order; unknown ones give nothing. From a list of media ranges each member gives the range and its weight, 1 if none. (Violated for codings: white space after the semicolon or a capital Q fails the whole header with 400, names in another case are not recognised, a wildcard with weight is dropped.)", "quantifier": "all lists of members with any spacing, case and weights of up to three digits", "why_tests_cant": "All spellings the grammar allows.", "anchors": ["src/utils/mod.rs: parse_weight", "src/content/accept_encoding.rs: from_headers", "src/content/encoding_proposal.rs: from_str", "src/transfer/te.rs: from_headers", "src/transfer/encoding_proposal.rs: from_str", "src/content/accept.rs: from_headers", "src/content/media_type_proposal.rs: from_str"]}
{"id": "C95", "title": "A header sent more than once", "statement": "Of a single-valued typed header sent several times the last value alone decides what is read, whatever came before it and whatever other headers there are; sending the same value again changes nothing. Contradictory content lengths are refused, of several Strict-Transport-Security policies the first counts, and several trace contexts count as none, as their specifications ask. (Violated: the last Content-Length and the last policy are taken; the first trace context is taken; of the codings the last known one counts, so that an unknown coding sent after it goes unnoticed.)", "quantifier": "all header collections, all values before the last, any number of repetitions", "why_tests_cant": "All lists of values, in front of any value.", "anchors": ["src/content/content_length.rs: from_headers", "src/content/content_type.rs: from_headers", "src/content/content_location.rs: from_headers", "src/other", "src/cache/age.rs", "src/cache/expires.rs", "src/conditional/etag.rs: from_headers", "src/security/strict_transport_security.rs: from_headers", "src/auth", "src/content/content_encoding.rs: from_headers", "src/transfer/transfer_encoding.rs: from_headers", "src/trace/trace_context.rs: from_headers"]}
{"id": "C96", "title": "Media types are read and printed as the WHATWG standard says", "statement": "A text is accepted exactly if the algorithm 'parse a MIME type' of the WHATWG MIME Sniffing standard accepts it, and gives the type, subtype and parameters of that algorithm, in order; printing is 'serialize a MIME type'. A reader that follows the standard finds in a printed media type the value that looking the parameter up gives. (Violated for charset=utf-8: it wins over an earlier charset, it is printed in front of the other parameters, and two charsets can be printed. Violated for a quoted value that is not closed: parameters are found in it. Proved for everything else, with the exact condition for the printed form.)", "quantifier": "all texts, all parameter names", "why_tests_cant": "The space of malformed texts cannot be sampled; the standard is an algorithm over positions.", "anchors": ["src/mime/parse.rs: parse, collect_http_quoted_string, format", "src/mime/mod.rs: param, Display, FromStr"]}
{"id": "C97", "title": "Directive lists in the form of the standards are read with their meaning", "statement": "From every Cache-Control value of the grammar of RFC 7234 each directive that is known gives its meaning, in order, and extensions give nothing; from every Strict-Transport-Security value of RFC 6797 the policy it means is read; names count up to case, arguments may be tokens or quoted strings, numbers may be of any size. (Violated: a quoted number or one of 2^64 or more fails the whole header; a directive inside of a quoted argument is obeyed; includeSubDomains is seen in lower case only; a policy with a repeated directive, which means nothing, is accepted.)", "quantifier": "all lists of directives with any spacing, case, quoting and numbers", "why_tests_cant": "All spellings the grammar allows.", "anchors": ["src/cache/cache_control/cache_control.rs: from_headers", "src/cache/cache_control/cache_directive.rs: from_str", "src/security/strict_transport_security.rs: from_headers"]}
{"id": "C98", "title": "Numbers, expectations, credentials and challenges in the form of the standards", "statement": "Content-Length, Age and the delay of Retry-After are read for every text of digits with its value and for nothing else that looks like a number; an expectation, a scheme name and a parameter name count up to case; credentials are read with the text after the scheme, however many spaces; of a challenge the realm is found among its parameters and unescaped; what is written is of the grammar and means what was given. (Violated: a plus sign is accepted; ages and delays of 2^64 and more are refused; 100-Continue is refused; a scheme alone is refused, several spaces become part of the credentials and make Basic fail; the realm is found only as the first parameter, in lower case and quoted, and is cut at an escaped quote. Proved: exactly which challenges are read and written with their meaning.)", "quantifier": "all texts of the grammars, all realms and users", "why_tests_cant": "All spellings the grammar allows.", "anchors": ["src/content/content_length.rs: from_headers", "src/cache/age.rs: from_headers", "src/other/retry_after.rs: from_headers", "src/other/expect.rs: from_headers", "src/auth/authorization.rs: from_headers", "src/auth/basic_auth.rs: from_headers, header_value", "src/auth/www_authenticate.rs: from_headers, header_value"]}
{"id": "C99", "title": "Lists in the form of the standards are read with their meaning", "statement": "From If-Match and If-None-Match every list of entity tags, from Vary every list of field names, from Allow every list of methods, from Clear-Site-Data every list of quoted names and from Timing-Allow-Origin every list of origins is read with the elements it has, with optional white space around each element, over several field lines, empty elements passed over and unknown names ignored. (Violated: tags with a comma cannot be read; an empty element fails the tags, the methods and the origins, is a nameless field in Vary and panics Clear-Site-Data; an empty Allow, unknown methods, unknown kinds of data, null and a star followed by a blank fail; methods are matched without regard to case.)", "quantifier": "all lists of the grammars with any spacing and any number of lines", "why_tests_cant": "All spellings the grammar allows.", "anchors": ["src/conditional/if_match.rs: from_headers", "src/conditional/if_none_match.rs: from_headers", "src/conditional/vary.rs: from_headers", "src/server/allow.rs: from_headers", "src/cache/clear_site_data/mod.rs: from_headers", "src/security/timing_allow_origin.rs: from_headers"]}
{"id": "C100", "title": "Server-Timing in the form of its specification is read with its meaning", "statement": "From Server-Timing every list of metrics of the W3C grammar is read with their names, durations and descriptions: white space anywhere the grammar allows it, unknown parameters ignored, the first of repeated parameters counting, quoted values unescaped, durations exact to the nanosecond, empty elements passed over. (Violated: a comma, semicolon or equals sign in a quoted description fails; escapes are kept; a quoted duration fails; of repeated parameters the last one is taken; a blank after a description becomes part of it and after a duration fails; a duration of 2^64 milliseconds panics; an empty element is a nameless metric.)", "quantifier": "all lists of metrics of the grammar with any spacing, names, parameters and numbers", "why_tests_cant": "All spellings the grammar allows, and all numbers.", "anchors": ["src/trace/server_timing/mod.rs: from_headers", "src/trace/server_timing/parse.rs: parse_header, parse_entry"]}
{"id": "C101", "title": "Forwarded in the form of RFC 7239 is read with its meaning", "statement": "From Forwarded every list of elements of RFC 7239 is read with all its for values in order and with its by, host and proto: blanks around the elements, missing pairs and elements passed over, names in any letter case, values as tokens or quoted strings, over several field lines. (Violated: by, host and proto with a capital letter are ignored; a comma that is not between two for pairs fails, so two hops that both tell their protocol; a blank before a comma, a missing pair and an exclamation mark in quotes fail; an empty element at the end panics; only the first field line is read.)", "quantifier": "all lists of elements of the grammar with any spacing, names and values", "why_tests_cant": "All spellings the grammar allows.", "anchors": ["src/proxies/forwarded.rs: parse, from_headers, parse_for, parse_forwarded_pair"]}
{"id": "C102", "title": "Negotiation follows the weights of RFC 7231", "statement": "From an Accept-Encoding, TE or Accept header in the form of the standards, negotiation chooses among what is available something the list accepts and than which nothing available has more weight, where a missing weight is 1, a coding has the weight of its own member and else that of the asterisk, and a media type has the weight of the most specific range it falls into; it answers 406 exactly when nothing available is acceptable. (Violated: a coding without weight loses to one with any weight; weight 0 is chosen; an asterisk with a weight is ignored and one without is a last resort; identity is not acceptable unless mentioned; wider ranges override more specific ones; charset=utf-8 in a range is ignored. Proved for lists without these.)", "quantifier": "all header values in the standards' grammar, all lists of available codings and media types", "why_tests_cant": "the choice depends on the whole list and on everything available at once; tests try a handful of lists", "anchors": ["src/content/accept.rs", "src/content/accept_encoding.rs", "src/transfer/te.rs", "src/content/encoding_proposal.rs", "src/content/media_type_proposal.rs", "src/utils/mod.rs"]}
{"id": "C103", "title": "HTTP dates in the form of RFC 7231 are read as the instant they denote", "statement": "From Date, Expires, Last-Modified, If-Modified-Since and If-Unmodified-Since every date of RFC 7231 in any of its three layouts and with any name of a weekday is read as the instant it means: all days of the years 0 to 9999, leap seconds, and two digits of a year meaning the latest such year not more than 50 years ahead. (Violated: leap seconds and the years before 1970 are refused; two digits always mean a year from 1970 to 2069, so that from 2021 on there are dates in the future that are read as long past. Proved: exactly which dates are read as the instant they mean.)", "quantifier": "all dates of the standard, all layouts and weekday names, all times of reading", "why_tests_cant": "there are billions of dates; the window of two-digit years moves with the clock", "anchors": ["src/utils/date.rs: parse_http_date", "src/other/date.rs: from_headers", "src/cache/expires.rs", "src/conditional/last_modified.rs"]}
{"id": "C104", "title": "Of the codings of a body the outermost is found", "statement": "From Content-Encoding and Transfer-Encoding, which list the codings of a body in the order they were applied over one or several lines, with names in any letter case, the coding applied last is read, the one that has to be removed first. (Violated: a last line with several codings, an unknown coding, capital letters, x-gzip or an empty element is passed over and the coding of an earlier line is read, so that a body chunked last may not be seen to be chunked; if it is the only line, reading panics. Proved: if the last line is one known coding in small letters, it is read whatever comes before.)", "quantifier": "all lists of codings over any number of lines, with any spelling and spacing", "why_tests_cant": "all spellings the grammar allows and all splits into lines", "anchors": ["src/content/content_encoding.rs: from_headers", "src/content/encoding.rs: from_str", "src/transfer/transfer_encoding.rs: from_headers", "src/transfer/encoding.rs: from_str"]}
{"id": "C105", "title": "What typed headers print for logging tells what they hold, on one line", "statement": "Two values of a typed header (authorization, trace context, forwarding, media type, content length, age, timings, codings, lists of entity tags, names, methods or cache directives) print the same debug text exactly if they are equal, what is printed is one line without control characters, and methods, schemes, directives and codings print under the word they have in a header but for case and hyphens; the text begins with the name of the type, and each field stands behind its own name. (Violated for the wildcard: a list with it prints like the same list without it, so that `If-Match: *` prints like an empty list. Proved: the entries are told apart; headers with fields are told apart completely.)", "quantifier": "all values of these headers, whichever characters count as printable; durations with less than a second of nanoseconds", "why_tests_cant": "all texts with quotes, escapes, separators and control characters in any field, and all durations over the four units they are printed in", "anchors": ["src/auth/authorization.rs: Debug", "src/conditional/if_match.rs: Debug", "src/conditional/vary.rs: Debug", "src/cache/cache_control/cache_control.rs: Debug", "src/mime/mod.rs: Debug", "src/proxies/forwarded.rs: Debug", "src/trace/server_timing/mod.rs: Debug", "src/content/accept.rs: Debug"]}
{"id": "C106", "title": "Comparing headers means what it says", "statement": "Of two dates, ages or waiting times the smaller is the earlier or shorter, equality and order agree, and the order is transitive and dual. (Violated: a Retry-After delay compares as less than every date, also if it ends later; proposals of different codings with the same weight compare as equal though they are not `==`, and a proposal without weight is `==` to itself but does not compare. Proved: everything else, also with weights that are not numbers.)", "quantifier": "all dates, ages, delays and proposals, all times at which a delay is asked for", "why_tests_cant": "transitivity and agreement over all pairs and triples of values", "anchors": ["src/other/retry_after.rs: PartialOrd", "src/cache/age.rs: Ord", "src/cache/expires.rs: Ord", "src/conditional/last_modified.rs: Ord", "src/content/encoding_proposal.rs: PartialOrd, PartialEq", "src/content/media_type_proposal.rs: PartialOrd, PartialEq", "src/transfer/encoding_proposal.rs: PartialOrd, PartialEq"]}
{"id": "C107", "title": "A content security policy is read by a browser as it was asked for", "statement": "From the header that a policy gives, a browser that follows Content Security Policy Level 3 reads one policy with exactly the directives asked for, each once and with all its sources in the order of the calls. (Violated: a script source added to the default policy is ignored unless it sorts before the default's; sources added after the policy was applied are ignored; endpoints to report to are written as JSON, whose commas end the policy; a semicolon in a source starts another directive. Proved: new policies whose sources have no semicolon, comma or other than ASCII; exactly what is read of a policy that starts from the default.)", "quantifier": "all sequences of calls, all sources, all orders of the hash map", "why_tests_cant": "all orders of calls and directives together with how sorting arranges them; the value looks right, only the reader drops directives", "anchors": ["src/security/csp.rs: insert_directive, value, apply, Default, report_to"]}
{"id": "C108", "title": "What list and directive headers write is read by others as what was put in", "statement": "A recipient that follows the standards reads the value that If-Match, If-None-Match, Vary, Allow, Clear-Site-Data, Cache-Control or Strict-Transport-Security writes in exactly one way: as the tags, names, methods, kinds of data or directives that were put in, in order, with durations in whole seconds; and by Timing-Allow-Origin the origins that were put in are given timing information. (Violated: a wildcard after other entries and an empty list give values outside of the grammar; s-maxage is misspelt and skipped by everybody; URLs are written with their path and so never equal an origin; a comma in a path names other origins.)", "quantifier": "all lists of entries, all durations, all orders of the set of methods", "why_tests_cant": "all readings that a grammar allows of all values, with all optional spaces, empty elements, quotes and letter cases", "anchors": ["src/conditional/if_match.rs: header_value", "src/conditional/if_none_match.rs: header_value", "src/conditional/vary.rs: header_value", "src/server/allow.rs: header_value", "src/cache/clear_site_data/mod.rs: header_value", "src/cache/cache_control/cache_directive.rs: From<CacheDirective> for HeaderValue", "src/security/strict_transport_security.rs: header_value", "src/security/timing_allow_origin.rs: header_value"]}
{"id": "C109", "title": "What preferences and codings write is read by others as what was put in", "statement": "A recipient that follows the standards reads the value that Accept-Encoding, TE, Accept, Content-Encoding or Transfer-Encoding writes in exactly one way: as the codings or media types that were put in, in order, media types with all their parameters, each with its weight to the nearest thousandth, and the wildcard last. (Violated for Accept: its wildcard is written `*`, which is no media range, so the whole value cannot be read; a parameter `q` of a media type is read as the weight.)", "quantifier": "all lists of proposals with weights from 0 to 1, all media types with any parameters", "why_tests_cant": "all readings that the grammar allows, of parameters with quoted commas and semicolons too, and all single precision weights", "anchors": ["src/content/accept_encoding.rs: header_value", "src/transfer/te.rs: header_value", "src/content/accept.rs: header_value", "src/content/media_type_proposal.rs: From<MediaTypeProposal> for HeaderValue", "src/content/encoding_proposal.rs: From<EncodingProposal> for HeaderValue", "src/transfer/encoding_proposal.rs: From<EncodingProposal> for HeaderValue", "src/content/content_encoding.rs: header_value", "src/transfer/transfer_encoding.rs: header_value"]}
{"id": "C110", "title": "What numbers, dates and credentials write is read by others as what was put in", "statement": "A recipient that follows the standards reads the value that Content-Length, Age, Retry-After, Date, Expires, Last-Modified, If-Modified-Since, If-Unmodified-Since or Authorization writes in exactly one way: as the number, the delay or instant in whole seconds, the scheme and credentials that were put in, whenever it reads it. (Violated: leading spaces of credentials are lost and credentials with other spaces cannot be read; a user name with a colon is read as another user with another password.)", "quantifier": "all numbers, durations, times that can be written, credentials, user names and passwords, and all times of reading", "why_tests_cant": "all readings in all three layouts of dates, at all times, and all texts for credentials, users and passwords", "anchors": ["src/content/content_length.rs: header_value", "src/cache/age.rs: header_value", "src/other/retry_after.rs: header_value", "src/other/date.rs: header_value", "src/cache/expires.rs: header_value", "src/conditional/last_modified.rs: header_value", "src/conditional/if_modified_since.rs: header_value", "src/conditional/if_unmodified_since.rs: header_value", "src/auth/authorization.rs: header_value", "src/auth/basic_auth.rs: header_value"]}
{"id": "C111", "title": "What Server-Timing writes is read by others as what was put in", "statement": "A recipient that follows the Server-Timing grammar and keeps durations as doubles reads the value that Server-Timing writes in exactly one way: as the same metrics in the same order with the same names and descriptions, each duration within one part in 2^50 of the one put in; different durations below 500000 seconds are read as different numbers. This holds exactly when names are tokens and descriptions have neither quotes nor backslashes nor control characters. (Violated otherwise: descriptions and names are written unchecked, so a description can bring along further metrics, a name can bring along a duration, and backslashes are taken for escapes.)", "quantifier": "all lists of metrics with all names, descriptions and durations, and all readings of the value", "why_tests_cant": "all texts for names and descriptions, all durations up to 2^64 seconds with four roundings each, and all ways to read the value", "anchors": ["src/trace/server_timing/mod.rs: header_value", "src/trace/server_timing/metric.rs: From<Metric> for HeaderValue, new"]}
{"id": "C112", "title": "What Forwarded writes is read by others as what was put in", "statement": "A recipient that follows RFC 7239 reads the value that Forwarded writes in exactly one way: as the same `for` values in order and the same by, host and proto. This holds exactly when every `for` value is text that can stand in a quoted string and is not empty, and by, host and proto are tokens. (Violated otherwise: by, host and proto are written unchecked, so a host with a port cannot be read by anybody and text in a host can add further addresses to the chain; an empty `for` value cannot be read.)", "quantifier": "all Forwarded values with any texts, and all readings of what is written", "why_tests_cant": "all texts, all ways to read the value with optional spaces, missing pairs, tokens and quoted strings", "anchors": ["src/proxies/forwarded.rs: header_value, format_value, set_by, add_for, set_host, set_proto"]}
{"id": "C113", "title": "What WWW-Authenticate writes is read by others as what was put in", "statement": "A client that follows RFC 7235 reads the value that WWW-Authenticate writes in exactly one way: as one challenge of the scheme that was put in, with the realm that was put in and the charset UTF-8. This holds exactly when the realm has neither quotes nor backslashes nor control characters. (Violated otherwise: the realm is written unescaped, so backslashes are taken for escapes, a backslash at the end makes the value unreadable, and a realm can bring along a further challenge of any scheme.)", "quantifier": "all schemes, all realms and all readings of what is written", "why_tests_cant": "all texts for the realm and all ways to read a list of challenges whose parameters are separated by commas too", "anchors": ["src/auth/www_authenticate.rs: header_value, new", "src/auth/authentication_scheme.rs: Display"]}
{"id": "C114", "title": "A typed header that is read and written again keeps its meaning for others", "statement": "A proxy that reads a header with its type and writes it to another message passes its meaning on: whoever follows the standard reads from the written line exactly what was meant by the received lines. This holds for field names of Vary, the wildcard alone, credentials with any number of spaces, numbers below 2^64 (the age up to 2^53), plain policies of Strict-Transport-Security, and plain metrics of Server-Timing. For media ranges, entity tags, methods, kinds of data to clear, plain cache directives, dates, preferences for codings, the coding of a body, Basic credentials, challenges and Forwarded chains it holds exactly under the stated conditions; a proxy that adds its address to a chain is read as the chain and the address. (Violated otherwise: s-maxage is lost, of several codings of a body only the last one is passed on, parameters of a challenge other than the realm are lost, a media range with two charsets is passed on with the wrong one, and a Forwarded chain with a port in its host is passed on as a value that nobody can read.)", "quantifier": "all received lines that have a meaning by the standard and all readings of the written line", "why_tests_cant": "composes all readings of all received texts with all readings of the written text, for sixteen headers", "anchors": ["src/content/accept.rs: from_headers, header_value", "src/trace/server_timing/mod.rs: from_headers, header_value", "src/conditional/vary.rs: from_headers, header_value", "src/conditional/if_match.rs: from_headers, header_value", "src/conditional/if_none_match.rs: from_headers, header_value", "src/other/retry_after.rs: from_headers, header_value", "src/cache/cache_control/cache_control.rs: from_headers, header_value", "src/proxies/forwarded.rs: from_headers, header_value, add_for", "src/content/accept_encoding.rs: from_headers, header_value", "src/transfer/te.rs: from_headers, header_value", "src/content/content_encoding.rs: from_headers, header_value", "src/transfer/transfer_encoding.rs: from_headers, header_value", "src/auth/authorization.rs: from_headers, header_value", "src/auth/basic_auth.rs: from_headers, header_value", "src/auth/www_authenticate.rs: from_headers, header_value", "src/security/strict_transport_security.rs: from_headers, header_value"]}
{"id": "C115", "title": "A client gets what it asked for most", "statement": "A client writes its preferences into a request, the server reads and negotiates them and writes what it chose into the response, and the client reads that. Whatever else is in the headers, the client reads the coding (or the first available media type) that it asked for with the most weight among those the server has; the server answers 406 exactly if there is none; nothing panics. With any weights, nothing that was asked for and available has a weight more than a thousandth above what the client gets. (Violated: weights closer than a thousandth are written alike, and then the later one wins; a media type without a weight ranks lowest in the client's list and highest once it is sent.)", "quantifier": "all lists of preferences, all lists of what the server has, all headers already in the request and the response", "why_tests_cant": "composes writing, reading, sorting, negotiating, writing and reading again over all lists and all 32-bit weights", "anchors": ["src/content/accept_encoding.rs: header_value, from_headers, negotiate", "src/content/content_encoding.rs: from_headers, header_value", "src/transfer/te.rs: header_value, from_headers, negotiate", "src/transfer/transfer_encoding.rs: from_headers, header_value", "src/content/accept.rs: header_value, from_headers, negotiate", "src/content/content_type.rs: from_headers, header_value"]}
{"id": "C116", "title": "A message survives the conversion to the other crate and back", "statement": "A request or response of the http crate that is converted to this library's type and back (as middleware does), and a message of this library that is converted to the http crate's type and back, keeps method, target, status, body and version, and has the headers it had. Of each header the first value gets through; the content type gets the media type of the body in front. So the headers are the same exactly when every header has one value and the body has no media type (or says its content type twice already); a header collection comes back exactly when every name has one ASCII value. (Violated otherwise: further values of a header are lost, and every message whose body has a media type, even an empty one, comes back with one more content type.)", "quantifier": "all messages in either direction with known methods and statuses and headers the http crate can hold", "why_tests_cant": "all header maps, bodies with and without a media type, and both directions composed", "anchors": ["src/hyperium_http.rs: hyperium_headers_to_headers, headers_to_hyperium_headers, TryFrom<http::Request<Body>> for Request, From<Request> for http::Request<Body>, TryFrom<http::Response<Body>> for Response, From<Response> for http::Response<Body>, TryFrom<http::HeaderMap> for Headers, TryFrom<Headers> for http::HeaderMap"]}
{"id": "C117", "title": "A server behind proxies learns who the client is", "statement": "When every proxy on the way reads the Forwarded header with its type, adds the address it was called from and writes it back, the server reads all the addresses in order, takes the first of them for the remote address of the request, and the host that was stated for its host. (Violated: with two or more addresses the remote address ignores the header, and X-Forwarded-For, which any client can send, or the last proxy is taken instead; a quoted address is taken with its quotes; an address with `;host=` in it, which a client can put into X-Forwarded-For, decides the host. Proved: the server reads all addresses, however many proxies there are; the remote address is the client exactly if it is the only address and a token; the host is right if no address has a semicolon.)", "quantifier": "all numbers of proxies, all addresses, all headers already in the request", "why_tests_cant": "chains of any length, and two readers of the same header (the typed one and the one of Request::remote and host) compared on all addresses", "anchors": ["src/proxies/forwarded.rs: from_headers, add_for, header_value, format_value", "src/request.rs: Request::remote, Request::host, forwarded_header_part, forwarded_for"]}
{"id": "C118", "title": "A validator comes back to the server as it was given out", "statement": "When a server sends an entity tag in ETag or a time in Last-Modified, a client reads it with the type of the header and sends it back in If-Match, If-None-Match, If-Modified-Since or If-Unmodified-Since (tags of several responses together), the server reads exactly the tags, in order, and the time it gave out. (Violated: tags that the client can read but which have a comma make the server answer 400, and so does sending no tag; a time comes back cut to whole seconds, so a resource modified at a fraction of a second counts as modified since on every request. Proved: what is read in every case.)", "quantifier": "all lists of entity tags, all times, all headers already in the responses and in the request", "why_tests_cant": "composes four writers and readers over all tags, all numbers of tags and all times", "anchors": ["src/conditional/etag.rs: from_headers, header_value", "src/conditional/if_match.rs: from_headers, header_value", "src/conditional/if_none_match.rs: from_headers, header_value", "src/conditional/last_modified.rs: from_headers, header_value", "src/conditional/if_modified_since.rs: from_headers, header_value", "src/conditional/if_unmodified_since.rs: from_headers, header_value"]}
{"id": "C119", "title": "A trace stays connected through services that call one another", "statement": "When each of any number of services reads the traceparent header of the request it gets, starts children, decides whether the trace is recorded, and writes its context into the request to the next service, the last context has the trace id and version of the first, is recorded as was decided last, has the other flags of the first, the last fresh id as its id and the id before it as its parent. If the first value is valid by the W3C recommendation and the last fresh id is not zero, what the last service sends on is valid too.", "quantifier": "all contexts, all numbers of services, all fresh ids below 2^64, all sequences of children and decisions, all other headers of the requests", "why_tests_cant": "chains of any length composing writing, reading and changing contexts", "anchors": ["src/trace/trace_context.rs: from_headers, header_value, child, set_sampled, sampled"]}
{"id": "C120", "title": "Messages on one connection do not run into each other", "statement": "When messages whose bodies state a length that their reader has are sent one after another with their Content-Length, a receiver that makes a body of the stated length from the connection, reads it to its end with any buffer sizes, and takes the reader back, gets for every message exactly the bytes sent, and is left with the rest of the connection; polls may be pending or fail in between. Without a stated length it gets everything. A body that states more than its reader has makes the receiver take the beginning of the next message for its end.", "quantifier": "all numbers of messages, all bodies and readers, all connections, all buffer sizes and readiness schedules", "why_tests_cant": "all schedules of polls over any number of messages, composing header writing and reading with the length limit of bodies", "anchors": ["src/body.rs: from_reader, into_reader, len, AsyncRead for Body", "src/content/content_length.rs: from_headers, header_value"]}
{"id": "C121", "title": "A list header collects what the layers of an application add", "statement": "When any number of layers one after another read a list header of a message with its type (starting with an empty list if there is none), change the list and write it back, nothing fails, the other headers stay, and the next reader gets the list that the changes give one after another: Vary, If-Match, If-None-Match, Clear-Site-Data, Timing-Allow-Origin, Allow (as a set, visited in any order), Cache-Control, Server-Timing, Accept, Accept-Encoding, TE. (Violated: a Cache-Control header with s-maxage loses it in the second layer; a layer that leaves an empty Clear-Site-Data makes the next one panic. Proved for lists with members that survive being written once.)", "quantifier": "all numbers of layers, all changes of the lists, all headers already in the message", "why_tests_cant": "chains of any length of arbitrary changes, each composed with a reader and a writer", "anchors": ["src/conditional/vary.rs: from_headers, header_value", "src/conditional/if_match.rs: from_headers, header_value", "src/cache/clear_site_data/mod.rs: from_headers, header_value", "src/cache/cache_control/cache_control.rs: from_headers, header_value", "src/security/timing_allow_origin.rs: from_headers, header_value", "src/server/allow.rs: from_headers, header_value", "src/trace/server_timing/mod.rs: from_headers, header_value", "src/content/accept.rs: from_headers, header_value", "src/content/accept_encoding.rs: from_headers, header_value", "src/transfer/te.rs: from_headers, header_value"]}
{"id": "C122", "title": "Reading a message does not amplify it", "statement": "What a reader of a header holds is bounded by what was sent. A list (If-Match, If-None-Match, Vary, Clear-Site-Data, Allow, Cache-Control, Timing-Allow-Origin, Accept-Encoding, TE, Accept, Server-Timing) has at most one member per line and one more per comma, and the texts of its members together are not longer than the lines without the commas; forwarding information with its names, credentials with their scheme, and a realm are not longer than the line they were read from, the user and password of Basic credentials at most three quarters of it; X-Forwarded-For gives one node per piece and adds at most brackets and what the canonical form of an address adds; a media type has at most one parameter per semicolon and is not longer than its text; a list read and written again is longer by at most what the separators come to. (Violated for media types: the text of a quoted value that is not closed is held twice, as the value and as further parameters, so what is held can come to almost twice the text; that factor is proved to be the most.)", "quantifier": "all messages: all numbers of lines and all texts, all canonical forms of IPv6 addresses of bounded growth, all address parsers of bounded growth", "why_tests_cant": "a bound over all texts a peer can send; tests show single texts", "anchors": ["src/conditional/if_match.rs: from_headers, header_value", "src/conditional/vary.rs: from_headers, header_value", "src/cache/clear_site_data/mod.rs: from_headers, header_value", "src/cache/cache_control/cache_control.rs: from_headers", "src/security/timing_allow_origin.rs: from_headers", "src/server/allow.rs: from_headers, header_value", "src/trace/server_timing/parse.rs: parse_header", "src/content/accept.rs: from_headers", "src/content/accept_encoding.rs: from_headers", "src/transfer/te.rs: from_headers", "src/mime/parse.rs: parse", "src/proxies/forwarded.rs: from_headers", "src/auth/authorization.rs: from_headers", "src/auth/basic_auth.rs: from_headers", "src/auth/www_authenticate.rs: from_headers"]}
{"id": "C123", "title": "Reading a body ends when the body does, and only then", "statement": "A body of a declared length polls its reader only while bytes of the body are missing, never for more than is missing, so that a receiver on a connection that stays open does not wait for anything behind the body; once the declared number of bytes has been delivered every poll is ready with nothing and changes nothing; the same holds for each of two bodies that are chained, and the second is not polled before the first has ended. Reading a body to its end takes at most one ready poll per byte and one more, for every reader if the length is declared and for every reader that holds finitely many bytes otherwise. A body that ends before its declared length is reported. (Violated: what is there counts as the whole body and no error is given; what is proved is that the bytes read are as many as declared exactly if the reader had them.)", "quantifier": "all readers (also endless ones and ones that are pending or fail at any time), all declared lengths, all buffer sizes and numbers of polls", "why_tests_cant": "all schedules of polls over all readers; a test sees one reader that is always ready", "anchors": ["src/body.rs: AsyncRead for Body, chain, from_reader, into_bytes, into_string"]}
{"id": "C124", "title": "Logging a message tells which it was and keeps what is in it", "statement": "The text `{:?}` gives of a request or response is one line whatever a peer put into the message; two messages print the same exactly if method and URL or status, all headers, version, addresses, declared length, number of bytes read and the state of trailers and upgrade are the same, so that the log tells these and tells nothing of the content of bodies and of attached state. What is told stands behind the name of what it is, and the names printed are those of the protocol up to case and punctuation. Fails for secrets outside bodies: passwords, credentials and the values of headers such as Authorization and Cookie are printed as they are.", "quantifier": "all requests and responses with all bodies and attached state, all readers, all ways std escapes characters outside ASCII, all printers of URLs that tell the URL", "why_tests_cant": "that nothing more is told is a statement about all pairs of messages", "anchors": ["src/request.rs: Request (derived Debug)", "src/response.rs: Response (derived Debug)", "src/body.rs: Debug for Body", "src/extensions.rs: Debug for Extensions", "src/auth/basic_auth.rs: BasicAuth (derived Debug)", "src/auth/authorization.rs: Authorization (derived Debug)", "src/headers/headers.rs: Debug for Headers"]}
{"id": "C125", "title": "A cookie sets what it was made of", "statement": "A cookie put into a message as a header value is read by a browser (RFC 6265, section 5.2) with exactly its name, value and attributes if and only if these have no semicolon and no blanks around them and the name is not empty and has no equals sign; cookies appended one after another under any spelling of the header name become one line each, in order, after the lines already there, whatever was done to the collection before. Fails for other cookies: nothing is encoded or refused, so that a value with a semicolon sets attributes of the cookie, and characters outside ASCII and line ends are stored.", "quantifier": "all cookies, all histories of a header collection, all numbers of cookies and spellings of the name", "why_tests_cant": "an equivalence over all texts, and histories of any length", "anchors": ["src/headers/header_value.rs: From<Cookie> for HeaderValue", "src/headers/headers.rs: append, get"]}
{"id": "C126", "title": "A login reaches the server as the user's own", "statement": "When a server asks for a login with WWW-Authenticate, a client reads the challenge, looks up what it has for the realm and logs in with Basic credentials, and the server reads them, the server gets exactly the user and the password that the client has for that realm, nothing if it has none, and no two logins of different users or passwords are the same to it; a client asked for another scheme gives no password away. (Violated: a server that asks for a realm with a quote in it is given what the client has for another realm, the part before the quote; a user with a colon in the name is another user with another password to the server. Proved exactly for which realms and users it holds.)", "quantifier": "For all realms, schemes, users, passwords, wallets of the client, and all other headers of the response and the request.", "why_tests_cant": "The exchange crosses two headers, four functions and arbitrary texts; tests log in with a plain user at a plain realm.", "anchors": ["src/auth/www_authenticate.rs", "src/auth/basic_auth.rs", "src/auth/authorization.rs"]}
{"id": "C127", "title": "A cache that goes by Vary answers with what the server would have made of the request", "statement": "A server names in Vary the fields of the request on which its answer depends, in any spelling; a cache that reads Vary and answers a later request with a stored response only if both requests have the same values for the names it read gives to every request what the server would have made of it, whatever that is; it uses the response again exactly for the requests that agree on the named fields, and never with the wildcard. The same holds for what the server reads of typed headers of the request (negotiation, credentials, validators). (Violated for names with a comma or with white space around them, which the library accepts as header names: the cache compares other fields, and answers a request that differs in the field with the stored response. Proved exactly for which names it holds.)", "quantifier": "For all servers (any function of the fields named), all lists of names, all pairs of requests, and all other headers of the response.", "why_tests_cant": "The statement is about every function of the request and every pair of requests; a test compares one pair.", "anchors": ["src/conditional/vary.rs: push, from_headers, header_value", "src/headers/headers.rs: get", "src/headers/header_name.rs"]}
{"id": "C128", "title": "An answer is used as long as the server allows, however many caches it goes through", "statement": "A server gives its answer a lifetime with Cache-Control; each cache reads Age, adds how long it kept the answer and writes Age again; the last one uses the answer while Age and the time it kept it are below the lifetime. It is used all the time it is younger than the lifetime in whole seconds, never when it is older by a second for each cache it went through, and with whole seconds exactly while it is younger; the age read after any number of caches is the sum of the whole seconds; without a lifetime it is not used. (Violated: parts of seconds are lost at each cache, so that an answer allowed for one second is still used after any number of caches that each kept it nearly a second; a shared cache does not get to see s-maxage, since it is written under another name, and uses the answer as long as max-age says. Ages above 2^53 seconds are left out, see C30.)", "quantifier": "For all lifetimes and other directives, all numbers of caches and all times they keep the answer (together at most 2^53 seconds), and all other headers.", "why_tests_cant": "Chains of any length and all durations; tests write and read one age.", "anchors": ["src/cache/age.rs", "src/cache/cache_control/cache_control.rs", "src/cache/cache_control/cache_directive.rs"]}
{"id": "C129", "title": "Changes guarded by If-Match are not lost", "statement": "Several clients read and change one document, in any order: the server gives the tag of the present version with every response, clients send the tag they learned last in If-Match, and the server accepts a change only if the header it reads names the tag of the present version. Then every accepted change was made by a client that had read the very version it replaced, and of the changes made from one version at most one is accepted; this holds for exactly those ways to give tags that do not give a tag twice (as far as it can make the way). A client that has just read the document can change it. (Violated for the last sentence: if the tag of the present version has a comma, which is legal, no client can ever change the document. Proved exactly for which tags it holds.)", "quantifier": "For all sequences of reads, guarded changes and other changes by any number of clients, all ways to give tags to versions, and all other headers of requests and responses.", "why_tests_cant": "A statement about every interleaving of any length; tests parse one header.", "anchors": ["src/conditional/etag.rs: from_headers, apply_header", "src/conditional/if_match.rs: push, from_headers, apply_header"]}
{"id": "C130", "title": "A client that keeps documents by their tags always shows the present one", "statement": "A client keeps every version of a document that it got with its tag, and sends all the tags in If-None-Match when it asks again; the server leaves the document out if the header it reads names the tag of the present version, and the client then shows what it keeps for the tag in the response. Then the client always shows the document as it is, for exactly those ways to give tags that do not give a tag twice (as far as it can make the way); and a document that the client has just got is not sent again. (Violated for the last part: once the client keeps one tag with a comma, the server can read none of its tags and sends the document every time, whatever the tags of later versions are.)", "quantifier": "For all sequences of requests and changes, all ways to give tags to versions, and all other headers of requests and responses.", "why_tests_cant": "A statement about every history of any length; tests parse one header.", "anchors": ["src/conditional/etag.rs: from_headers, apply_header", "src/conditional/if_none_match.rs: push, from_headers, apply_header"]}
{"id": "C131", "title": "A client that waits as told is not back too early", "statement": "A server tells a client with Retry-After when to come back, as a delay or as a time; the client reads the header, asks how long that is from some moment on, and waits that long. Then it is not back before the time the server named, and not later than it by more than the time that went by on the way; and it is always told some wait. (Violated: the fraction of a second is dropped and not rounded up, so that for every delay and every time that has one some client is back too early, though by less than a second; a client panics that is told a delay beyond the end of time. Proved exactly when the client is back, and that it is never early exactly for whole seconds.)", "quantifier": "For all delays and all times up to the year 9999, all clock readings in order of server and client, and all other headers of the response.", "why_tests_cant": "The outcome depends on four clock readings that a test does not control, and on all delays.", "anchors": ["src/other/retry_after.rs: apply, from_headers, duration_since"]}
{"id": "C132", "title": "A client that keeps policies makes secure what the servers asked for", "statement": "Servers give policies with Strict-Transport-Security; a client reads them from the responses, keeps the last one of each host until it expires, and makes a request secure if the host itself, or a domain above it that gave its policy for its subdomains, has a policy that holds. Then the requests that the client makes secure are exactly the ones the servers asked for: it makes no other ones secure, and a host that gave a policy is contacted securely until it expires or another one comes. (Violated: every policy for the subdomains leaves all of them unprotected, at any time, since the directive is written in a spelling that is not read; a fraction of a second is dropped from the end. Proved exactly for which policies it holds.)", "quantifier": "For all sequences of responses from any hosts at any times with any policies (up to 2^64 seconds), all hosts asked for later, and all other headers of the responses.", "why_tests_cant": "A statement about histories of any length and all hosts; the library's tests read one header.", "anchors": ["src/security/strict_transport_security.rs: header_value, from_headers"]}
{"id": "C133", "title": "Documents kept by the date of their last change", "statement": "A server gives the time of the last change in Last-Modified; clients send it back in If-Modified-Since to see the document and in If-Unmodified-Since to change it. Which versions clients show, and that no change is lost, is settled by how the server compares: if it compares the times as the library's types do, clients always show the present version and nothing is lost unless two versions were made at the same nanosecond at the beginning of a second, but a document is sent again every time, and nobody can change it, unless it was made at the beginning of a second; if it compares by the second, nothing is sent twice and whoever has the present version can change it, and clients show the present version and nothing is lost exactly if each version was made in a later second than the one before. No other comparison does both.", "quantifier": "For all sequences of requests and changes by any number of clients, any number of versions (claims are made up to any last version), all their times from 1970 to 9999, all comparisons, and all other headers of requests and responses.", "why_tests_cant": "A statement about every interleaving of any length and all times; tests write and read one date.", "anchors": ["src/conditional/last_modified.rs", "src/conditional/if_modified_since.rs", "src/conditional/if_unmodified_since.rs"]}
{"id": "C134", "title": "A body that several layers coded arrives as it was", "statement": "Layers of a server code the body of a message one after the other, each saying its coding in Content-Encoding or Transfer-Encoding; a client undoes the coding that it reads. Then the client has the body as it was before the layers, whatever the codings do. (Violated: a layer that says its coding with apply_header overwrites what the layers before it said, so that a body gzipped by one layer and chunked or compressed by the next arrives gzipped, and nothing tells the client. Proved: it arrives exactly if only the last layer codes; if layers add a line instead and the client takes away lines from the last on, it arrives whatever the layers.)", "quantifier": "For all sequences of codings, all functions that code and decode bodies, and all other headers.", "why_tests_cant": "A statement about all layers and all codecs; tests write and read one coding.", "anchors": ["src/content/content_encoding.rs: from_headers, header_value", "src/transfer/transfer_encoding.rs: from_headers, header_value", "src/headers/header.rs: apply_header"]}
{"id": "C135", "title": "A client that asks before it sends a body gets its answer", "statement": "A client sends the headers of a request with Expect and waits for the go-ahead before it sends the body; the server reads the expectation with its type, asks for the body or refuses it, and answers. Running on their own and in any order, the two never wait for each other forever exactly if there is an expectation in the headers, whatever its text, or the client does not wait; they are through after two steps for every part of the body and six more. With the expectation written by the type the server has the whole body and the client the answer to it, or the client has the refusal and nothing of the body was ever sent. (Violated: an expectation in another letter case, which counts as the same, ends in status 400 and the body is not sent.)", "quantifier": "For all interleavings of client and server, all bodies in any parts, all other headers, all refusals and answers.", "why_tests_cant": "A statement about every order of the steps of two independent parties; tests read one header.", "anchors": ["src/other/expect.rs: from_headers, header_value", "src/headers/header.rs: apply_header"]}
{"id": "C136", "title": "A browser clears what the site asked for and nothing else", "statement": "A browser that reads Clear-Site-Data with the type from the responses of a site, and removes what it names, has after any sequence of responses exactly what it kept and was not asked to clear since; a policy written with the type asks for exactly the kinds of data it holds. (Violated: the browser panics exactly if a response names anything but the four kinds and the wildcard, which is to be passed over; the empty policy is such a one. Proved for known names and for policies that hold something.)", "quantifier": "For all sequences of kept data and responses, all headers of the responses, all policies.", "why_tests_cant": "A statement about histories of any length and all header values; tests read single policies of known names.", "anchors": ["src/cache/clear_site_data/mod.rs: from_headers, header_value", "src/cache/clear_site_data/directive.rs: from_str, as_str"]}
{"id": "C137", "title": "Report groups reach the browser as they were given", "statement": "A group to report to is made from JSON and written as JSON into the policy. Any object is read as the group it describes, whatever the order of its members and whatever else it has, and is refused if it describes none; the text written is JSON for the group, on one line, different for different groups, and read back it is the group. A browser that reads the policy has the group. (Violated: the text always has a comma, which ends the policy, so no browser ever has it, whatever the policy and the group; instead it has a group cut at the first comma, and the directives after it are not in its policy. A group or endpoint that is not ASCII makes applying the policy panic, and nothing else about groups does.)", "quantifier": "For all groups, all JSON objects and arrays, all policies and all other headers.", "why_tests_cant": "A statement about all strings, every order of members and everything a browser could read; there is no test of report groups.", "anchors": ["src/security/csp.rs: ReportTo, ReportToEndpoint, report_to, apply"]}
{"id": "C138", "title": "Addresses of IPv6 are kept alike however proxies write them", "statement": "For each entry of X-Forwarded-For a server has: if the entry, without blanks around it, is a text of an IPv6 address by RFC 4291, the canonical text of that address by RFC 5952 in brackets; else the entry itself. So two entries that are IPv6 addresses are kept alike exactly if they mean the same address, however they were written; the address is read back from what is kept; it goes through any number of proxies that write Forwarded and is read the same behind them; and what is kept is ASCII and at most 41 characters or as long as the entry.", "quantifier": "For all texts, all eight-group addresses, all header values, any number of entries and proxies.", "why_tests_cant": "There are 2^128 addresses with many texts each; tests read a handful.", "anchors": ["src/proxies/forwarded.rs: from_headers, from_x_headers", "std: core::net::parser, Display for Ipv6Addr"]}
{"id": "C139", "title": "Forms arrive as they were filled in", "statement": "A form of names and values that is put into a request is read from it as the same names and values, in order, whatever characters they have; its media type is that of forms unless another was chosen. Its text has nothing but letters, digits and the signs * - . _ + % = &, different forms have different texts, and names and values of plain characters stand in it as they are. Any text is read as the form it stands for by the rules of WHATWG, none is refused; two texts with an ampersand between them are read as the one form and then the other. Read as a map, the last value for a name counts, and a map is read back however its entries were ordered.", "quantifier": "For all lists of pairs of texts, all texts, all maps and orders, all requests and schedules of reads.", "why_tests_cant": "A statement about all strings of any length; tests send one form.", "anchors": ["src/body.rs: from_form, into_form", "src/request.rs: body_form, set_body", "serde_urlencoded 0.7, form_urlencoded"]}
{"id": "C140", "title": "A client finds a method that a resource takes", "statement": "A resource answers a method that it does not take with its methods in Allow; a client that tries one of its methods after another and leaves out those that a refusal did not name finds the first of them that is taken with at most two requests, and learns with one if there is none. If what the resource takes changes in between, the client tries each method once at most, what it finds was taken, and for each method it gives up there was a request when it was not taken. (Violated for a resource that takes no method at all: its Allow is empty, and the client fails with 500 instead of learning it; nothing else makes it fail.)", "quantifier": "For all sets of methods in any order, changing at every request, all lists of methods of the client, all other headers.", "why_tests_cant": "A statement about all sets, orders and changes; tests write and read one set.", "anchors": ["src/server/allow.rs: from_headers, header_value", "src/headers/header.rs: apply_header", "src/method.rs: from_str"]}
{"id": "C141", "title": "JSON put into a request arrives", "statement": "A value of null, truth values, 64-bit integers, texts, arrays and objects that is put into a request or response as JSON is written as JSON text for that value by RFC 8259, on one line without control characters, different for different values; its media type is that of JSON unless another was chosen, and the reader gets the same value. Any text by the grammar of RFC 8259 with such values is read as what it means along every path, however it is escaped and wherever it has white space; the order of members makes no difference if their names differ, and of several members of the same name the last counts. Whatever is read can be passed on and is read as the same value again. A value is also taken where a body or a response is expected, without a panic: as a response it has status 200, the media type of JSON and no other header. (Violated for values with more than 127 arrays and objects within each other: they are written without an error, and the reader gets 422.)", "quantifier": "For all values of any size and depth, all texts, all requests and schedules of reads.", "why_tests_cant": "A statement about all values; tests send one object.", "anchors": ["src/body.rs: from_json, into_json, From<serde_json::Value>", "src/request.rs: body_json, set_body", "serde_json: Value, to_vec, from_slice"]}
{"id": "C142", "title": "A gateway sends on what it got", "statement": "A program that makes a new message from each one it gets, copies the headers, list by list or value by value, in whatever order they are visited, and moves the body over, before the headers or after them, sends on what it got: behind any number of such programs the message has the body it had, unread, and each header with all its values in their order; how many there were makes no difference. A text put into the message is read behind them. (Violated for the content type: a message without one, such as a request without a body, has one behind the first gateway; the headers are the same exactly if there was a content type or the body has no media type.)", "quantifier": "For all histories of calls that made the headers, all bodies, any number of gateways of each kind, every order of visiting.", "why_tests_cant": "A statement about any number of messages and every order of a hash map; there is no test that copies a message.", "anchors": ["src/headers/headers.rs: iter, insert, append", "src/request.rs: take_body, set_body, copy_content_type_from_body", "src/response.rs: take_body, set_body, copy_content_type_from_body"]}
{"id": "C143", "title": "An answer is used until the date on which it expires", "statement": "A server says with Date and Expires when its answer was made and when it expires; the answer goes through any number of caches, which add to Age. A cache that compares Expires with its own clock uses the answer exactly until the clock shows the second in which it expires: never afterwards, and always a second before, whatever the clocks of the server and of the other caches show. A cache that takes the time from Date to Expires for the lifetime uses the answer while it is younger than that, whatever any clock shows. An answer that had expired when it was made, or from which no date can be read (such as 0), is used by neither. (Violated for the cache that goes by the lifetime: each date is cut to the second, so that an answer that expires a nanosecond after it was made may be used for nearly a second; proved with bounds of a second for the dates and one for each cache, and exactly if there are only whole seconds.)", "quantifier": "For all times from 1970 to 9999, all numbers of caches and durations (together up to 2^53 seconds), all clocks, and all other headers of the answer.", "why_tests_cant": "A statement about all times, clocks and chains of caches; tests write one date and read it.", "anchors": ["src/cache/expires.rs", "src/other/date.rs", "src/cache/age.rs"]}
{"id": "C144", "title": "Trailers pass any number of gateways", "statement": "A server sends trailers with a request or response, or a connection with an upgraded response; gateways receive them, send them on with messages of their own, and a client receives them behind the last. However calls and polls interleave, trailers that the server finished sending reach the client unchanged as soon as each gateway was polled after the one before it; before the server polls its sending the client is told nothing; if the server drops the sender or a sending that was not polled, or if a gateway goes away before it was polled, the client is told that nothing comes, and does not wait for ever. In no case does the client get other trailers than those that the server sent first, or get them twice.", "quantifier": "For all numbers of gateways, all sequences of calls, polls and drops by the server, the gateways and the client, all trailers and connections.", "why_tests_cant": "A statement about any number of tasks and every interleaving; tests send over one message.", "anchors": ["src/trailers.rs: Sender, Receiver", "src/request.rs: send_trailers, recv_trailers", "src/response.rs: send_trailers, recv_trailers, send_upgrade, recv_upgrade", "async_channel: bounded"]}
{"id": "C145", "title": "A message that goes through the crate http comes back", "statement": "A request or response that is converted to the crate http and back has the method, target, status and body it had, and its version, which is HTTP/1.1 if none was set. Its headers are the same. A JSON value sent that way is read as the same value. (Violated for headers: of several values of a name only the first comes back, and a body with a media type adds that to the content type, which then is there twice; the headers are the same exactly if each name has one value and the body has no media type, or the content type was there twice before. After two conversions or more a content type chosen for a body of another media type is lost, and nothing else changes any more.)", "quantifier": "For all messages whose names and values the crate takes, all bodies, all names the crate may refuse, all values of JSON at most 127 deep, any number of conversions.", "why_tests_cant": "A statement about all messages and both conversions together; there is no test of these conversions.", "anchors": ["src/hyperium_http.rs: From<Request>, From<Response>, TryFrom<http::Request>, TryFrom<http::Response>, hyperium_headers_to_headers, headers_to_hyperium_headers", "src/request.rs: set_body", "src/response.rs: set_body"]}
