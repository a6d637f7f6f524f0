# Formal model of http-types: design

Source: `/repo` (http-rs/http-types, pinned commit), read as text only. Everything below is about a
Lean 4 model written by hand from that text. Nothing of the project was built or run.

## Layout

* `lean/Verif/Core/*` – semantic prelude: outcomes (`ok / err status / panic`), Rust string operations
  on `List Char`, integer parsing and printing, UTF-8, base64, exact IEEE binary floats. This stands for
  the Rust standard library and for one dependency; it is part of the trusted base.
* `lean/Verif/Model/*` – the model, one file per source file or small group. Each definition cites the
  file and lines it models and says what was simplified.
* `lean/Verif/Spec/*` – small specifications, written without the model's helper functions (they share
  the data types and the string vocabulary of `Core`).
* `lean/Verif/Lemmas/*` – helper lemmas.
* `lean/Verif/Props/*` – the property theorems, named `Cnn_...`, with a concrete non-trivial instance
  (`example`) beside them, and the helper lemmas used by only one file.
* `lean/Verif/Conform/*` – the assertions of the repository's own unit tests and documentation examples,
  evaluated by the kernel on the model. These are tests of the model against the source's authors, not
  proofs, and no property rests on them. Left out: `tests/mime.rs` (its `cfg` is never set), the size of
  a date in memory, the texts of errors, what serde_json and serde_qs themselves accept (their outcome is
  a parameter), and documentation examples that assert nothing. The clock is a fixed time in these tests.
* `MANIFEST.json` – which theorem is about which property. `properties.jsonl` – the English statements.
  `seeded/LOG.jsonl` – what happened when the model was replaced by wrong programs.

## Modelling conventions

* A Rust `Result` with `http_types::Error` is `Res α = ok a | err status | panic`. Only the status of an
  error is kept; messages and backtraces are not modelled. Every `unwrap`, `expect`, `todo!`,
  `unreachable!`, slice index and arithmetic underflow that the source can reach is an explicit `panic`.
* `str`/`String` are `List Char` (a Lean `Char` is a Unicode scalar value, like a Rust `char`). Byte
  offsets matter in a few places (`input[..4]`); there the model counts UTF-8 bytes and panics off a
  character boundary.
* `&mut self` methods return the new value. Asynchronous code is a state machine polled any number of
  times with any buffer sizes; channels are transition systems with free interleaving.
* A `HashMap` is an association list with distinct keys. Where iteration order can be observed,
  theorems quantify over every order.
* `u64`, `u16`, … are `Nat` with explicit bounds where the bound matters; `usize` is 64 bits wide.
* `f32`/`f64` are exact (sign, magnitude in units of the smallest subnormal, infinities, NaN) with
  round-to-nearest-even.
* Properties the code violates are stated in full in `properties.jsonl`. The violation is a theorem
  `Cnn_violated_...` (a witness, or better, all inputs of a kind), and what does hold is proved as
  `Cnn_..._partial`, as an equivalence where possible, with the missing part named in its comment.

## Trusted base

* Lean's kernel, version 4.33.0. Axioms: only `propext`, `Classical.choice`, `Quot.sound`; the list per
  theorem is at the end of this file (from `#print axioms`). No `sorry`, no `native_decide`, no
  `bv_decide`, no axioms of our own.
* The reading of the source: each definition against its citation.
* The standard library behaves as in `Core`:
  * `str` operations (`split`, `trim`, `strip_prefix`, `to_ascii_lowercase`, …); `to_lowercase` is
    modelled by ASCII lowering, which agrees on the ASCII texts header values consist of;
  * integer parsing and printing, with std's optional `+`;
  * `f32`/`f64` parsing by the grammar of Rust 1.55 and later, correctly rounded. Exponents of more
    than five digits (std clamps them) and the sign of NaN are not modelled;
  * `{:.3}` and `{}` of floats: correctly rounded, respectively the shortest decimal that reads back,
    the nearest one among those (see `Core/Float.lean` for ties);
  * `Duration::from_secs_f64` panics on negative, NaN and too large values. `Age` is modelled with the
    bound of the checked conversion (values from 2^64 on, which rounding reaches from 2^64 − 2^10);
    `Server-Timing` with the rounding of Rust 1.63 and later;
  * `sort` sorts; the one unstable sort (`sort_by_weight`) breaks ties by index, and C36 shows that the
    arrangement is then unique;
  * `HashMap` is a finite map.
* Dependencies, from their documentation and source as known: `base64` 0.13 (`encode`/`decode` with the
  standard alphabet), `futures_lite` (`chain`, `read_to_end`), `async_channel` (a bounded channel of one
  place), `http` 0.2 (`HeaderMap`, name and value syntax; which names it accepts is a parameter).
* Parameters, about which theorems assume nothing unless a hypothesis says so: URL parsing and printing
  (`url`), `serde_json`/`serde_urlencoded`/`serde_qs` output (but for report groups, whose JSON text is modelled, and forms of pairs of texts, C139, where only what replaces bytes that are no UTF-8 is a parameter), `std`'s IPv6 parsing and printing (any function in most theorems; C138 has them modelled from `core::net` of Rust 1.80, which is not part of /repo), random
  numbers, the clock, hash order, the reader inside a body, the file system's answers, the `infer` crate.

## What is modelled and what is not

Modelled, by source file (line ranges cited by the definitions):

* `src/auth/authentication_scheme.rs`: 7-71
* `src/auth/authorization.rs`: 33-37, 49-72, 80-82, 90-92, 100-105
* `src/auth/basic_auth.rs`: 37-41, 56-88, 106-111
* `src/auth/www_authenticate.rs`: 39-43, 52-94, 102-104, 112-114, 122-127
* `src/body.rs`: 56-62, 79-86, 107-117, 132-134, 154-161, 178-184, 204-211, 227-234, 251-260, 283-287, 318-329, 357-360, 379-386, 407-409, 433-452, 467-479, 495-497, 520-554, 581-613, 618-627, 632-635
* `src/cache/age.rs`: 32-35, 55-69, 77-82
* `src/cache/cache_control/cache_control.rs`: 40-81, 88-100, 108-200
* `src/cache/cache_control/cache_directive.rs`: 8-44, 48-73, 81-156
* `src/cache/clear_site_data/directive.rs`: 7-45, 50-58
* `src/cache/clear_site_data/mod.rs`: 55-88, 96-112, 120-212, 219-237
* `src/cache/expires.rs`: 36-39, 43-46, 59-71, 78-83
* `src/conditional/etag.rs`: 33-39, 43-52, 58-112, 119-133
* `src/conditional/if_match.rs`: 46-79, 87-103, 110-128, 136-199, 205-228
* `src/conditional/if_none_match.rs`: 60-80
* `src/conditional/last_modified.rs`: 37-40, 54-66, 73-78
* `src/conditional/vary.rs`: 54-75, 88-91, 113-135
* `src/content/accept.rs`: 51-54, 58-100, 108-110, 117-119, 126-161, 168-187, 195-213, 217-223, 231-238, 250-257, 269-287
* `src/content/accept_encoding.rs`: 42-45, 49-92, 100-102, 109-111, 118-153, 161-180, 188-206, 210-216, 224-231, 243-250, 262-280
* `src/content/content_encoding.rs`: 41-136
* `src/content/content_length.rs`: 28-31, 41-52, 60-62, 68-73
* `src/content/content_location.rs`: 45-65, 73-81, 88-93
* `src/content/content_type.rs`: 35-38, 42-52, 60-75, 82-86
* `src/content/encoding.rs`: 6-18, 22-51
* `src/content/encoding_proposal.rs`: 10-19, 23-35, 47-78, 87-91, 100-119
* `src/content/media_type_proposal.rs`: 12-21, 25-43, 60-77, 85-95, 104-108, 117-136
* `src/error.rs`: 16-20, 39-91, 128-163, 172-174, 183-192, 200-204, 213-223, 243-247
* `src/extensions.rs`: 17-19, 24-26, 31-60, 65-70, 74-83
* `src/headers/constants.rs`: 4, 8-10, 16, 25, 62, 66, 79, 100, 142, 151-161, 167, 188
* `src/headers/header.rs`: 15-34
* `src/headers/header_name.rs`: 11, 19-26, 33-40, 58-73, 81-84, 99-139
* `src/headers/header_value.rs`: 12-15, 23-29, 51-102, 134-142
* `src/headers/header_values.rs`: 12-14, 18-30, 34-43, 59-130, 138-171
* `src/headers/headers.rs`: 31-33, 37-41, 48-56, 62-100, 104-120, 132-134, 146-149, 171-189
* `src/headers/iter.rs`: 15-22
* `src/headers/names.rs`: 12-18
* `src/headers/to_header_values.rs`: 18-81
* `src/headers/values.rs`: 8-12, 16-31, 37-70
* `src/hyperium_http.rs`: 8-64, 75-82, 93-170, 182-233
* `src/lib.rs`: 183-188
* `src/macros.rs`: 3-13, 23-39, 49-65, 73-87, 91-101, 112-128, 139-155, 164-182
* `src/method.rs`: 13-338, 344-356, 374-382, 404-408, 412-514
* `src/mime/constants.rs`: 41-51, 55-106
* `src/mime/mod.rs`: 31-40, 44-86, 107-127, 149-166, 211-212, 233-236, 246-247
* `src/mime/parse.rs`: 8-162, 167-270
* `src/other/date.rs`: 47-73, 81-87
* `src/other/expect.rs`: 44-56, 63-67
* `src/other/referer.rs`: 48-71, 79-86, 94-99
* `src/other/retry_after.rs`: 35-38, 61-75, 82-89, 97-114, 120-124
* `src/other/source_map.rs`: 45-68, 76-83, 91-96
* `src/parse_utils.rs`: 4-118
* `src/proxies/forwarded.rs`: 8-11, 15-21, 79-85, 111-119, 146-187, 207-298, 302-313, 321-353, 365-438
* `src/request.rs`: 30-44, 49-69, 74-83, 103-105, 114-142, 150-152, 185-187, 199-201, 224-228, 251-254, 280-282, 307-310, 333-336, 369-372, 405-494, 502-504, 508-510, 547-568, 576-594, 616-618, 657-667, 691-696, 712-1010
* `src/response.rs`: 36-82, 90-147, 166-168, 191-195, 220-223, 249-251, 275-278, 301-304, 338-341, 374-399, 407-409, 413-415, 441-450, 477-503, 512-519, 523-530, 539-557, 580-691, 699-725
* `src/security/csp.rs`: 12-37, 58-75, 79-99, 132-149, 153-365
* `src/security/mod.rs`: 44-51, 66-72, 76-81, 96-103, 120-131, 149-155, 171-177, 192-198, 202-219, 239-255
* `src/security/strict_transport_security.rs`: 12-18, 24-30, 35-41, 48-50, 58-60, 68-70, 78-90, 96-159
* `src/security/timing_allow_origin.rs`: 68-73, 80-107, 115-131, 138-156, 164-256
* `src/server/allow.rs`: 45-84, 91-102, 110-173
* `src/status.rs`: 37-48, 59-71, 83-92, 103-113, 125-136, 147-159
* `src/status_code.rs`: 9-420, 427-430, 436-439, 445-448, 454-457, 463-531, 541-608, 618-718
* `src/trace/server_timing/metric.rs`: 17-22, 30-37, 55-74
* `src/trace/server_timing/mod.rs`: 63-82, 89-105, 109-122, 133-214
* `src/trace/server_timing/parse.rs`: 9-18, 32-96
* `src/trace/trace_context.rs`: 37-44, 61-69, 102-118, 124-132, 176-178, 192-217
* `src/trailers.rs`: 62-73, 89-95, 114-140, 144-175, 197-209, 232-234, 255-261
* `src/transfer/encoding.rs`: 8-22, 26-57
* `src/transfer/encoding_proposal.rs`: 10-21, 25-37, 49-80, 89-93, 102-121
* `src/transfer/te.rs`: 40-43, 47-90, 98-100, 107-109, 116-151, 159-178, 186-204, 208-214, 222-229, 241-248, 260-278
* `src/transfer/transfer_encoding.rs`: 38-133
* `src/upgrade/connection.rs`: 8-10, 21-26, 33-59
* `src/upgrade/receiver.rs`: 24-30
* `src/upgrade/sender.rs`: 23-25
* `src/utils/date.rs`: 19-34, 42-47, 52-329, 334-398, 412-414
* `src/utils/mod.rs`: 13-31, 35-42
* `src/version.rs`: 2-19, 29-36, 47-67, 79-95

Not modelled: documentation, `Debug` of errors, iterators and headers holding URLs or times, `{:#?}`, `serde` derives other than those of report groups, error messages and backtraces, `Future` wakers,
allocation failure, `bytes_read` overflow past 2^64, the capacity limit of `http::HeaderMap`,
and how the `cookie` crate itself parses and escapes cookies (the conversion from its printed form is modelled, C125). The one-line forwarding methods of `Request`/`Response` to their
`Headers` and `Extensions` (`insert_header` and the like) are modelled as the calls they forward to.

## Disagreements found between the code and the properties

* **Header collections.** Values can be non-ASCII through entity tags, media types, Forwarded and the `http`
  conversions (C04); an empty slice, or moving the values away through `get_mut`, leaves a
  header without values, whose first and last value panic (C05);
  the size hint counts headers, not values (C06).
* **Dates.** Days that do not exist (31 Feb) and wrong weekdays are accepted (C28). The RFC 850 form does not
  check its separators, and numerals may carry a `+` (recorded in the grammar of C27).
* **Status codes.** Deserialising truncates to 16 bits: 65736 becomes 200 (C19).
* **Bodies.** The buffered interface ignores the declared length (C10); `into_string` panics exactly when
  2^63 bytes or more are still declared (C63).
* **Channels.** The clone of a response can hand out another sender for the same channel (C14).
* **Peer address and host.** The Forwarded header is cut by hand: blanks, quotes and several elements give
  wrong answers (C16).
* **Media types.** Two `charset` parameters, a pattern's `charset=utf-8` being ignored, and `param` with a
  non-ASCII name (panics) (C24, C25).
* **Age.** Ages of more than 53 significant bits are rounded; numerals from 2^64 − 2^10 on panic (C30, C62).
* **Cache-Control.** `s-maxage` is written `s-max-age` and lost, fractions of seconds are cut (C31); `immutable` is valid nowhere (C70).
* **Clear-Site-Data.** Every unknown directive reaches a `todo!`, also the empty text that the empty policy
  writes (C32).
* **Lists in headers.** Empty lists do not read back (C34, C35, C44, C52), nor do commas inside entity tags
  (C34) or URLs (C52); an unknown method in Allow is reported as 500 (C44).
* **Weights.** `q=0` is chosen (C39); weights out of range are reported as 500 (C40); ties make a second
  negotiation differ (C66).
* **Content-Encoding, Transfer-Encoding.** Reading panics when no value is a known coding (C43).
* **Authorization.** User names with a colon (C46), realms with a quote (C47).
* **Forwarded.** Panics on a comma near the end and inside multi-byte characters; in quoted strings a
  character is judged by the lowest eight bits of its code point, so that `Ŝ` is dropped like a backslash and
  `Ģ` panics like a quote of two bytes; errors carry 500; `!` is
  refused in quoted strings and control character 15 accepted; `by`, `host` and `proto` are written
  raw; a value without `for` does not read back; the keys `by`, `host` and `proto` are case-sensitive; only the first value
  counts (C48–C50, C61).
* **Strict-Transport-Security.** `includeSubdomains` is not read back (C51).
* **Content-Security-Policy.** A second application repeats directives (C53); the source `'src'` is no
  keyword of the standard (C71).
* **URL headers.** References in Referer and SourceMap that do not resolve are reported as 500; Content-Location
  cannot be read without a base, absolute or not, and its setter panics on a bad value (C74).
* **Reading a message's body.** It adds `Content-Type: application/octet-stream` to a message without one (C77).
* **Errors.** The type name of an error made from text or from an `anyhow::Error` is `anyhow::Error`, a type it
  cannot be downcast to (C82). `format_err!` with a non-literal message names a private function and so compiles
  only inside the crate (C83, by reading).
* **Retry-After.** A delay beyond the end of representable time, which a peer can send, panics whoever asks how
  long to wait (C78).
* **Bodies from files.** The media type is sniffed from where the handle stands, and from one read only, the rest of
  the 300 bytes being zeros (C79).
* **Line ends in headers.** Names and values may hold any ASCII character, line ends included; the readers of
  Authorization, WWW-Authenticate, Vary, Server-Timing and Forwarded take control characters over into what is
  written again (C86).
* **Lists over several lines.** Only the first line of Forwarded and X-Forwarded-For is read; two codings in one
  Content-Encoding or Transfer-Encoding line panic (C87).
* **Default protections.** `X-Powered-By` is never removed (C54).
* **Trace context.** Fewer than four well-formed fields panic; a malformed version is 500 (C56).
* **Server-Timing.** Durations from 4096 s on can come back a nanosecond short, those from 2^64 ms on panic
  the reader, as do `dur=-1`, `dur=nan`, `dur=inf`; `,` `;` `=` in descriptions break the reading; the
  empty list comes back as one nameless metric; a blank between a value and `;` is an error (C57).
* **`http` conversions.** Further values of a name are dropped, the content type is duplicated, bytes that
  are not UTF-8 are undefined behaviour, unknown methods and statuses and names or values the other crate
  refuses panic (C60, C67, C68). A message that went there and back has the content type twice if its body has a media
  type, and only the first value of each name (C145).
* **Media types against their standards.** Order of parameters and case of the charset value decide equality (C92);
  `charset=utf-8` after another charset, and where it is printed; `a/b;x="foo;y=1` has a parameter `y` (C96).
* **Repeated headers.** Two Content-Length lines that disagree are not refused, only the first traceparent counts, an
  unknown coding lets an earlier line through (C95).
* **Trace context against the W3C recommendation.** Invalid values are read; a random id of zero is written (C93).
* **Directives, numbers, lists, challenges against the RFCs.** Quoted and large numbers, commas in quoted arguments,
  letter case in HSTS (C97); a `+` before a number, the case of `100-continue`, several spaces, escapes and spaces in
  realms (C98); empty elements, commas in tags, unknown methods, `null` origins (C99).
* **Server-Timing and Forwarded against their grammars.** Separators, escapes and quoted numbers (C100); case of keys,
  blanks, forms of nodes, several lines (C101).
* **Negotiation against RFC 7231.** A coding without weight loses against weighted ones, zero is chosen, an asterisk
  with a weight is lost, `identity` and specificity are not considered (C94, C102).
* **Dates against RFC 7231.** Leap seconds and years before 1970 are refused, two-digit years are read with a fixed
  window (C103).
* **Codings against the RFCs.** A last line with several codings, capitals or an unknown coding is passed over, so that
  a chunked body may not be seen to be chunked (C104).
* **Printing for logs.** The wildcard of a list header is not printed (C105).
* **Comparing.** A delay is less than every date; proposals compare as equal that are not (C106).
* **Content security policy.** A browser keeps the first directive of a name; sorting puts what was added to the default or
  after applying behind. JSON of endpoints has commas, which end a policy (C107).
* **Writing lists.** A wildcard after entries is outside of the grammar of If-Match, If-None-Match and Vary, as is an empty
  value; others skip the misspelt `s-max-age`; Timing-Allow-Origin writes URLs where origins are compared (C108).
- Accept writes its wildcard as `*` instead of `*/*`, and a media type with a parameter `q` gets that as its weight (C109).
- Credentials are written unchecked: spaces at their start are lost to readers, a user name with a colon is another user (C110).
- Names and descriptions of Server-Timing metrics are written unchecked: a description can bring along further metrics, a name a duration, and backslashes are escapes to readers (C111).
- `by`, `host` and `proto` of Forwarded are written unchecked and unquoted: a host with a port cannot be read by anybody, and text in a host is read by others as further addresses; an empty `for` value is written as nothing and cannot be read (C112).
- The realm of WWW-Authenticate is written unescaped: it can bring along a challenge of another scheme, and with a backslash at its end nobody can read the value (C113).
- A proxy that reads and rewrites typed headers loses `s-maxage`, all but the last coding of a body, the parameters of a challenge other than its realm, and the charset of a media range that has another one before `charset=utf-8`, and it turns a Forwarded chain with a port in its host into a value that nobody can read (C114).
- Weights are sent with three decimals, so a client may get what it asked for with slightly less weight; a media type without a weight is sent as weight 1 but ranks lowest before (C115).
- A message of the crate `http` that is converted and converted back loses all but the first value of each header and, as bodies have a media type, gains a content type: a response without headers and with an empty body comes back as `application/octet-stream` (C116).
- `Request::remote` and `Request::host` do not use the parser of `Forwarded`: what the typed header writes for two or more addresses does not count for the remote address (so `X-Forwarded-For`, which any client can send, or the last proxy is taken), a quoted address keeps its quotes, and a client that sends `X-Forwarded-For: x;host=evil.com;` through a proxy that uses the typed header chooses the host that the server sees (C117).
- An entity tag with a comma is legal and is read by the client, but sent back in `If-None-Match` or `If-Match` it makes the server answer 400, together with every other tag of the list; a `Last-Modified` time with a fraction of a second comes back earlier than it was given out, so a server that compares the two never finds the resource unmodified (C118).
- A layer that reads `Cache-Control: s-maxage=60`, adds a directive and writes it back makes the shared maximum age unreadable for the next layer, and a layer that takes the last directive out of `Clear-Site-Data` makes the next one panic (C121).
- The text of a quoted media type parameter value that is not closed is kept twice, as the value and as the parameters in it, so a peer can make a media type hold almost twice the text it sent (C122).
- A body whose reader ends before the declared length is read without an error: a connection that breaks in the middle of a body looks like a shorter body (C123).
- `{:?}` of `BasicAuth` and `Authorization` prints the password and the credentials in the clear, and that of requests, responses, headers and trailers prints the values of `Authorization` and `Cookie` (C124).
- A cookie becomes a header value without any check or encoding: a semicolon in its value adds attributes, line ends and characters outside ASCII are stored (C125, also C04 and C86).
- A client that logs in by the realm it reads gives the password for one realm to a server that asks for another: of a realm with a quote only the part before it is read (C126).
- C127: names pushed to `Vary` are not checked for commas and outer white space, so a cache compares other fields than the
  server named (`C127_violated_comma`, `C127_violated_space`).
- C128: `Age` is written in whole seconds, rounded down at each hop (`C128_violated_parts`), and `s-maxage` is written as
  `s-max-age`, so that shared caches ignore it (`C128_violated_shared`).
- C129, C130 (with C34, C118): a legal tag with a comma in it (`"3,14"`) comes back from a client in a header that the server refuses. While the present version of a document has such a tag nobody can change it with `If-Match`, and a client that keeps one such tag is sent the document on every `If-None-Match` request from then on (`C129_violated_comma`, `C130_violated_comma`).
- C131 (with C58, C29): `Retry-After` drops the fraction of a second instead of rounding up, so a client that waits as told is back too early, by less than a second, for every delay or time with a fraction (`C131_violated_fraction`); a delay beyond the end of time panics in the client that asks how long to wait (`C131_violated_panic`).
- C132 (with C51): a browser written with this library never protects a subdomain: `includeSubdomains` is written in a spelling that its reader, which compares with `includesubdomains`, passes over (`C132_violated_subdomains`).
- C133: not a bug, but a trap in the types: `LastModified` and the two conditions hold a time with nanoseconds and compare it as such, while the headers carry whole seconds. A server that compares with `<=` never finds a document unchanged that was made within a second (`C133_unchanged_exactly`).
- C134: a second layer that calls `apply_header` on `ContentEncoding` or `TransferEncoding` overwrites the coding of the first, and since the types hold one coding they cannot say `gzip, chunked`; the client never undoes the first coding (`C134_violated_layers`).
- C33: with debug assertions `ETag::new` and `new_weak` panic on a backslash, which is legal in an entity tag and accepted from a peer (`C33_made`).
- C135: `Expect` is compared letter for letter; a client that waits with `100-Continue` gets 400 (`C135_violated_letter_case`).
- C136: one unknown name in `Clear-Site-Data`, from any response, panics the browser (`C136_violated_unknown`); an empty policy does too.
- C137: the JSON of a report group always has a comma, and a comma ends a policy: no browser ever reads the group (`C137_violated_never`), and the directives sorted after `report-to` leave the policy (`C137_violated_cut`).
- C140: a resource that takes no method writes an empty `Allow`, which fails with 500 when it is read (`C140_violated_nothing`).
- C141: `Body::from_json` writes values of any depth, but `into_json` refuses those with more than 127 arrays and objects within each other, with 422 (`C141_violated_deep`).
- C142: a program that moves a message into a new one adds `content-type: application/octet-stream` to every request without a body, since the empty body has that media type (`C142_violated_no_body`).
- C143: `Date` and `Expires` are each cut to the second, so that the lifetime between them may come out a second too long (`C143_violated_parts`).

## Properties

| id | status | what is modelled, how it is proved |
|----|--------|------------------------------------|
| C01 | proved | Header names are case-insensitive and canonical. All checked constructors of header names, string comparison, for all strings. |
| C02 | proved | A header collection behaves like a map from names to value lists. Refinement of the collection to a history function, over all histories of insert/append/remove and in-place changes through get_mut. |
| C03 | proved | A rejected header write leaves the collection untouched. All collections, names, value arguments. |
| C04 | partial | Stored header data stays ASCII and lowercase-keyed. Violated for some typed values: an entity tag and a media type with Latin-1 content become non-ASCII header values (witnesses). Proved for the checked constructors; for the other typed headers: numbers, dates, keywords and Vary are always written in ASCII, the text-carrying ones exactly if their texts are ASCII (C04_texts_partial, C04_policy_partial), and a typed header read from an ASCII collection is written in ASCII again (C04_relay; for Forwarded given that addresses are ASCII). |
| C05 | partial | A present header has at least one value. Violated by an empty slice and by moving the values away through get_mut (witnesses proved); invariant for histories with neither, and for every history exactly when a header is there without a value (C05_empty_iff_partial). |
| C06 | partial | Iterating header values visits every value exactly once. Iteration proved for all collections and hash orders; size hint violated (witness proved), and right at every moment of the iteration exactly if every header has one value (C06_size_hint_iff_partial). |
| C07 | proved | Indexing and comparing headers. Full characterisation. |
| C08 | proved | A body with a declared length never yields more than that. Bytes held by a reader are defined by all its executions; exact for every reader and state, plus a bound for every reader that respects buffer sizes. |
| C09 | proved | Chaining bodies concatenates them. Bodies in every state reached by plain reads; futures_lite Chain modelled from the dependency. |
| C10 | partial | The buffered read interface honours the declared length. Violated for every reader and declared length (C10_violated_any). C10_any_mixture says exactly what any mixture of plain and buffered reads does; C10_mixed_reads_partial: the claim when the reader holds no more than declared; chained readers too. |
| C11 | proved | Bytes and strings survive a body. read_to_end with arbitrary positive buffer sizes; completion proved for cursors. |
| C12 | proved | Body operations never overwrite an explicit content type. Bodies are opaque with an optional media type; old/new body, frame of all other headers and the resulting content type for every operation and for all sequences. |
| C13 | proved | Trailers are delivered exactly once. Transition system of a one-place channel with free interleaving of calls, polls, drops and clones; the receiver's answer is characterised exactly from the trace; wakers not modelled. |
| C14 | partial | At most one trailer/upgrade sender exists per message. Violated for cloned responses (trailers and upgrades, witness runs); partial: at most one for requests with clones and for uncloned responses; one more per clone in general. |
| C15 | proved | Extensions behave like one slot per type. Any family of types with decidable equality; histories of insert, remove, clear and writes through get_mut. |
| C16 | partial | Effective host and remote address follow the documented priority. Violated for spaces, quotes and several elements (witnesses); partial: full priority rule whenever Forwarded is absent or in the plain form. |
| C17 | proved | HTTP methods round-trip and parse case-insensitively. Method table generated from src/method.rs; case-insensitive matching against an independent list of registry names. |
| C18 | proved | Status codes convert faithfully to and from numbers. All supported statuses enumerated; conversion characterised for every Nat below 2^16; class predicates by hundreds digit. |
| C19 | partial | Deserialising a status code accepts only its own number. Violation proved (65736 deserialises to 200) together with the exact behaviour (value mod 2^16) and the positive part for 0..65535. |
| C20 | proved | Protocol versions order and print consistently. Serde names of the five versions; order agrees with an independent numeric version. |
| C21 | proved | Attaching a status changes only failures. Result/Option status traits with the lazy closure modelled as a call log. |
| C22 | proved | Media types survive printing and parsing. Exact: print-then-parse is the identity iff the media type is well formed; everything that parses is well formed (C23_wf). All named constants checked as a complete finite table. |
| C23 | proved | Parsed media types are well formed. parse is total: ok with a well-formed value or err 500, never a panic. |
| C24 | partial | Media type parameters are looked up by name. Violated for inputs with two charsets (witnesses). Partial: exact lookup for every text of the grammar; first-occurrence lookup and removal exactly without charset conflict; panic iff the name is not ASCII. |
| C25 | partial | Media type matching is a preorder. Violated: reflexivity with two charsets, charset=utf-8 of the pattern ignored. Proved: exact matching condition, reflexive iff one charset, transitivity, */* and type/*. |
| C26 | proved | Formatting a date then parsing it is the identity. Civil-date algorithm of the writer proved against an independent day-counting calendar, for every second from 1970 to 9999; the date-time is unique (the calendar is proved injective). |
| C27 | proved | All three date formats denote the same instant. Accepted texts characterised by an iff against an independent grammar (which records two leniencies: '+d' numbers and an unchecked separator in RFC 850). |
| C28 | partial | Accepted dates exist. Violation proved with concrete texts; the partial theorem shows a non-existing day reads as the corresponding day of the next month (1..3). Missing: existence of the day and the weekday. |
| C29 | proved | Date headers round-trip. All five date headers and the date form of Retry-After; every time 1970..9999; reading characterised by the date grammar; 400 otherwise. C29_round_trip_iff: a time comes back exactly if it lies in 1970..9999, and then as its whole seconds. |
| C30 | partial | Age round-trips. Exact u64-to-double rounding (nearest, ties to even; std from_secs_f64 since Rust 1.63). Survival characterised exactly (at most 53 significant bits), panic threshold 2^64-1024, violation witnesses proved. |
| C31 | partial | Cache-Control directives survive a round trip. Reading characterised member by member against a table; writing then reading characterised for every list (s-maxage lost, fractions of seconds cut); the violation has a witness. |
| C32 | partial | Clear-Site-Data round-trips. Exactly the policies with a directive or wildcard round-trip; reading characterised, including when it panics. |
| C33 | proved | Entity tags round-trip exactly. Parsing characterised exactly; header round trip exactly for legal ASCII content; making tags, with and without debug assertions (C33_made). |
| C34 | partial | If-Match / If-None-Match lists round-trip. Both headers. Exactly the lists without commas inside tags and not empty round-trip; reading characterised; violations have witnesses. |
| C35 | partial | Vary round-trips. Reading characterised for ASCII values; round trip characterised exactly; the empty list violates it. |
| C36 | proved | Proposals are ordered by weight, later first among equals. sort_by_weight and the three PartialOrd impls; weights are exact binary32 values. The arrangement is shown unique, so the unstable sort is faithfully modelled. |
| C37 | proved | Encoding negotiation picks the best acceptable encoding. AcceptEncoding::negotiate and TE::negotiate, full characterisation of the outcome for every list, wildcard and available list. |
| C38 | proved | Media negotiation picks the best acceptable type. Accept::negotiate, full characterisation; uses the model of Mime::subset_eq. |
| C39 | partial | A zero weight means not acceptable. Violated: q=0 is chosen, even over an unweighted proposal. Proved: an available proposal of positive weight always wins over weight 0. |
| C40 | partial | Weights stay in range. Exact binary32 parsing model. All out-of-range and special values refused; reachable lists only hold weights in [0,1]. Violated in status: out-of-range numbers give 500. |
| C41 | partial | Weighted headers round-trip. For Accept-Encoding, TE and Accept: writing and reading back keeps every entry with the weight rounded to three decimals, and a list already on three decimals comes back identical. For Accept (C41_media_partial) the entry's media type must be well formed, ASCII, free of commas and without a q parameter; C41_violated_no_weight shows that an entry without a weight comes back with weight 1, and C41_violated_media_texts shows a q parameter of the media type taking the place of the weight and a comma inside a quoted parameter breaking the list. C41_round_trip_iff and C41_media_iff_partial: unchanged exactly when every weight has at most three decimals (and, for Accept, every entry has one). |
| C42 | proved | Content-Length is exact. Round trip for all 64-bit lengths; accepted texts characterised exactly. |
| C43 | partial | Single-coding headers round-trip and never panic. ContentEncoding and TransferEncoding. Violated: reading panics exactly when no value is a known coding. |
| C44 | partial | Allow round-trips. Reading characterised as a set; every non-empty set in every visiting order round-trips; empty set and status of unknown methods violate the claim. |
| C45 | proved | Authorization round-trips. Reading characterised exactly for all values; round-trip for all schemes and ASCII credentials (non-ASCII credentials read back too but make a non-ASCII header value, see C45_any_credentials). C45_round_trip_iff: exactly the ASCII credentials survive. |
| C46 | partial | Basic credentials round-trip. base64 0.13 modelled from the dependency and proved equal to a numeric specification; decoding characterised exactly. Violated for every username with a colon (proved for all of them). C46_round_trip_iff_partial: exactly the usernames without a colon survive. |
| C47 | partial | WWW-Authenticate round-trips. Reading characterised exactly for all values. Violated for every realm with a quote (proved for all of them); round-trip proved for the rest. C47_round_trip_iff_partial: exactly the ASCII realms without a quote survive. |
| C48 | partial | Forwarded round-trips. Exact condition under which a Forwarded value survives writing and reading through a header collection, and, for any text including text outside ASCII, exactly when the written text parses back to the value; violated for host with port, missing for, '!' in quoted values. |
| C49 | partial | Reading Forwarded never panics. Full characterisation for every text, ASCII or not: the legal texts and their meaning, the texts that panic, everything else status 500; plus the simpler form for ASCII text. Violated: a short remainder after a comma, a multi-byte character across the fourth byte of an element and a wide character whose low eight bits are those of a quote panic, and errors have no client status. |
| C50 | proved | Forwarded falls back to the X-Forwarded headers. All header collections; std's IPv6 parsing and printing is a function parameter. Only the first Forwarded value is looked at. |
| C51 | partial | Strict-Transport-Security round-trips. Reading characterised exactly for all values. Violated: no policy that includes subdomains reads back (proved for all such policies); round-trip proved for the rest. C51_round_trip_iff_partial: exactly the policies of whole seconds without subdomains survive. |
| C52 | partial | Timing-Allow-Origin round-trips. Reading characterised for any URL parser; round trip for any URL printer and parser that agree; the empty policy and URLs with commas violate it. The url crate itself is a parameter. |
| C53 | partial | A security policy value is deterministic and complete. Value characterised for all building histories and hash orders; apply characterised. Violated: a second application always differs once a directive was given (proved for all such policies). |
| C54 | partial | Default protections are in force. All five documented headers in force and everything else unchanged, for every collection. Violated: X-Powered-By is never removed (proved for every collection). Also frameguard and referrer_policy tables. |
| C55 | proved | Trace context round-trips and children stay in the trace. TraceContext modelled in full with random numbers as arguments; round trip for all values in range, form, children and descendants, sampled bit. |
| C56 | partial | Reading a trace context never panics. Outcome of reading characterised for every header map. Violated: fewer than four well-formed fields panics, malformed version reported as 500. |
| C57 | partial | Server-Timing round-trips and never panics. as_secs_f64, the product with 1000.0, shortest printing, f64 parsing and from_secs_f64 are exact binary64 models. Reading characterised for every value (which entries are read, 400, and exactly when it panics); the lists that survive are characterised; all durations below 4096 s survive. Violated: longer durations, separators in descriptions, the empty list, panicking numbers. |
| C58 | proved | Retry-After seconds round-trip. Round trip for all 64-bit seconds; number/date/400 decision characterised. C58_round_trip_iff: a delay comes back as its whole seconds and nothing else. |
| C59 | proved | Expect accepts only 100-continue. Full characterisation. |
| C60 | partial | Header collections convert to and from the http crate without loss. To the http crate: full characterisation (which collections convert, what they become). From it: only the first value of every name survives, on top of the headers already there; round trip proved for single-valued collections. Violated: dropped values, duplicated content type, undefined behaviour on non-UTF-8 values. |
| C61 | partial | Quoted strings decode what quoting encodes. Token parser for all strings; quoted strings for all strings with the exact panic condition, the exact condition for unquoting and what is lost otherwise; plus the simpler form for ASCII text. Violated for '!' and outside ASCII (dropped characters, panic). |
| C62 | partial | Malformed peer input is a client error, not a crash. Thirteen readers fail only with 400 and never panic; five more never panic but may report 500; Age panics exactly for numerals in [2^64-2^10, 2^64). Violated by Age, Clear-Site-Data, Content-Encoding, Transfer-Encoding, Server-Timing and traceparent (panics) and by Accept*, TE, Allow, traceparent (500). |
| C63 | partial | Converting a body to a string does not panic. Violated from 2^63 on (witness); partial: panics iff the declared length is at least 2^63. |
| C64 | proved | JSON and form bodies carry their text. serde encoders and decoders are parameters. |
| C65 | proved | The in-progress flag tells whether the sender was requested. Exact for all histories and all three channels. |
| C66 | partial | Negotiation is repeatable. Violated by every tie; proved when all weights differ. |
| C67 | partial | Methods, versions and statuses convert to and from the http crate without loss. Versions, methods and statuses of this crate round trip; the conversions from the http crate are characterised completely, including the inputs that panic (violated). |
| C68 | partial | Converting a message to the http crate keeps every header and never panics. Conversion succeeds exactly when every name and value is legal in the http crate and then keeps everything; otherwise it panics (violated). |
| C69 | proved | A typed header touches its own field only. Proved for every modelled typed header, each with its field name written out. Added after a wrong-name mutant survived. |
| C70 | partial | Cache directives know where they are valid. For every text that reads as a directive. Violated for immutable in every spelling. Added after mutants of the validity tables survived. |
| C71 | proved | A content security policy says what the method is named after. Complete finite table over all pairs of method and source, in terms of the policy's printed value. Added after mutants of the tables survived. ('src' is printed though the standard has no such keyword.) |
| C72 | proved | File extensions have the right media type. All strings; the constants as well. Added after mutants of the table survived. |
| C73 | proved | An empty body delivers nothing. Any reader respecting buffer sizes, any sequence of reads. Added after a mutant of is_empty survived. |
| C74 | partial | Content-Location, Referer and SourceMap resolve against the base. The URL library (parse, join, display) is a parameter; the round trip assumes that it parses and joins what it displays, displayed as trimmed ASCII. Partial because Referer and SourceMap answer 500 for a reference that does not resolve; Content-Location without base fails even for absolute URLs (C74_no_base) and its setter panics (C74_set). |
| C75 | proved | The Content-Type header is a media type. Media types as in C22-C25. The round trip is an iff. |
| C76 | proved | The parts of a message do not interfere. Any sequence of calls, each part described by the calls about it alone. Headers are observed by lookup under any ASCII name. The URL type, bodies, query codec and serde are parameters. C76_channels ties the trailer and upgrade ends of messages to the channels of C13, C14 and C65. |
| C77 | partial | Reading the body of a message takes it. The conversion is a parameter in C77_read_partial, the conversions of src/body.rs in the others. Partial because reading adds a content type to a message without one (C77_violated_header). |
| C78 | partial | Times computed from headers. Time arithmetic of std (seconds since 1970 and nanoseconds, panicking past i64 seconds). Times before 1970 are not modelled. Partial because asking panics beyond the end of time, which a peer can reach (C78_violated_panic). |
| C79 | partial | A body made from a file. A file is its bytes and a position; each system call may fail, the first read may be short. The infer crate is a parameter. Partial because recognition starts at the handle's position (C79_violated_position); C79_type_partial says exactly which bytes count. |
| C80 | proved | Iterating over headers. Iterators hand out the entries of the map in any order (any permutation); histories as in C02. IntoIter and &Headers visit as iter does; Request and Response forward. |
| C81 | proved | A pair of strings is a header. The reference `&T` as header forwards to `T`. The value goes through the byte constructor, proved to be the identity on ASCII. |
| C82 | partial | An error keeps what it was made from. Errors are modelled over an arbitrary family of types with their names and texts; anyhow::Error is the list of its layers. C82_violated_type_name: the name is anyhow::Error for errors made by from_display, from_debug or from an anyhow::Error. Backtraces, Debug output and the boxed conversions are not modelled. |
| C83 | proved | The early-return macros return exactly when they say. Macros are modelled as functions taking the rest of the function body. By reading only: format_err!(expr), and bail!/ensure! with a non-literal message, expand to Error::new_adhoc, which is private to the crate, so that form does not compile outside it. |
| C84 | proved | A list header says what was put in. Built and LastSet describe the result without running the calls. C84_edits, C84_edit_one and C84_edits_weights cover changes in place of weighted lists. |
| C85 | proved | A setter changes its own field. LastSet describes each field by the sequence of calls; C85_last_unique shows it determines the value. |
| C86 | partial | A header value stays within its field. FieldText excludes control characters except tab. C86_fixed: values that never leave the field; C86_texts: exactly those texts of the caller that would; C86_parsed and C86_relay: relaying what was read. Violated by the collection, which checks ASCII only, and by readers that take control characters. |
| C87 | partial | A list header may be split over several lines. Joined relates several lines to the one line. The readers named in C87_lists_partial give the same result, errors and panics included. Violated for Forwarded, X-Forwarded-For, Content-Encoding and Transfer-Encoding. |
| C88 | partial | A typed header that was read can be passed on. C88_numbers, C88_dates, C88_tags, C88_credentials, C88_codings, C88_content_type and C88_allow: exact for every received collection. C88_weights: one rounding to three decimals, then a fixed point. C88_timing_iff, C88_cache_iff_partial, C88_vary_iff_partial, C88_hsts_iff_partial and C88_origins_iff_partial say exactly which read values can be passed on; C88_violated_* show the headers that cannot. For Timing-Allow-Origin the URL library is a parameter that prints what it parses without adding commas. Forwarded has no positive theorem here: C48_round_trip_partial says which values come back. |
| C89 | partial | Canonical reason phrases are the registered ones. Against the IANA registry of 2020 (plus RFC 2324), as a table in the specification; C89_reasons_partial: the phrase is the registered one exactly for the other codes; C89_violated: 203, 226, 300, 416. |
| C90 | proved | What is printed for logging tells what is held, on one line. Debug and Display texts modelled with an arbitrary predicate for the printable non-ASCII characters; the alternate form {:#?} is not modelled. Injectivity proved by showing every printed piece self-delimiting. |
| C91 | proved | Wrappers pass everything on. Readers and transports are arbitrary step functions; the conversion after direct reads uses C11. |
| C92 | partial | Media types compare by content, not by spelling. C92_equal_iff_partial is an exact characterisation of derived equality on parsed texts; the two violations show where it is finer than RFC 7231 (order of parameters, case of the charset value, parse.rs:98). |
| C93 | partial | Trace contexts follow the W3C recommendation. Violated: a random id of zero gives an invalid value; invalid values are read. Proved: all valid values are read; a written value is valid exactly if the version is not 255 and no id is zero; new contexts and descendants of valid ones. |
| C94 | partial | Preference lists in the form of the standards are read with their meaning. Weights, codings and media ranges in the form of RFC 7231. Violated for codings: white space after the semicolon and a capital Q fail the header, other letter case is not recognised, a weighted wildcard is dropped. |
| C95 | partial | A header sent more than once. LastDecides and RepeatsAlike compare two readings of two collections. C95_codings says exactly which coding is reported. The violations are proved: C95_violated_content_length for all pairs of numbers, C95_violated_trace for all values, C95_violated_codings for all unknown codings, C95_violated_hsts by a pair of policies. |
| C96 | partial | Media types are read and printed as the WHATWG standard says. Spec/Whatwg.lean writes the algorithms of the standard over positions, step by step. C96_exact gives the code in terms of its steps for every text; C96_conforms_partial is what agrees, C96_print_iff when the printed form agrees. Missing and proved violated: charset=utf-8 after another charset (C96_violated_charset), its place in the printed form and the second charset (C96_violated_print), quoted values that are not closed (C96_violated_unclosed; C96_closed says which texts have none). |
| C97 | partial | Directive lists in the form of the standards are read with their meaning. Proved for lists whose numbers are not quoted and below 2^64 and whose quoted arguments do not contain the separator (and, for HSTS, known names in lower case). Outside of that the code departs from the standards; each departure is proved for all inputs of its kind. |
| C98 | partial | Numbers, expectations, credentials and challenges in the form of the standards. Grammars of RFC 7230, 7231, 7234, 7235 and 7617 in Spec/Fields.lean. C98_challenge_iff_partial and C98_challenge_written_iff are exact; each departure is proved for all inputs of its kind. Schemes outside of the crate's list are refused and are not part of the specification. |
| C99 | partial | Lists in the form of the standards are read with their meaning. Listed is the list rule of RFC 7230 with the elements kept apart, empty ones included. Each *_iff_partial theorem says for all such lists exactly when they are read with their meaning and what happens otherwise; each C99_violated_* theorem is for all elements of its kind. For Timing-Allow-Origin the URL parser is a parameter of which only two facts of the URL standard are used. |
| C100 | partial | Server-Timing in the form of its specification is read with its meaning. The grammar is that quoted in parse.rs. C100_metrics_partial: with plain parameters (no separators in quoted values, dur and desc at most once and with no blank after them, no escapes in descriptions, durations unquoted, below 2^23 ms and of at most nine decimals) every list is read with its meaning, exact to the nanosecond through the double-precision reading and the division by 1000; with empty elements exactly what is read instead. The violated theorems are for all names, values and numbers of their kind. |
| C101 | partial | Forwarded in the form of RFC 7239 is read with its meaning. The standard value is a tree of elements and pairs with its blanks, and its text; legality and meaning are defined on the tree without reference to the code. C101_reads_partial says for all legal ASCII values exactly which ones are read and as what; C101_meaning_partial exactly when a value is read with its meaning. The violated theorems are for all values of their kind. |
| C102 | partial | Negotiation follows the weights of RFC 7231. Partial: lists written plainly with even weights (no member weighted, or all, 0 only for the asterisk); ranges whose weights do not fall with specificity, none 0, without charset=utf-8. The rest is violated: C102_violated_unweighted, _zero, _star, _any, _identity, _specific, _charset. |
| C103 | partial | HTTP dates in the form of RFC 7231 are read as the instant they denote. Spec/StdDate.lean. Dates of RFC 7231 with leap seconds, all years of four digits and the moving window of two-digit years, and an integer-valued instant that also counts before 1970. C103_dates_partial: exactly which dates are read as what they mean, in all layouts and headers. Missing: leap seconds and years before 1970 (refused, C103_violated_refused) and two-digit years outside 1970 to 2069 (C103_violated_window: from 2021 on some date in the future is read as past). |
| C104 | partial | Of the codings of a body the outermost is found. Spec/Codings.lean. Lists of codings by RFC 7230 and 7231 over several lines, the outermost coding, x-gzip as gzip. C104_outermost_partial for last lines that are one known coding as spelled in the table; C104_violated_skipped: every other last line is passed over (a panic if alone), so the two together say what is read from any lines; C104_violated_chunked: a chunked body taken for another. Missing: lines with several codings, capitals, unknown codings, x-gzip, empty elements. |
| C105 | partial | What typed headers print for logging tells what they hold, on one line. Model/DebugTyped.lean: the derived and hand-written Debug of typed headers, Duration's Debug of std. C105_fields: equal text iff equal value for headers with fields; C105_lists_partial: equal text iff equal entries; C105_one_line. Missing: the wildcard of the list headers, which is not printed (C105_violated_wildcard). |
| C106 | partial | Comparing headers means what it says. Spec/Compare.lean: the laws std asks of == and partial_cmp; Model/Compare.lean. C106_times, C106_retry_laws; C106_retry_partial and C106_proposals_partial. Missing: a delay against a date (C106_violated_retry), proposals of different things or without weight (C106_violated_proposals). |
| C107 | partial | A content security policy is read by a browser as it was asked for. The browser's side is `Spec/CspStd.lean`, the two parsing algorithms of Content Security Policy Level 3 (2.2.1, 2.2.2) with white space splitting of Infra, independent of the model. `C107_policy_partial` goes from calls on a new policy to the directive set read, over every order of the hash map. `C107_default` characterises what is read of the default policy with further calls. Four `_violated` theorems give what is read when a script source is added to the default, when a source is added after applying, when endpoints are reported to (their JSON text is a parameter; it has commas because the structure has several fields), and when a source has a semicolon. |
| C108 | partial | What list and directive headers write is read by others as what was put in. Readers are relations between a value and its meaning (Spec/Written.lean on top of Spec/Listed.lean and Spec/Directives.lean: list elements with optional white space and empty elements, quoted strings, directives, the timing allow check of Fetch), independent of how values are written. `OnlyAs` says that a value has the given meaning and no other. Proved with a general lemma that elements whose end can be told from their text cut a value in one way only. C108_hsts, C108_allow and C108_cache hold for everything; C108_tags_iff_partial, C108_vary_iff_partial, C108_clear_iff_partial, C108_cache_iff_partial say exactly when what is read is what was put in. Missing: wildcards after entries (C108_violated_tags_star, C108_violated_vary_star), empty lists, s-maxage (C108_violated_s_maxage), origins (C108_violated_origin, C108_violated_origin_comma; URL texts are a parameter). |
| C109 | partial | What preferences and codings write is read by others as what was put in. Readers are relations (Spec/WrittenPrefs.lean on Listed, Pref, MediaPref, CodingLines). `Bal`: texts with commas in quoted strings only end at the first comma outside of them, so that a value splits into elements in one way (`listed_alone`); the meaning of an element is unique (`pref_one`, `alone_range` by the media type parser of C96). `C109_codings` and `C109_coding` are complete. TE has no wildcard in the standard: the asterisk is read as the name of an unknown coding there, which is harmless. `C109_accept_partial` leaves out the wildcard and own parameters `q`: `C109_violated_accept_star`, `C109_violated_q` show what others read then. `WeightOk`: the weight is a finite number from 0 to 1, as `new` and `from_str` guarantee (C40). |
| C110 | partial | What numbers, dates and credentials write is read by others as what was put in. Readers are relations (Spec/WrittenFields.lean): `DateAs now` allows all three layouts of RFC 7231, leap seconds and two-digit years relative to the time of reading; `CredentialsText` is the grammar of RFC 7235 with token68 or parameters, `BasicText` adds RFC 7617. `C110_numbers`, `C110_dates`, `C110_retry` are complete; `C110_credentials_read` and `C110_basic_read` characterise all readings of all values, of which the `_iff_partial` theorems say when they are what was put in; `C110_violated_credentials`, `C110_violated_colon`: what others read otherwise. Times before 1970 and after 9999 are not written (C26). |
| C111 | partial | What Server-Timing writes is read by others as what was put in. Readers are relations (Spec/WrittenTimings.lean): `MetricText` is the grammar quoted in parse.rs, with durations read as the nearest double (in units of 2^-1074 ms) and the first parameter of each name counting; `AnyListed` is `#element`. `C111_metrics_iff_partial` characterises exactly which lists of metrics are read as what was put in, and as nothing else; `CloseTo` bounds the four roundings from the duration to what is read; `C111_durations` says that this tells durations apart. `C111_violated_metric`, `C111_violated_name`, `C111_violated_escape`: what others read otherwise. |
| C112 | partial | What Forwarded writes is read by others as what was put in. Full characterisation of when the written value has exactly one reading by RFC 7239, the right one (C112_chain_iff_partial), over all grammatical readings; any value has at most one reading (C112_one). Violations: a host with a port, an empty for value, and injection of addresses through the host. Text is modelled as characters; non-ASCII text is C04. |
| C113 | partial | What WWW-Authenticate writes is read by others as what was put in. Full characterisation of when the written value has exactly one reading by RFC 7235, the right one (C113_challenge_iff_partial), over the whole grammar 1#challenge with token68, parameters and empty elements; any value has at most one reading (C113_one); what is written is read with escapes taken away (C113_read). Violations: injected challenges and a backslash at the end. |
| C114 | partial | A typed header that is read and written again keeps its meaning for others. Composition of reading by the standards (C94, C97-C99, C101, C103, C104) with writing as others read it (C108-C113): exact conditions for tags, methods, clear-site-data, plain cache directives, dates, coding preferences, body codings, Basic, challenges, media ranges and Forwarded (also with an address added); unconditional for Vary, the wildcard, credentials and plain metrics. Violations: s-maxage, several codings, challenge parameters, two charsets, port in host. |
| C115 | partial | A client gets what it asked for most. The whole exchange (write preferences, read, negotiate, write the choice, read) is composed from the models of each step and its outcome characterised for all headers and lists: codings and transfer codings (C115_codings_partial), media types (C115_media_partial), and a bound of one thousandth for arbitrary weights (C115_nearly_partial). Violations: weights closer than a thousandth, missing weights of media types. |
| C116 | partial | A message survives the conversion to the other crate and back. Both conversions are composed; the headers that come out are given by one equation per name (Through) and are the ones that went in exactly under the condition GetsThrough. All four directions (C116_request_partial, C116_response_partial, C116_our_request_partial, C116_our_response_partial) and the bare collection (C116_headers_partial). Violations: several values, content type of the body (C116_violated_content_type). |
| C117 | partial | A server behind proxies learns who the client is. Proved: every chain of proxies hands on all addresses (C117_chain, C117_address_iff), exactly what remote() and host() give for a written header without semicolons in addresses (C117_remote, C117_host), and that remote() is the client exactly for one address that is a token. Violated for two or more addresses, and by addresses with `;host=`, which a client can smuggle in through X-Forwarded-For. |
| C118 | partial | A validator comes back to the server as it was given out. Proved: exactly what the server reads for every list of tags and every time that a client sends back (C118_learn, C118_tags_partial, C118_dates, C118_dates_exact_partial). Violated by tags with a comma (status 400) and by times with a fraction of a second (come back earlier). |
| C119 | proved | A trace stays connected through services that call one another. Proved for chains of any length; validity by the recommendation included. |
| C120 | proved | Messages on one connection do not run into each other. Proved for any number of messages, any readers and read schedules; C120_short says what happens when a body states more than it has. |
| C121 | partial | A list header collects what the layers of an application add. Proved for any number of layers and any changes that leave members which survive being written once (the conditions of C31, C32, C34, C35, C41, C44, C52 and C57). Violated for s-maxage and for lists left empty. |
| C122 | partial | Reading a message does not amplify it. Bounds proved on numbers and lengths in characters for every reader of lists, forwarding information, credentials and media types. For media types the bound of one is violated (C122_violated_media gives texts of every length held almost twice); the factor two is proved for all texts and the factor one for texts without a quote or of the WHATWG form. The size of URLs is a parameter of the theorem on origins. |
| C123 | partial | Reading a body ends when the body does, and only then. The polls a body makes of its reader are observed with a reader that records the sizes it is polled with (Spec/Progress.lean). Violated for bodies that end early (C123_violated_truncated, for every shorter text); the partial theorem says when the bytes read are as many as declared. |
| C124 | partial | Logging a message tells which it was and keeps what is in it. Model/DebugWhole.lean adds the derived Debug of Request, Response, Version and Trailers (plain form only). `Debug for Url` is a parameter, assumed to tell the URL and its end (for C124_request) or to be one line (for C124_one_line); the Debug of async_channel ends is the fixed text of async-channel 1.x. Violated for secrets outside bodies: C124_violated_credentials. |
| C125 | partial | A cookie sets what it was made of. Model/Cookie.lean: `From<Cookie> for HeaderValue`; of the cookie crate only `Display` is used (name=value, then `; ` and the text of each attribute), with the attributes as texts. The browser is an independent specification (Spec/Cookie.lean). Violated for texts with semicolons: C125_violated_attribute. |
| C126 | partial | A login reaches the server as the user's own. Composes the model of WWW-Authenticate, Authorization and Basic credentials; the client (it answers Basic challenges with what it has for the realm it read) is part of the specification, Spec/Login.lean. Violated for realms with a quote and users with a colon, proved exactly for the others. |
| C127 | partial | A cache that goes by Vary answers with what the server would have made of the request. Composes the model of Vary and of header lookups; the server (any function of the fields it names) and the cache are part of the specification, Spec/Reuse.lean. Violated for names with a comma or outer white space, proved exactly for the others. |
| C128 | partial | An answer is used as long as the server allows, however many caches it goes through. Composes the model of Age and Cache-Control; the caches (each adds the time it kept the answer) are part of the specification, Spec/Fresh.lean. Violated for parts of seconds and for s-maxage; sums of ages up to 2^53 seconds. |
| C129 | partial | Changes guarded by If-Match are not lost. Composes the models of ETag and If-Match over any execution; the server, its clients and the log of accepted changes are part of the specification, Spec/Updates.lean. Safety is proved for every execution and is an equivalence (C129_nothing_lost, C129_one_wins). That a client can change what it has just read is violated for tags with a comma and proved exactly for which tags it holds. |
| C130 | partial | A client that keeps documents by their tags always shows the present one. Composes the models of ETag and If-None-Match over any execution; the server and the client's store are part of the specification, Spec/Revalidate.lean. That the client shows the present document is proved for every execution and is an equivalence (C130_always_right). That documents are not sent again is violated once a tag with a comma is kept, and proved for the others. |
| C131 | partial | A client that waits as told is not back too early. Composes the models of Retry-After and of the clock arithmetic; the exchange is part of the specification, Spec/Wait.lean. When the client is back is given exactly for all clocks (C131_back_partial), and that it is never early is an equivalence (C131_never_early_iff_partial). Violated for fractions of seconds and beyond the end of time. |
| C132 | partial | A client that keeps policies makes secure what the servers asked for. Composes the model of Strict-Transport-Security over any sequence of responses; the store of the client is part of the specification, Spec/Browser.lean. For which policies the client is right is an equivalence (C132_secures_iff_partial); that it makes no other requests secure is proved for all. Violated for every policy for the subdomains. |
| C133 | proved | Documents kept by the date of their last change. Composes the models of the three date headers and of the comparison of times over any execution; server and clients are part of the specification, Spec/Since.lean. All parts are equivalences or equations. |
| C134 | partial | A body that several layers coded arrives as it was. Composes the models of the two coding headers and of the header collection over any number of layers; the codings are any functions that can be undone, and the layers and clients are part of the specification, Spec/Coded.lean. For which layers the body arrives is an equivalence (C134_one_coding_iff_partial). |
| C135 | partial | A client that asks before it sends a body gets its answer. Composes the model of Expect with a specification of client and server as two parties on two lines that keep order, Spec/Handshake.lean; deadlock is characterised by an equivalence, the number of steps is bounded and the end is the same in every order. |
| C136 | partial | A browser clears what the site asked for and nothing else. Composes the model of Clear-Site-Data with a specification of a browser over any history, Spec/Clearing.lean; when reading panics is an equivalence. |
| C137 | partial | Report groups reach the browser as they were given. The derives for report groups are modelled as they expand, Model/Json.lean and Model/JsonRead.lean; JSON itself is an RFC 8259 reader in Spec/Json.lean, which also stands for the reading that serde_json does and is exact for the grammar (C141_grammar_iff). |
| C138 | proved | Addresses of IPv6 are kept alike however proxies write them. The parser and printer of std are modelled from core::net (Rust 1.80), the rest from src/proxies/forwarded.rs. |
| C139 | proved | Forms arrive as they were filled in. serde_urlencoded is modelled for pairs of strings and maps of strings; what from_utf8_lossy puts for bytes that are no UTF-8 is a parameter, and forms of other types are not modelled (see C64). |
| C140 | partial | A client finds a method that a resource takes. Violated for a resource that takes no method: the empty Allow is not read (C44); the rest is proved for resources that always take some. |
| C141 | partial | JSON put into a request arrives. serde_json is modelled for its type Value with integers only: what it keeps as floats (fractions, exponents, the negative zero, integers outside of 64 bits) is left out; objects are sorted maps as without the feature preserve_order. Spec/JsonGrammar.lean is the grammar as a relation; C141_grammar_iff shows the reader exact for it. Other types than Value are C64 with the decoder as a parameter. |
| C142 | partial | A gateway sends on what it got. The gateway is a program written against the modelled API; histories that leave a header without values (see C05) are left out. |
| C143 | partial | An answer is used until the date on which it expires. Composes the models of Date, Expires and Age; the caches are part of the specification, Spec/Expiry.lean. Violated for the lifetime between two dates that are cut to the second, by less than a second. |
| C144 | proved | Trailers pass any number of gateways. Composes the channel model of C13 along a line of messages; the gateways are programs of the specification, Spec/Hops.lean: one poll of a gateway receives and, if something came, sends on at once, which the empty channel always allows. Each message stays with its ends taken; messages are not dropped or cloned while trailers pass (C13 allows that). |
| C145 | partial | A message that goes through the crate http comes back. Built on the models of both conversions (C60, C67, C68); which names the crate takes is a parameter, as are its parser and printer of targets (C145_request_partial asks that it gives back the target at hand). C145_same_iff says exactly which headers come back. Extensions, trailers and addresses do not take part in the conversions. |

## Method notes per area

* Header collections: refinement of the association list to a function of the history of calls, by
  induction over the history.
* Bodies: `Holds I s d` says that a reader holds the bytes `d` in all executions; constructors preserve it.
* Dates: civil-date arithmetic with `omega` against an independent calendar (counting days by recursion).
* Lists in headers: `split`/`join`/`trim` lemmas; the exact set of lists that survive is characterised by
  counting separators.
* Weights and timings: exact rational arithmetic with proved error bounds of each rounding step; whole
  finite tables (such as the 1001 weights of three decimals) are evaluated by the kernel.
* Channels: invariants over all interleavings of calls, polls, drops and clones.
* Wrong programs: each attempt edits one definition in a scratch copy, rebuilds the theorems about it and is
  logged. Where nothing failed, a theorem was tightened or added (C69–C73 came about that way: see their notes).

## Axioms per theorem

All names are in the namespace `HT`.

* none: `C04_violated_etag`, `C07_index_name`, `C19_violated_truncation`, `C20_deserialize_iff`, `C21_success`, `C21_failure_code`, `C21_lazy`, `C21_default_status`, `C67_version`, `C71_words`, `C71_distinct`, `C72_extension`, `C74_set`, `C76_clone`, `C85_hsts_duration`, `C89_registry`.
* `propext`: `C04_violated_forwarded`, `C07_eq_slice`, `C07_contains_get`, `C14_violated_trailers`, `C14_violated_upgrade`, `C16_never_panics`, `C17_round_trip`, `C17_registry`, `C18_classes`, `C20_order`, `C37_available`, `C55_child`, `C59_reads`, `C61_violated_bang`, `C61_violated_wide`, `C67_method`, `C67_status`, `C69_other_names`, `C72_constants`, `C76_query_round_trip`, `C83_plain`, `C84_pushed`, `C84_iter`, `C84_iter_accept`, `C91_mixed`, `C91_length`, `C91_connection`, `C95_violated_hsts`, `C95_violated_trace`, `C98_violated_expect`, `C106_violated_proposals`, `C108_violated_origin_comma`, `C139_joined`.
* `Quot.sound`, `propext`: `C03_rejected_write`, `C03_bad_name`, `C04_texts_partial`, `C04_violated_cookie`, `C04_violated_hyperium`, `C04_violated_mime`, `C05_violated_empty_slice`, `C05_nonempty_partial`, `C06_values`, `C06_header_values`, `C06_next`, `C06_violated_size_hint`, `C06_size_hint_partial`, `C06_size_hint_header_values`, `C07_index_str`, `C08_bound`, `C08_into_reader`, `C08_set_mime`, `C09_length`, `C10_mixed_reads_partial`, `C10_violated`, `C10_violated_any`, `C10_chained_readers`, `C12_old_body`, `C12_new_body`, `C12_present`, `C12_absent`, `C12_sequence_present`, `C12_sequence_absent`, `C13_second_take`, `C13_first_take`, `C13_cloned_request`, `C14_at_most_one_partial`, `C14_bound`, `C15_get`, `C15_returns`, `C15_contains`, `C15_frame`, `C15_last_insert`, `C18_convert`, `C21_failure`, `C22_constants`, `C24_violated_lookup`, `C24_name_panics_iff`, `C24_violated_remove`, `C25_violated_refl`, `C25_violated_charset`, `C30_violated_large`, `C31_violated_s_maxage`, `C32_reads`, `C32_roundtrip_iff_partial`, `C32_violated`, `C33_made`, `C34_violated`, `C35_reads`, `C35_violated`, `C36_unique`, `C38_available`, `C40_new`, `C40_special`, `C40_new_media`, `C41_violated_media_texts`, `C44_roundtrip_iff_partial`, `C44_violated`, `C49_violated_multibyte`, `C49_violated_status`, `C50_fallback`, `C52_reads`, `C52_violated`, `C53_apply`, `C55_descendants`, `C55_sampled`, `C57_new`, `C59_roundtrip`, `C60_base`, `C62_violated_panics`, `C62_violated_status`, `C63_violated`, `C65_flag`, `C67_status_from`, `C67_violated_status`, `C68_violated`, `C72_parses`, `C74_content_location`, `C74_referer_partial`, `C74_violated_status`, `C74_round_trip`, `C74_no_base`, `C76_constructors`, `C76_channels`, `C76_query`, `C77_read_partial`, `C77_request_as_body`, `C77_second_read`, `C77_violated_header`, `C79_from_file`, `C79_from_path`, `C79_extension`, `C79_guess`, `C80_size_hint`, `C81_pair`, `C82_downcast`, `C82_new`, `C82_text`, `C82_violated_type_name`, `C82_history`, `C82_stops`, `C83_status`, `C83_bad_status`, `C84_written`, `C84_vary_push`, `C84_allow`, `C85_hsts`, `C85_auth`, `C85_forwarded`, `C85_length`, `C85_last_unique`, `C86_cookie_partial`, `C86_violated_collection`, `C86_collection`, `C86_violated_readers`, `C87_lists_partial`, `C87_violated_forwarded`, `C87_violated_codings`, `C88_violated_s_maxage`, `C88_violated_vary`, `C88_violated_subdomains`, `C88_violated_null`, `C88_violated_forwarded`, `C89_reasons_partial`, `C89_violated`, `C95_last_partial`, `C95_repeated`, `C96_violated_unclosed`, `C96_violated_charset`, `C96_violated_print`, `C101_violated_lines`, `C103_meant_once`, `C105_kinds`, `C105_words`, `C105_violated_wildcard`, `C105_one_line`, `C106_violated_retry`, `C107_violated_separator`, `C108_tags_iff_partial`, `C108_violated_tags_star`, `C108_clear_iff_partial`, `C108_origins_partial`, `C108_violated_origin`, `C111_durations`, `C120_bytes`, `C121_clear_partial`, `C121_violated_s_maxage`, `C121_violated_empty`, `C122_violated_media`, `C122_x_forwarded`, `C123_only_needed`, `C123_chain_only_needed`, `C123_end_is_ready`, `C123_declared_ends`, `C124_names`, `C124_labels`, `C125_ascii_partial`, `C127_lines`, `C135_never_stuck_iff`, `C135_bound`, `C135_asked_partial`, `C135_refused`, `C135_not_waiting`, `C135_violated_letter_case`, `C137_one_line`, `C137_ascii_iff`, `C137_violated_never`, `C138_length`, `C139_chars`, `C139_as_is`, `C139_map`, `C141_line`, `C142_hops_partial`, `C142_same_iff_partial`, `C142_settles`, `C142_violated_no_body`.
* `Classical.choice`, `Quot.sound`, `propext`: `C01_same_name_iff`, `C01_constructors`, `C01_from_bytes`, `C01_print_stable`, `C01_eq_str_iff`, `C02_get_run`, `C02_returns_previous`, `C02_insert_then_appends`, `C02_frame`, `C04_fixed`, `C04_relay`, `C04_policy_partial`, `C04_stored_ascii_partial`, `C05_empty_iff_partial`, `C05_violated_moved`, `C06_size_hint_iff_partial`, `C07_eq_str`, `C08_any_state`, `C08_exact`, `C08_no_length`, `C09_chain`, `C10_any_mixture`, `C11_from_bytes`, `C11_from_string`, `C11_empty`, `C11_into_bytes`, `C11_bytes_round_trip`, `C11_into_string`, `C11_string_round_trip`, `C12_explicit`, `C13_conservation`, `C13_once`, `C13_poll`, `C13_none_is_final`, `C13_send_never_waits`, `C16_exact_partial`, `C16_violated_space`, `C16_violated_quoted`, `C16_violated_list`, `C16_remote_partial`, `C16_host_partial`, `C17_parse_iff`, `C18_display`, `C19_deserialize_partial`, `C19_deserialize_mod`, `C22_round_trip_iff`, `C22_round_trip`, `C22_print_idempotent`, `C23_wf`, `C23_never_panics`, `C24_lookup_iff_partial`, `C24_remove_iff_partial`, `C24_parse_text`, `C24_lookup_partial`, `C24_lookup_first_partial`, `C24_remove_partial`, `C25_matches_iff`, `C25_refl_iff_partial`, `C25_any`, `C25_type_any`, `C25_trans`, `C26_format_parse`, `C26_range`, `C27_layouts`, `C27_accepts`, `C28_violated_day_and_weekday`, `C28_ranges_partial`, `C29_roundtrip`, `C29_retry_after`, `C29_reads`, `C29_round_trip_iff`, `C30_reads_rounded`, `C30_survive_iff_partial`, `C30_small_partial`, `C30_malformed`, `C31_reads`, `C31_written_reads`, `C31_roundtrip_iff_partial`, `C33_made_roundtrip`, `C33_parse_iff`, `C33_print_parse`, `C33_header_roundtrip`, `C34_reads`, `C34_roundtrip_iff_partial`, `C35_roundtrip_iff_partial`, `C36_sorted`, `C37_negotiate`, `C38_negotiate`, `C39_positive_first_partial`, `C39_media_partial`, `C39_violated_zero`, `C39_violated_unweighted`, `C39_violated_media`, `C40_reads_partial`, `C40_violated_status`, `C40_number_unique`, `C40_media`, `C40_media_refused`, `C40_invariant`, `C41_media_partial`, `C41_violated_no_weight`, `C41_round_trip_iff`, `C41_media_iff_partial`, `C41_round_trip`, `C41_thousandths`, `C42_roundtrip`, `C42_reads`, `C43_reads_partial`, `C43_round_trip`, `C43_violated_panics`, `C44_reads`, `C45_reads`, `C45_round_trip`, `C45_any_credentials`, `C45_round_trip_iff`, `C46_base64`, `C46_from_credentials`, `C46_reads`, `C46_round_trip_partial`, `C46_violated_colon`, `C46_round_trip_iff_partial`, `C47_reads`, `C47_round_trip_partial`, `C47_violated_quote`, `C47_round_trip_iff_partial`, `C48_round_trip_partial`, `C48_violated_no_for`, `C48_violated_port`, `C48_violated_bang`, `C48_reads_back_all_partial`, `C49_reads_partial`, `C49_no_comma_partial`, `C49_violated_short`, `C49_reads_all_partial`, `C51_reads`, `C51_reads_back`, `C51_round_trip_partial`, `C51_default`, `C51_violated_include_subdomains`, `C51_round_trip_iff_partial`, `C52_roundtrip_partial`, `C52_roundtrip_iff_partial`, `C53_value`, `C53_hash_order`, `C53_violated_twice`, `C54_protections_partial`, `C54_violated_powered_by`, `C54_frameguard`, `C54_referrer_policy`, `C55_round_trip`, `C55_form`, `C56_reads_partial`, `C56_violated_panics`, `C56_violated_status`, `C57_reads_partial`, `C57_roundtrip_iff_partial`, `C57_duration_partial`, `C57_violated_duration`, `C57_violated_huge`, `C57_violated_texts`, `C58_roundtrip`, `C58_reads`, `C58_round_trip_iff`, `C60_to_http`, `C60_from_http`, `C60_round_trip_partial`, `C60_violated_values`, `C60_request`, `C60_response`, `C60_refused`, `C60_violated_content_type`, `C60_violated_undefined`, `C61_token`, `C61_quoted`, `C61_unquotes_partial`, `C61_quoted_all`, `C61_unquoting_all_partial`, `C61_unquotes_all_partial`, `C62_client_errors_partial`, `C62_no_panic_partial`, `C62_age_partial`, `C62_urls_partial`, `C63_panics_iff_partial`, `C64_json`, `C64_form`, `C64_into_json`, `C66_repeatable_partial`, `C66_violated_ties`, `C66_violated_swaps`, `C66_repeatable_iff_partial`, `C67_method_from`, `C67_violated_method`, `C68_request_partial`, `C68_response_partial`, `C69_fields_urls`, `C69_fields`, `C69_fields_more`, `C70_requests`, `C70_responses_partial`, `C70_violated_immutable`, `C73_known`, `C73_empty`, `C75_reads`, `C75_round_trip_iff`, `C75_message`, `C75_new`, `C76_request`, `C76_response`, `C76_response_from`, `C77_text`, `C78_time_partial`, `C78_wait_partial`, `C78_delay_partial`, `C78_violated_panic`, `C78_expires`, `C78_date`, `C79_sniff`, `C79_content`, `C79_type_partial`, `C79_type_at_start_partial`, `C79_violated_position`, `C80_iter`, `C80_rebuild`, `C80_iter_mut`, `C81_effect`, `C84_star`, `C84_plain`, `C84_accept`, `C84_accept_media`, `C84_edits`, `C84_edits_media`, `C84_edit_one`, `C84_edits_weights`, `C86_fixed`, `C86_texts`, `C86_parsed`, `C86_relay`, `C86_policy`, `C88_numbers`, `C88_dates`, `C88_tags`, `C88_credentials`, `C88_codings`, `C88_content_type`, `C88_allow`, `C88_weights`, `C88_timing_iff`, `C88_cache_iff_partial`, `C88_vary_iff_partial`, `C88_hsts_iff_partial`, `C88_origins_iff_partial`, `C90_collection`, `C90_values`, `C90_one_line`, `C90_body`, `C91_request`, `C91_response`, `C91_trailers`, `C91_views`, `C92_equal_iff_partial`, `C92_spelling`, `C92_text`, `C92_violated_charset`, `C92_violated_order`, `C93_reads_valid`, `C93_written_partial`, `C93_new_partial`, `C93_passes_on_partial`, `C93_violated_zero`, `C93_violated_reads`, `C94_weight`, `C94_codings_partial`, `C94_violated_spelling`, `C94_violated_case`, `C94_violated_star`, `C94_range`, `C94_accept_partial`, `C95_codings`, `C95_violated_codings`, `C95_violated_content_length`, `C96_exact`, `C96_display`, `C96_reads_back`, `C96_closed`, `C96_conforms_partial`, `C96_print_iff`, `C97_cache_partial`, `C97_violated_quoted_number`, `C97_violated_large`, `C97_violated_quoted_comma`, `C97_hsts_partial`, `C97_violated_hsts_case`, `C97_violated_hsts_quoted`, `C97_violated_hsts_twice`, `C98_numbers_partial`, `C98_violated_sign`, `C98_violated_large`, `C98_credentials_partial`, `C98_violated_spaces`, `C98_violated_alone`, `C98_basic_written`, `C98_challenge_iff_partial`, `C98_violated_realm`, `C98_violated_realm_escape`, `C98_challenge_written_iff`, `C99_tags_iff_partial`, `C99_violated_tag_comma`, `C99_violated_tag_empty`, `C99_vary_iff_partial`, `C99_violated_vary_empty`, `C99_allow_iff_partial`, `C99_violated_allow_empty`, `C99_violated_allow_unknown`, `C99_violated_allow_case`, `C99_clear_iff_partial`, `C99_violated_clear_unknown`, `C99_origins_iff_partial`, `C99_violated_null`, `C99_violated_star_blank`, `C100_metrics_partial`, `C100_violated_separator`, `C100_violated_escape`, `C100_violated_quoted_dur`, `C100_violated_twice`, `C100_violated_blank`, `C100_violated_large`, `C100_violated_empty`, `C101_reads_partial`, `C101_meaning_partial`, `C101_violated_case`, `C101_violated_meet`, `C101_violated_forms`, `C101_violated_empty`, `C102_codings_partial`, `C102_violated_unweighted`, `C102_violated_zero`, `C102_violated_star`, `C102_violated_any`, `C102_violated_identity`, `C102_media_partial`, `C102_violated_specific`, `C102_violated_charset`, `C103_dates_partial`, `C103_violated_refused`, `C103_violated_window`, `C104_outermost_partial`, `C104_violated_skipped`, `C104_violated_chunked`, `C105_labels`, `C105_fields`, `C105_lists_partial`, `C106_times`, `C106_retry_partial`, `C106_retry_laws`, `C106_proposals_partial`, `C107_policy_partial`, `C107_default`, `C107_violated_default`, `C107_violated_again`, `C107_violated_report_to`, `C108_vary_iff_partial`, `C108_violated_vary_star`, `C108_cache`, `C108_cache_iff_partial`, `C108_violated_s_maxage`, `C108_hsts`, `C108_allow`, `C109_codings`, `C109_accept_partial`, `C109_violated_accept_star`, `C109_violated_q`, `C109_coding`, `C110_numbers`, `C110_dates`, `C110_retry`, `C110_credentials_read`, `C110_credentials_iff_partial`, `C110_violated_credentials`, `C110_basic_read`, `C110_basic_iff_partial`, `C110_violated_colon`, `C111_metrics_iff_partial`, `C111_violated_metric`, `C111_violated_name`, `C111_violated_escape`, `C112_one`, `C112_chain_iff_partial`, `C112_violated_port`, `C112_violated_empty`, `C112_violated_inject`, `C113_one`, `C113_read`, `C113_challenge_iff_partial`, `C113_violated_inject`, `C113_violated_backslash`, `C114_tags_iff_partial`, `C114_star`, `C114_vary`, `C114_allow_iff_partial`, `C114_clear_iff_partial`, `C114_cache`, `C114_cache_iff_partial`, `C114_hsts_partial`, `C114_numbers_partial`, `C114_dates_iff_partial`, `C114_credentials`, `C114_basic_iff_partial`, `C114_chain_iff_partial`, `C114_chain_grown_iff_partial`, `C114_challenge_iff_partial`, `C114_codings_iff_partial`, `C114_violated_codings`, `C114_coding_iff_partial`, `C114_violated_s_maxage`, `C114_violated_params`, `C114_violated_port`, `C114_accept_iff_partial`, `C114_violated_charset`, `C114_timings_partial`, `C115_codings_partial`, `C115_nearly_partial`, `C115_violated_rounding`, `C115_media_partial`, `C115_violated_no_weight`, `C116_headers_partial`, `C116_request_partial`, `C116_response_partial`, `C116_our_request_partial`, `C116_our_response_partial`, `C116_violated_content_type`, `C117_remote`, `C117_host`, `C117_client_iff_partial`, `C117_chain`, `C117_address_iff`, `C117_violated_two`, `C117_violated_host`, `C117_violated_attack`, `C118_learn`, `C118_tags_partial`, `C118_violated_comma`, `C118_dates`, `C118_dates_exact_partial`, `C118_violated_fraction`, `C119_trace`, `C119_valid`, `C120_take`, `C120_send`, `C120_pipeline`, `C120_short`, `C121_tags_partial`, `C121_vary_partial`, `C121_origins_partial`, `C121_allow`, `C121_vary_pushes`, `C121_tags_pushes`, `C121_cache_partial`, `C121_timings_partial`, `C121_codings`, `C121_media_partial`, `C122_lists`, `C122_allow`, `C122_cache`, `C122_origins`, `C122_codings`, `C122_metrics`, `C122_media_partial`, `C122_media_headers_partial`, `C122_forwarded`, `C122_credentials`, `C122_relay`, `C123_ends`, `C123_violated_truncated`, `C123_complete_partial`, `C124_request`, `C124_response`, `C124_one_line`, `C124_violated_credentials`, `C125_reads_partial`, `C125_violated_attribute`, `C125_appended`, `C126_asked`, `C126_told`, `C126_other_scheme`, `C126_login`, `C126_realm_iff_partial`, `C126_user_iff_partial`, `C126_same_iff`, `C126_distinct_partial`, `C126_violated_colon`, `C126_violated_realm`, `C127_reuse_iff_partial`, `C127_nothing`, `C127_right_iff_partial`, `C127_typed`, `C127_violated_comma`, `C127_violated_space`, `C128_age_partial`, `C128_short`, `C128_used_partial`, `C128_no_lifetime`, `C128_violated_parts`, `C128_violated_shared`, `C129_lets`, `C129_nothing_lost`, `C129_one_wins`, `C129_can_change_partial`, `C129_violated_comma`, `C130_unchanged_iff_partial`, `C130_always_right`, `C130_not_again_partial`, `C130_violated_comma`, `C131_back_partial`, `C131_never_early_iff_partial`, `C131_within_partial`, `C131_violated_fraction`, `C131_violated_panic`, `C132_only_asked`, `C132_own_host`, `C132_secures_iff_partial`, `C132_violated_subdomains`, `C133_any`, `C133_exactly`, `C133_by_second`, `C133_unchanged_exactly`, `C133_unchanged_by_second`, `C133_has`, `C133_no_comparison`, `C134_one_coding_iff_partial`, `C134_every_coding`, `C134_violated_layers`, `C136_kept_partial`, `C136_violated_unknown`, `C136_written_partial`, `C137_json`, `C137_distinct`, `C137_panics_iff`, `C137_violated_cut`, `C137_grammar`, `C137_object_iff`, `C137_array_iff`, `C137_back`, `C138_reads_iff`, `C138_prints_iff`, `C138_back`, `C138_entries`, `C138_same_iff`, `C138_passed_on`, `C138_bounded`, `C138_ascii`, `C139_reads_iff`, `C139_written`, `C139_back`, `C139_distinct`, `C139_map_back`, `C139_request`, `C140_changing_partial`, `C140_finds_partial`, `C140_violated_nothing`, `C140_fails_iff_partial`, `C141_grammar_iff`, `C141_one_meaning`, `C141_written`, `C141_any_text_iff_partial`, `C141_escaped`, `C141_order`, `C141_holds`, `C141_only`, `C141_body`, `C141_response_partial`, `C141_text`, `C141_distinct`, `C141_back_iff_partial`, `C141_passed_on`, `C141_last`, `C141_request_partial`, `C141_violated_deep`, `C142_text`, `C143_by_clock`, `C143_by_age_partial`, `C143_violated_parts`, `C143_expired`, `C143_unreadable`, `C144_delivered`, `C144_nothing`, `C144_waits`, `C144_crash`, `C144_once`, `C145_response_partial`, `C145_request_partial`, `C145_same_iff`, `C145_request_same_iff`, `C145_violated_twice`, `C145_json_partial`, `C145_settles`, `C145_request_settles`, `C145_violated_lost`.
