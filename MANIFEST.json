{
 "claims": [
  {
   "property": "C01",
   "status": "proved",
   "theorems": [
    "HT.C01_same_name_iff",
    "HT.C01_constructors",
    "HT.C01_from_bytes",
    "HT.C01_print_stable",
    "HT.C01_eq_str_iff"
   ],
   "note": "All checked constructors of header names, string comparison, for all strings."
  },
  {
   "property": "C02",
   "status": "proved",
   "theorems": [
    "HT.C02_get_run",
    "HT.C02_returns_previous",
    "HT.C02_insert_then_appends",
    "HT.C02_frame"
   ],
   "note": "Refinement of the collection to a history function, over all histories of insert/append/remove and in-place changes through get_mut."
  },
  {
   "property": "C03",
   "status": "proved",
   "theorems": [
    "HT.C03_rejected_write",
    "HT.C03_bad_name"
   ],
   "note": "All collections, names, value arguments."
  },
  {
   "property": "C04",
   "status": "partial",
   "theorems": [
    "HT.C04_fixed",
    "HT.C04_texts_partial",
    "HT.C04_relay",
    "HT.C04_policy_partial",
    "HT.C04_violated_cookie",
    "HT.C04_violated_forwarded",
    "HT.C04_stored_ascii_partial",
    "HT.C04_violated_hyperium",
    "HT.C04_violated_etag",
    "HT.C04_violated_mime"
   ],
   "note": "Violated for some typed values: an entity tag and a media type with Latin-1 content become non-ASCII header values (witnesses). Proved for the checked constructors; for the other typed headers: numbers, dates, keywords and Vary are always written in ASCII, the text-carrying ones exactly if their texts are ASCII (C04_texts_partial, C04_policy_partial), and a typed header read from an ASCII collection is written in ASCII again (C04_relay; for Forwarded given that addresses are ASCII)."
  },
  {
   "property": "C05",
   "status": "partial",
   "theorems": [
    "HT.C05_empty_iff_partial",
    "HT.C05_violated_empty_slice",
    "HT.C05_violated_moved",
    "HT.C05_nonempty_partial"
   ],
   "note": "Violated by an empty slice and by moving the values away through get_mut (witnesses proved); invariant for histories with neither, and for every history exactly when a header is there without a value (C05_empty_iff_partial)."
  },
  {
   "property": "C06",
   "status": "partial",
   "theorems": [
    "HT.C06_size_hint_iff_partial",
    "HT.C06_values",
    "HT.C06_header_values",
    "HT.C06_next",
    "HT.C06_violated_size_hint",
    "HT.C06_size_hint_partial",
    "HT.C06_size_hint_header_values"
   ],
   "note": "Iteration proved for all collections and hash orders; size hint violated (witness proved), and right at every moment of the iteration exactly if every header has one value (C06_size_hint_iff_partial)."
  },
  {
   "property": "C07",
   "status": "proved",
   "theorems": [
    "HT.C07_index_str",
    "HT.C07_index_name",
    "HT.C07_eq_str",
    "HT.C07_eq_slice",
    "HT.C07_contains_get"
   ],
   "note": "Full characterisation."
  },
  {
   "property": "C08",
   "status": "proved",
   "theorems": [
    "HT.C08_any_state",
    "HT.C08_exact",
    "HT.C08_no_length",
    "HT.C08_bound",
    "HT.C08_into_reader",
    "HT.C08_set_mime"
   ],
   "note": "Bytes held by a reader are defined by all its executions; exact for every reader and state, plus a bound for every reader that respects buffer sizes."
  },
  {
   "property": "C09",
   "status": "proved",
   "theorems": [
    "HT.C09_chain",
    "HT.C09_length"
   ],
   "note": "Bodies in every state reached by plain reads; futures_lite Chain modelled from the dependency."
  },
  {
   "property": "C10",
   "status": "partial",
   "theorems": [
    "HT.C10_mixed_reads_partial",
    "HT.C10_violated",
    "HT.C10_violated_any",
    "HT.C10_any_mixture",
    "HT.C10_chained_readers"
   ],
   "note": "Violated for every reader and declared length (C10_violated_any). C10_any_mixture says exactly what any mixture of plain and buffered reads does; C10_mixed_reads_partial: the claim when the reader holds no more than declared; chained readers too."
  },
  {
   "property": "C11",
   "status": "proved",
   "theorems": [
    "HT.C11_from_bytes",
    "HT.C11_from_string",
    "HT.C11_empty",
    "HT.C11_into_bytes",
    "HT.C11_bytes_round_trip",
    "HT.C11_into_string",
    "HT.C11_string_round_trip"
   ],
   "note": "read_to_end with arbitrary positive buffer sizes; completion proved for cursors."
  },
  {
   "property": "C12",
   "status": "proved",
   "theorems": [
    "HT.C12_old_body",
    "HT.C12_new_body",
    "HT.C12_present",
    "HT.C12_absent",
    "HT.C12_sequence_present",
    "HT.C12_sequence_absent",
    "HT.C12_explicit"
   ],
   "note": "Bodies are opaque with an optional media type; old/new body, frame of all other headers and the resulting content type for every operation and for all sequences."
  },
  {
   "property": "C13",
   "status": "proved",
   "theorems": [
    "HT.C13_conservation",
    "HT.C13_once",
    "HT.C13_poll",
    "HT.C13_none_is_final",
    "HT.C13_send_never_waits",
    "HT.C13_second_take",
    "HT.C13_first_take",
    "HT.C13_cloned_request"
   ],
   "note": "Transition system of a one-place channel with free interleaving of calls, polls, drops and clones; the receiver's answer is characterised exactly from the trace; wakers not modelled."
  },
  {
   "property": "C14",
   "status": "partial",
   "theorems": [
    "HT.C14_at_most_one_partial",
    "HT.C14_bound",
    "HT.C14_violated_trailers",
    "HT.C14_violated_upgrade"
   ],
   "note": "Violated for cloned responses (trailers and upgrades, witness runs); partial: at most one for requests with clones and for uncloned responses; one more per clone in general."
  },
  {
   "property": "C15",
   "status": "proved",
   "theorems": [
    "HT.C15_get",
    "HT.C15_returns",
    "HT.C15_contains",
    "HT.C15_frame",
    "HT.C15_last_insert"
   ],
   "note": "Any family of types with decidable equality; histories of insert, remove, clear and writes through get_mut."
  },
  {
   "property": "C16",
   "status": "partial",
   "theorems": [
    "HT.C16_exact_partial",
    "HT.C16_violated_space",
    "HT.C16_violated_quoted",
    "HT.C16_violated_list",
    "HT.C16_remote_partial",
    "HT.C16_host_partial",
    "HT.C16_never_panics"
   ],
   "note": "Violated for spaces, quotes and several elements (witnesses); partial: full priority rule whenever Forwarded is absent or in the plain form."
  },
  {
   "property": "C17",
   "status": "proved",
   "theorems": [
    "HT.C17_parse_iff",
    "HT.C17_round_trip",
    "HT.C17_registry"
   ],
   "note": "Method table generated from src/method.rs; case-insensitive matching against an independent list of registry names."
  },
  {
   "property": "C18",
   "status": "proved",
   "theorems": [
    "HT.C18_convert",
    "HT.C18_classes",
    "HT.C18_display"
   ],
   "note": "All supported statuses enumerated; conversion characterised for every Nat below 2^16; class predicates by hundreds digit."
  },
  {
   "property": "C19",
   "status": "partial",
   "theorems": [
    "HT.C19_violated_truncation",
    "HT.C19_deserialize_partial",
    "HT.C19_deserialize_mod"
   ],
   "note": "Violation proved (65736 deserialises to 200) together with the exact behaviour (value mod 2^16) and the positive part for 0..65535."
  },
  {
   "property": "C20",
   "status": "proved",
   "theorems": [
    "HT.C20_deserialize_iff",
    "HT.C20_order"
   ],
   "note": "Serde names of the five versions; order agrees with an independent numeric version."
  },
  {
   "property": "C21",
   "status": "proved",
   "theorems": [
    "HT.C21_success",
    "HT.C21_failure",
    "HT.C21_failure_code",
    "HT.C21_lazy",
    "HT.C21_default_status"
   ],
   "note": "Result/Option status traits with the lazy closure modelled as a call log."
  },
  {
   "property": "C22",
   "status": "proved",
   "theorems": [
    "HT.C22_round_trip_iff",
    "HT.C22_round_trip",
    "HT.C22_print_idempotent",
    "HT.C22_constants"
   ],
   "note": "Exact: print-then-parse is the identity iff the media type is well formed; everything that parses is well formed (C23_wf). All named constants checked as a complete finite table."
  },
  {
   "property": "C23",
   "status": "proved",
   "theorems": [
    "HT.C23_wf",
    "HT.C23_never_panics"
   ],
   "note": "parse is total: ok with a well-formed value or err 500, never a panic."
  },
  {
   "property": "C24",
   "status": "partial",
   "theorems": [
    "HT.C24_lookup_iff_partial",
    "HT.C24_remove_iff_partial",
    "HT.C24_parse_text",
    "HT.C24_lookup_partial",
    "HT.C24_lookup_first_partial",
    "HT.C24_violated_lookup",
    "HT.C24_name_panics_iff",
    "HT.C24_remove_partial",
    "HT.C24_violated_remove"
   ],
   "note": "Violated for inputs with two charsets (witnesses). Partial: exact lookup for every text of the grammar; first-occurrence lookup and removal exactly without charset conflict; panic iff the name is not ASCII."
  },
  {
   "property": "C25",
   "status": "partial",
   "theorems": [
    "HT.C25_matches_iff",
    "HT.C25_refl_iff_partial",
    "HT.C25_violated_refl",
    "HT.C25_any",
    "HT.C25_type_any",
    "HT.C25_trans",
    "HT.C25_violated_charset"
   ],
   "note": "Violated: reflexivity with two charsets, charset=utf-8 of the pattern ignored. Proved: exact matching condition, reflexive iff one charset, transitivity, */* and type/*."
  },
  {
   "property": "C26",
   "status": "proved",
   "theorems": [
    "HT.C26_format_parse",
    "HT.C26_range"
   ],
   "note": "Civil-date algorithm of the writer proved against an independent day-counting calendar, for every second from 1970 to 9999; the date-time is unique (the calendar is proved injective)."
  },
  {
   "property": "C27",
   "status": "proved",
   "theorems": [
    "HT.C27_layouts",
    "HT.C27_accepts"
   ],
   "note": "Accepted texts characterised by an iff against an independent grammar (which records two leniencies: '+d' numbers and an unchecked separator in RFC 850)."
  },
  {
   "property": "C28",
   "status": "partial",
   "theorems": [
    "HT.C28_violated_day_and_weekday",
    "HT.C28_ranges_partial"
   ],
   "note": "Violation proved with concrete texts; the partial theorem shows a non-existing day reads as the corresponding day of the next month (1..3). Missing: existence of the day and the weekday."
  },
  {
   "property": "C29",
   "status": "proved",
   "theorems": [
    "HT.C29_roundtrip",
    "HT.C29_retry_after",
    "HT.C29_reads",
    "HT.C29_round_trip_iff"
   ],
   "note": "All five date headers and the date form of Retry-After; every time 1970..9999; reading characterised by the date grammar; 400 otherwise. C29_round_trip_iff: a time comes back exactly if it lies in 1970..9999, and then as its whole seconds."
  },
  {
   "property": "C30",
   "status": "partial",
   "theorems": [
    "HT.C30_reads_rounded",
    "HT.C30_survive_iff_partial",
    "HT.C30_small_partial",
    "HT.C30_violated_large",
    "HT.C30_malformed"
   ],
   "note": "Exact u64-to-double rounding (nearest, ties to even; std from_secs_f64 since Rust 1.63). Survival characterised exactly (at most 53 significant bits), panic threshold 2^64-1024, violation witnesses proved."
  },
  {
   "property": "C31",
   "status": "partial",
   "theorems": [
    "HT.C31_reads",
    "HT.C31_written_reads",
    "HT.C31_roundtrip_iff_partial",
    "HT.C31_violated_s_maxage"
   ],
   "note": "Reading characterised member by member against a table; writing then reading characterised for every list (s-maxage lost, fractions of seconds cut); the violation has a witness."
  },
  {
   "property": "C32",
   "status": "partial",
   "theorems": [
    "HT.C32_reads",
    "HT.C32_roundtrip_iff_partial",
    "HT.C32_violated"
   ],
   "note": "Exactly the policies with a directive or wildcard round-trip; reading characterised, including when it panics."
  },
  {
   "property": "C33",
   "status": "proved",
   "theorems": [
    "HT.C33_made",
    "HT.C33_made_roundtrip",
    "HT.C33_parse_iff",
    "HT.C33_print_parse",
    "HT.C33_header_roundtrip"
   ],
   "note": "Parsing characterised exactly; header round trip exactly for legal ASCII content; making tags, with and without debug assertions (C33_made)."
  },
  {
   "property": "C34",
   "status": "partial",
   "theorems": [
    "HT.C34_reads",
    "HT.C34_roundtrip_iff_partial",
    "HT.C34_violated"
   ],
   "note": "Both headers. Exactly the lists without commas inside tags and not empty round-trip; reading characterised; violations have witnesses."
  },
  {
   "property": "C35",
   "status": "partial",
   "theorems": [
    "HT.C35_reads",
    "HT.C35_roundtrip_iff_partial",
    "HT.C35_violated"
   ],
   "note": "Reading characterised for ASCII values; round trip characterised exactly; the empty list violates it."
  },
  {
   "property": "C36",
   "status": "proved",
   "theorems": [
    "HT.C36_sorted",
    "HT.C36_unique"
   ],
   "note": "sort_by_weight and the three PartialOrd impls; weights are exact binary32 values. The arrangement is shown unique, so the unstable sort is faithfully modelled."
  },
  {
   "property": "C37",
   "status": "proved",
   "theorems": [
    "HT.C37_negotiate",
    "HT.C37_available"
   ],
   "note": "AcceptEncoding::negotiate and TE::negotiate, full characterisation of the outcome for every list, wildcard and available list."
  },
  {
   "property": "C38",
   "status": "proved",
   "theorems": [
    "HT.C38_negotiate",
    "HT.C38_available"
   ],
   "note": "Accept::negotiate, full characterisation; uses the model of Mime::subset_eq."
  },
  {
   "property": "C39",
   "status": "partial",
   "theorems": [
    "HT.C39_positive_first_partial",
    "HT.C39_media_partial",
    "HT.C39_violated_zero",
    "HT.C39_violated_unweighted",
    "HT.C39_violated_media"
   ],
   "note": "Violated: q=0 is chosen, even over an unweighted proposal. Proved: an available proposal of positive weight always wins over weight 0."
  },
  {
   "property": "C40",
   "status": "partial",
   "theorems": [
    "HT.C40_new",
    "HT.C40_special",
    "HT.C40_reads_partial",
    "HT.C40_violated_status",
    "HT.C40_number_unique",
    "HT.C40_media",
    "HT.C40_new_media",
    "HT.C40_media_refused",
    "HT.C40_invariant"
   ],
   "note": "Exact binary32 parsing model. All out-of-range and special values refused; reachable lists only hold weights in [0,1]. Violated in status: out-of-range numbers give 500."
  },
  {
   "property": "C41",
   "status": "partial",
   "theorems": [
    "HT.C41_media_partial",
    "HT.C41_violated_no_weight",
    "HT.C41_violated_media_texts",
    "HT.C41_round_trip_iff",
    "HT.C41_media_iff_partial",
    "HT.C41_round_trip",
    "HT.C41_thousandths"
   ],
   "note": "For Accept-Encoding, TE and Accept: writing and reading back keeps every entry with the weight rounded to three decimals, and a list already on three decimals comes back identical. For Accept (C41_media_partial) the entry's media type must be well formed, ASCII, free of commas and without a q parameter; C41_violated_no_weight shows that an entry without a weight comes back with weight 1, and C41_violated_media_texts shows a q parameter of the media type taking the place of the weight and a comma inside a quoted parameter breaking the list. C41_round_trip_iff and C41_media_iff_partial: unchanged exactly when every weight has at most three decimals (and, for Accept, every entry has one)."
  },
  {
   "property": "C42",
   "status": "proved",
   "theorems": [
    "HT.C42_roundtrip",
    "HT.C42_reads"
   ],
   "note": "Round trip for all 64-bit lengths; accepted texts characterised exactly."
  },
  {
   "property": "C43",
   "status": "partial",
   "theorems": [
    "HT.C43_reads_partial",
    "HT.C43_round_trip",
    "HT.C43_violated_panics"
   ],
   "note": "ContentEncoding and TransferEncoding. Violated: reading panics exactly when no value is a known coding."
  },
  {
   "property": "C44",
   "status": "partial",
   "theorems": [
    "HT.C44_reads",
    "HT.C44_roundtrip_iff_partial",
    "HT.C44_violated"
   ],
   "note": "Reading characterised as a set; every non-empty set in every visiting order round-trips; empty set and status of unknown methods violate the claim."
  },
  {
   "property": "C45",
   "status": "proved",
   "theorems": [
    "HT.C45_reads",
    "HT.C45_round_trip",
    "HT.C45_any_credentials",
    "HT.C45_round_trip_iff"
   ],
   "note": "Reading characterised exactly for all values; round-trip for all schemes and ASCII credentials (non-ASCII credentials read back too but make a non-ASCII header value, see C45_any_credentials). C45_round_trip_iff: exactly the ASCII credentials survive."
  },
  {
   "property": "C46",
   "status": "partial",
   "theorems": [
    "HT.C46_base64",
    "HT.C46_from_credentials",
    "HT.C46_reads",
    "HT.C46_round_trip_partial",
    "HT.C46_violated_colon",
    "HT.C46_round_trip_iff_partial"
   ],
   "note": "base64 0.13 modelled from the dependency and proved equal to a numeric specification; decoding characterised exactly. Violated for every username with a colon (proved for all of them). C46_round_trip_iff_partial: exactly the usernames without a colon survive."
  },
  {
   "property": "C47",
   "status": "partial",
   "theorems": [
    "HT.C47_reads",
    "HT.C47_round_trip_partial",
    "HT.C47_violated_quote",
    "HT.C47_round_trip_iff_partial"
   ],
   "note": "Reading characterised exactly for all values. Violated for every realm with a quote (proved for all of them); round-trip proved for the rest. C47_round_trip_iff_partial: exactly the ASCII realms without a quote survive."
  },
  {
   "property": "C48",
   "status": "partial",
   "theorems": [
    "HT.C48_round_trip_partial",
    "HT.C48_violated_no_for",
    "HT.C48_violated_port",
    "HT.C48_violated_bang",
    "HT.C48_reads_back_all_partial"
   ],
   "note": "Exact condition under which a Forwarded value survives writing and reading through a header collection, and, for any text including text outside ASCII, exactly when the written text parses back to the value; violated for host with port, missing for, '!' in quoted values."
  },
  {
   "property": "C49",
   "status": "partial",
   "theorems": [
    "HT.C49_reads_partial",
    "HT.C49_no_comma_partial",
    "HT.C49_violated_short",
    "HT.C49_violated_multibyte",
    "HT.C49_violated_status",
    "HT.C49_reads_all_partial"
   ],
   "note": "Full characterisation for every text, ASCII or not: the legal texts and their meaning, the texts that panic, everything else status 500; plus the simpler form for ASCII text. Violated: a short remainder after a comma, a multi-byte character across the fourth byte of an element and a wide character whose low eight bits are those of a quote panic, and errors have no client status."
  },
  {
   "property": "C50",
   "status": "proved",
   "theorems": [
    "HT.C50_fallback"
   ],
   "note": "All header collections; std's IPv6 parsing and printing is a function parameter. Only the first Forwarded value is looked at."
  },
  {
   "property": "C51",
   "status": "partial",
   "theorems": [
    "HT.C51_reads",
    "HT.C51_reads_back",
    "HT.C51_round_trip_partial",
    "HT.C51_default",
    "HT.C51_violated_include_subdomains",
    "HT.C51_round_trip_iff_partial"
   ],
   "note": "Reading characterised exactly for all values. Violated: no policy that includes subdomains reads back (proved for all such policies); round-trip proved for the rest. C51_round_trip_iff_partial: exactly the policies of whole seconds without subdomains survive."
  },
  {
   "property": "C52",
   "status": "partial",
   "theorems": [
    "HT.C52_reads",
    "HT.C52_roundtrip_partial",
    "HT.C52_roundtrip_iff_partial",
    "HT.C52_violated"
   ],
   "note": "Reading characterised for any URL parser; round trip for any URL printer and parser that agree; the empty policy and URLs with commas violate it. The url crate itself is a parameter."
  },
  {
   "property": "C53",
   "status": "partial",
   "theorems": [
    "HT.C53_value",
    "HT.C53_hash_order",
    "HT.C53_apply",
    "HT.C53_violated_twice"
   ],
   "note": "Value characterised for all building histories and hash orders; apply characterised. Violated: a second application always differs once a directive was given (proved for all such policies)."
  },
  {
   "property": "C54",
   "status": "partial",
   "theorems": [
    "HT.C54_protections_partial",
    "HT.C54_violated_powered_by",
    "HT.C54_frameguard",
    "HT.C54_referrer_policy"
   ],
   "note": "All five documented headers in force and everything else unchanged, for every collection. Violated: X-Powered-By is never removed (proved for every collection). Also frameguard and referrer_policy tables."
  },
  {
   "property": "C55",
   "status": "proved",
   "theorems": [
    "HT.C55_round_trip",
    "HT.C55_form",
    "HT.C55_child",
    "HT.C55_descendants",
    "HT.C55_sampled"
   ],
   "note": "TraceContext modelled in full with random numbers as arguments; round trip for all values in range, form, children and descendants, sampled bit."
  },
  {
   "property": "C56",
   "status": "partial",
   "theorems": [
    "HT.C56_reads_partial",
    "HT.C56_violated_panics",
    "HT.C56_violated_status"
   ],
   "note": "Outcome of reading characterised for every header map. Violated: fewer than four well-formed fields panics, malformed version reported as 500."
  },
  {
   "property": "C57",
   "status": "partial",
   "theorems": [
    "HT.C57_reads_partial",
    "HT.C57_new",
    "HT.C57_roundtrip_iff_partial",
    "HT.C57_duration_partial",
    "HT.C57_violated_duration",
    "HT.C57_violated_huge",
    "HT.C57_violated_texts"
   ],
   "note": "as_secs_f64, the product with 1000.0, shortest printing, f64 parsing and from_secs_f64 are exact binary64 models. Reading characterised for every value (which entries are read, 400, and exactly when it panics); the lists that survive are characterised; all durations below 4096 s survive. Violated: longer durations, separators in descriptions, the empty list, panicking numbers."
  },
  {
   "property": "C58",
   "status": "proved",
   "theorems": [
    "HT.C58_roundtrip",
    "HT.C58_reads",
    "HT.C58_round_trip_iff"
   ],
   "note": "Round trip for all 64-bit seconds; number/date/400 decision characterised. C58_round_trip_iff: a delay comes back as its whole seconds and nothing else."
  },
  {
   "property": "C59",
   "status": "proved",
   "theorems": [
    "HT.C59_reads",
    "HT.C59_roundtrip"
   ],
   "note": "Full characterisation."
  },
  {
   "property": "C60",
   "status": "partial",
   "theorems": [
    "HT.C60_to_http",
    "HT.C60_from_http",
    "HT.C60_round_trip_partial",
    "HT.C60_violated_values",
    "HT.C60_base",
    "HT.C60_request",
    "HT.C60_response",
    "HT.C60_refused",
    "HT.C60_violated_content_type",
    "HT.C60_violated_undefined"
   ],
   "note": "To the http crate: full characterisation (which collections convert, what they become). From it: only the first value of every name survives, on top of the headers already there; round trip proved for single-valued collections. Violated: dropped values, duplicated content type, undefined behaviour on non-UTF-8 values."
  },
  {
   "property": "C61",
   "status": "partial",
   "theorems": [
    "HT.C61_token",
    "HT.C61_quoted",
    "HT.C61_unquotes_partial",
    "HT.C61_violated_bang",
    "HT.C61_violated_wide",
    "HT.C61_quoted_all",
    "HT.C61_unquoting_all_partial",
    "HT.C61_unquotes_all_partial"
   ],
   "note": "Token parser for all strings; quoted strings for all strings with the exact panic condition, the exact condition for unquoting and what is lost otherwise; plus the simpler form for ASCII text. Violated for '!' and outside ASCII (dropped characters, panic)."
  },
  {
   "property": "C62",
   "status": "partial",
   "theorems": [
    "HT.C62_client_errors_partial",
    "HT.C62_no_panic_partial",
    "HT.C62_age_partial",
    "HT.C62_violated_panics",
    "HT.C62_violated_status",
    "HT.C62_urls_partial"
   ],
   "note": "Thirteen readers fail only with 400 and never panic; five more never panic but may report 500; Age panics exactly for numerals in [2^64-2^10, 2^64). Violated by Age, Clear-Site-Data, Content-Encoding, Transfer-Encoding, Server-Timing and traceparent (panics) and by Accept*, TE, Allow, traceparent (500)."
  },
  {
   "property": "C63",
   "status": "partial",
   "theorems": [
    "HT.C63_violated",
    "HT.C63_panics_iff_partial"
   ],
   "note": "Violated from 2^63 on (witness); partial: panics iff the declared length is at least 2^63."
  },
  {
   "property": "C64",
   "status": "proved",
   "theorems": [
    "HT.C64_json",
    "HT.C64_form",
    "HT.C64_into_json"
   ],
   "note": "serde encoders and decoders are parameters."
  },
  {
   "property": "C65",
   "status": "proved",
   "theorems": [
    "HT.C65_flag"
   ],
   "note": "Exact for all histories and all three channels."
  },
  {
   "property": "C66",
   "status": "partial",
   "theorems": [
    "HT.C66_repeatable_partial",
    "HT.C66_violated_ties",
    "HT.C66_violated_swaps",
    "HT.C66_repeatable_iff_partial"
   ],
   "note": "Violated by every tie; proved when all weights differ."
  },
  {
   "property": "C67",
   "status": "partial",
   "theorems": [
    "HT.C67_version",
    "HT.C67_method",
    "HT.C67_method_from",
    "HT.C67_violated_method",
    "HT.C67_status",
    "HT.C67_status_from",
    "HT.C67_violated_status"
   ],
   "note": "Versions, methods and statuses of this crate round trip; the conversions from the http crate are characterised completely, including the inputs that panic (violated)."
  },
  {
   "property": "C68",
   "status": "partial",
   "theorems": [
    "HT.C68_request_partial",
    "HT.C68_response_partial",
    "HT.C68_violated"
   ],
   "note": "Conversion succeeds exactly when every name and value is legal in the http crate and then keeps everything; otherwise it panics (violated)."
  },
  {
   "property": "C69",
   "status": "proved",
   "theorems": [
    "HT.C69_fields_urls",
    "HT.C69_fields",
    "HT.C69_fields_more",
    "HT.C69_other_names"
   ],
   "note": "Proved for every modelled typed header, each with its field name written out. Added after a wrong-name mutant survived."
  },
  {
   "property": "C70",
   "status": "partial",
   "theorems": [
    "HT.C70_requests",
    "HT.C70_responses_partial",
    "HT.C70_violated_immutable"
   ],
   "note": "For every text that reads as a directive. Violated for immutable in every spelling. Added after mutants of the validity tables survived."
  },
  {
   "property": "C71",
   "status": "proved",
   "theorems": [
    "HT.C71_words",
    "HT.C71_distinct"
   ],
   "note": "Complete finite table over all pairs of method and source, in terms of the policy's printed value. Added after mutants of the tables survived. ('src' is printed though the standard has no such keyword.)"
  },
  {
   "property": "C72",
   "status": "proved",
   "theorems": [
    "HT.C72_extension",
    "HT.C72_constants",
    "HT.C72_parses"
   ],
   "note": "All strings; the constants as well. Added after mutants of the table survived."
  },
  {
   "property": "C73",
   "status": "proved",
   "theorems": [
    "HT.C73_known",
    "HT.C73_empty"
   ],
   "note": "Any reader respecting buffer sizes, any sequence of reads. Added after a mutant of is_empty survived."
  },
  {
   "property": "C74",
   "status": "partial",
   "theorems": [
    "HT.C74_content_location",
    "HT.C74_referer_partial",
    "HT.C74_violated_status",
    "HT.C74_round_trip",
    "HT.C74_no_base",
    "HT.C74_set"
   ],
   "note": "The URL library (parse, join, display) is a parameter; the round trip assumes that it parses and joins what it displays, displayed as trimmed ASCII. Partial because Referer and SourceMap answer 500 for a reference that does not resolve; Content-Location without base fails even for absolute URLs (C74_no_base) and its setter panics (C74_set)."
  },
  {
   "property": "C75",
   "status": "proved",
   "theorems": [
    "HT.C75_reads",
    "HT.C75_round_trip_iff",
    "HT.C75_message",
    "HT.C75_new"
   ],
   "note": "Media types as in C22-C25. The round trip is an iff."
  },
  {
   "property": "C76",
   "status": "proved",
   "theorems": [
    "HT.C76_request",
    "HT.C76_response",
    "HT.C76_constructors",
    "HT.C76_response_from",
    "HT.C76_clone",
    "HT.C76_channels",
    "HT.C76_query",
    "HT.C76_query_round_trip"
   ],
   "note": "Any sequence of calls, each part described by the calls about it alone. Headers are observed by lookup under any ASCII name. The URL type, bodies, query codec and serde are parameters. C76_channels ties the trailer and upgrade ends of messages to the channels of C13, C14 and C65."
  },
  {
   "property": "C77",
   "status": "partial",
   "theorems": [
    "HT.C77_read_partial",
    "HT.C77_request_as_body",
    "HT.C77_second_read",
    "HT.C77_text",
    "HT.C77_violated_header"
   ],
   "note": "The conversion is a parameter in C77_read_partial, the conversions of src/body.rs in the others. Partial because reading adds a content type to a message without one (C77_violated_header)."
  },
  {
   "property": "C78",
   "status": "partial",
   "theorems": [
    "HT.C78_time_partial",
    "HT.C78_wait_partial",
    "HT.C78_delay_partial",
    "HT.C78_violated_panic",
    "HT.C78_expires",
    "HT.C78_date"
   ],
   "note": "Time arithmetic of std (seconds since 1970 and nanoseconds, panicking past i64 seconds). Times before 1970 are not modelled. Partial because asking panics beyond the end of time, which a peer can reach (C78_violated_panic)."
  },
  {
   "property": "C79",
   "status": "partial",
   "theorems": [
    "HT.C79_sniff",
    "HT.C79_content",
    "HT.C79_type_partial",
    "HT.C79_type_at_start_partial",
    "HT.C79_from_file",
    "HT.C79_from_path",
    "HT.C79_violated_position",
    "HT.C79_extension",
    "HT.C79_guess"
   ],
   "note": "A file is its bytes and a position; each system call may fail, the first read may be short. The infer crate is a parameter. Partial because recognition starts at the handle's position (C79_violated_position); C79_type_partial says exactly which bytes count."
  },
  {
   "property": "C80",
   "status": "proved",
   "theorems": [
    "HT.C80_size_hint",
    "HT.C80_iter",
    "HT.C80_rebuild",
    "HT.C80_iter_mut"
   ],
   "note": "Iterators hand out the entries of the map in any order (any permutation); histories as in C02. IntoIter and &Headers visit as iter does; Request and Response forward."
  },
  {
   "property": "C81",
   "status": "proved",
   "theorems": [
    "HT.C81_pair",
    "HT.C81_effect"
   ],
   "note": "The reference `&T` as header forwards to `T`. The value goes through the byte constructor, proved to be the identity on ASCII."
  },
  {
   "property": "C82",
   "status": "partial",
   "theorems": [
    "HT.C82_downcast",
    "HT.C82_new",
    "HT.C82_text",
    "HT.C82_violated_type_name",
    "HT.C82_history",
    "HT.C82_stops"
   ],
   "note": "Errors are modelled over an arbitrary family of types with their names and texts; anyhow::Error is the list of its layers. C82_violated_type_name: the name is anyhow::Error for errors made by from_display, from_debug or from an anyhow::Error. Backtraces, Debug output and the boxed conversions are not modelled."
  },
  {
   "property": "C83",
   "status": "proved",
   "theorems": [
    "HT.C83_plain",
    "HT.C83_status",
    "HT.C83_bad_status"
   ],
   "note": "Macros are modelled as functions taking the rest of the function body. By reading only: format_err!(expr), and bail!/ensure! with a non-literal message, expand to Error::new_adhoc, which is private to the crate, so that form does not compile outside it."
  },
  {
   "property": "C84",
   "status": "proved",
   "theorems": [
    "HT.C84_star",
    "HT.C84_plain",
    "HT.C84_pushed",
    "HT.C84_written",
    "HT.C84_vary_push",
    "HT.C84_iter",
    "HT.C84_accept",
    "HT.C84_accept_media",
    "HT.C84_allow",
    "HT.C84_edits",
    "HT.C84_edits_media",
    "HT.C84_edit_one",
    "HT.C84_edits_weights",
    "HT.C84_iter_accept"
   ],
   "note": "Built and LastSet describe the result without running the calls. C84_edits, C84_edit_one and C84_edits_weights cover changes in place of weighted lists."
  },
  {
   "property": "C85",
   "status": "proved",
   "theorems": [
    "HT.C85_hsts",
    "HT.C85_hsts_duration",
    "HT.C85_auth",
    "HT.C85_forwarded",
    "HT.C85_length",
    "HT.C85_last_unique"
   ],
   "note": "LastSet describes each field by the sequence of calls; C85_last_unique shows it determines the value."
  },
  {
   "property": "C86",
   "status": "partial",
   "theorems": [
    "HT.C86_cookie_partial",
    "HT.C86_violated_collection",
    "HT.C86_collection",
    "HT.C86_fixed",
    "HT.C86_texts",
    "HT.C86_parsed",
    "HT.C86_relay",
    "HT.C86_violated_readers",
    "HT.C86_policy"
   ],
   "note": "FieldText excludes control characters except tab. C86_fixed: values that never leave the field; C86_texts: exactly those texts of the caller that would; C86_parsed and C86_relay: relaying what was read. Violated by the collection, which checks ASCII only, and by readers that take control characters."
  },
  {
   "property": "C87",
   "status": "partial",
   "theorems": [
    "HT.C87_lists_partial",
    "HT.C87_violated_forwarded",
    "HT.C87_violated_codings"
   ],
   "note": "Joined relates several lines to the one line. The readers named in C87_lists_partial give the same result, errors and panics included. Violated for Forwarded, X-Forwarded-For, Content-Encoding and Transfer-Encoding."
  },
  {
   "property": "C88",
   "status": "partial",
   "theorems": [
    "HT.C88_numbers",
    "HT.C88_dates",
    "HT.C88_tags",
    "HT.C88_credentials",
    "HT.C88_codings",
    "HT.C88_content_type",
    "HT.C88_allow",
    "HT.C88_weights",
    "HT.C88_timing_iff",
    "HT.C88_cache_iff_partial",
    "HT.C88_violated_s_maxage",
    "HT.C88_vary_iff_partial",
    "HT.C88_violated_vary",
    "HT.C88_hsts_iff_partial",
    "HT.C88_violated_subdomains",
    "HT.C88_origins_iff_partial",
    "HT.C88_violated_null",
    "HT.C88_violated_forwarded"
   ],
   "note": "C88_numbers, C88_dates, C88_tags, C88_credentials, C88_codings, C88_content_type and C88_allow: exact for every received collection. C88_weights: one rounding to three decimals, then a fixed point. C88_timing_iff, C88_cache_iff_partial, C88_vary_iff_partial, C88_hsts_iff_partial and C88_origins_iff_partial say exactly which read values can be passed on; C88_violated_* show the headers that cannot. For Timing-Allow-Origin the URL library is a parameter that prints what it parses without adding commas. Forwarded has no positive theorem here: C48_round_trip_partial says which values come back."
  },
  {
   "property": "C89",
   "status": "partial",
   "theorems": [
    "HT.C89_reasons_partial",
    "HT.C89_registry",
    "HT.C89_violated"
   ],
   "note": "Against the IANA registry of 2020 (plus RFC 2324), as a table in the specification; C89_reasons_partial: the phrase is the registered one exactly for the other codes; C89_violated: 203, 226, 300, 416."
  },
  {
   "property": "C90",
   "status": "proved",
   "theorems": [
    "HT.C90_collection",
    "HT.C90_values",
    "HT.C90_one_line",
    "HT.C90_body"
   ],
   "note": "Debug and Display texts modelled with an arbitrary predicate for the printable non-ASCII characters; the alternate form {:#?} is not modelled. Injectivity proved by showing every printed piece self-delimiting."
  },
  {
   "property": "C91",
   "status": "proved",
   "theorems": [
    "HT.C91_request",
    "HT.C91_response",
    "HT.C91_mixed",
    "HT.C91_trailers",
    "HT.C91_views",
    "HT.C91_length",
    "HT.C91_connection"
   ],
   "note": "Readers and transports are arbitrary step functions; the conversion after direct reads uses C11."
  },
  {
   "property": "C92",
   "status": "partial",
   "theorems": [
    "HT.C92_equal_iff_partial",
    "HT.C92_spelling",
    "HT.C92_text",
    "HT.C92_violated_charset",
    "HT.C92_violated_order"
   ],
   "note": "C92_equal_iff_partial is an exact characterisation of derived equality on parsed texts; the two violations show where it is finer than RFC 7231 (order of parameters, case of the charset value, parse.rs:98)."
  },
  {
   "property": "C93",
   "status": "partial",
   "theorems": [
    "HT.C93_reads_valid",
    "HT.C93_written_partial",
    "HT.C93_new_partial",
    "HT.C93_passes_on_partial",
    "HT.C93_violated_zero",
    "HT.C93_violated_reads"
   ],
   "note": "Violated: a random id of zero gives an invalid value; invalid values are read. Proved: all valid values are read; a written value is valid exactly if the version is not 255 and no id is zero; new contexts and descendants of valid ones."
  },
  {
   "property": "C94",
   "status": "partial",
   "theorems": [
    "HT.C94_weight",
    "HT.C94_codings_partial",
    "HT.C94_violated_spelling",
    "HT.C94_violated_case",
    "HT.C94_violated_star",
    "HT.C94_range",
    "HT.C94_accept_partial"
   ],
   "note": "Weights, codings and media ranges in the form of RFC 7231. Violated for codings: white space after the semicolon and a capital Q fail the header, other letter case is not recognised, a weighted wildcard is dropped."
  },
  {
   "property": "C95",
   "status": "partial",
   "theorems": [
    "HT.C95_last_partial",
    "HT.C95_codings",
    "HT.C95_repeated",
    "HT.C95_violated_codings",
    "HT.C95_violated_content_length",
    "HT.C95_violated_hsts",
    "HT.C95_violated_trace"
   ],
   "note": "LastDecides and RepeatsAlike compare two readings of two collections. C95_codings says exactly which coding is reported. The violations are proved: C95_violated_content_length for all pairs of numbers, C95_violated_trace for all values, C95_violated_codings for all unknown codings, C95_violated_hsts by a pair of policies."
  },
  {
   "property": "C96",
   "status": "partial",
   "theorems": [
    "HT.C96_exact",
    "HT.C96_display",
    "HT.C96_reads_back",
    "HT.C96_closed",
    "HT.C96_conforms_partial",
    "HT.C96_print_iff",
    "HT.C96_violated_unclosed",
    "HT.C96_violated_charset",
    "HT.C96_violated_print"
   ],
   "note": "Spec/Whatwg.lean writes the algorithms of the standard over positions, step by step. C96_exact gives the code in terms of its steps for every text; C96_conforms_partial is what agrees, C96_print_iff when the printed form agrees. Missing and proved violated: charset=utf-8 after another charset (C96_violated_charset), its place in the printed form and the second charset (C96_violated_print), quoted values that are not closed (C96_violated_unclosed; C96_closed says which texts have none)."
  },
  {
   "property": "C97",
   "status": "partial",
   "theorems": [
    "HT.C97_cache_partial",
    "HT.C97_violated_quoted_number",
    "HT.C97_violated_large",
    "HT.C97_violated_quoted_comma",
    "HT.C97_hsts_partial",
    "HT.C97_violated_hsts_case",
    "HT.C97_violated_hsts_quoted",
    "HT.C97_violated_hsts_twice"
   ],
   "note": "Proved for lists whose numbers are not quoted and below 2^64 and whose quoted arguments do not contain the separator (and, for HSTS, known names in lower case). Outside of that the code departs from the standards; each departure is proved for all inputs of its kind."
  },
  {
   "property": "C98",
   "status": "partial",
   "theorems": [
    "HT.C98_numbers_partial",
    "HT.C98_violated_sign",
    "HT.C98_violated_large",
    "HT.C98_violated_expect",
    "HT.C98_credentials_partial",
    "HT.C98_violated_spaces",
    "HT.C98_violated_alone",
    "HT.C98_basic_written",
    "HT.C98_challenge_iff_partial",
    "HT.C98_violated_realm",
    "HT.C98_violated_realm_escape",
    "HT.C98_challenge_written_iff"
   ],
   "note": "Grammars of RFC 7230, 7231, 7234, 7235 and 7617 in Spec/Fields.lean. C98_challenge_iff_partial and C98_challenge_written_iff are exact; each departure is proved for all inputs of its kind. Schemes outside of the crate's list are refused and are not part of the specification."
  },
  {
   "property": "C99",
   "status": "partial",
   "theorems": [
    "HT.C99_tags_iff_partial",
    "HT.C99_violated_tag_comma",
    "HT.C99_violated_tag_empty",
    "HT.C99_vary_iff_partial",
    "HT.C99_violated_vary_empty",
    "HT.C99_allow_iff_partial",
    "HT.C99_violated_allow_empty",
    "HT.C99_violated_allow_unknown",
    "HT.C99_violated_allow_case",
    "HT.C99_clear_iff_partial",
    "HT.C99_violated_clear_unknown",
    "HT.C99_origins_iff_partial",
    "HT.C99_violated_null",
    "HT.C99_violated_star_blank"
   ],
   "note": "Listed is the list rule of RFC 7230 with the elements kept apart, empty ones included. Each *_iff_partial theorem says for all such lists exactly when they are read with their meaning and what happens otherwise; each C99_violated_* theorem is for all elements of its kind. For Timing-Allow-Origin the URL parser is a parameter of which only two facts of the URL standard are used."
  },
  {
   "property": "C100",
   "status": "partial",
   "theorems": [
    "HT.C100_metrics_partial",
    "HT.C100_violated_separator",
    "HT.C100_violated_escape",
    "HT.C100_violated_quoted_dur",
    "HT.C100_violated_twice",
    "HT.C100_violated_blank",
    "HT.C100_violated_large",
    "HT.C100_violated_empty"
   ],
   "note": "The grammar is that quoted in parse.rs. C100_metrics_partial: with plain parameters (no separators in quoted values, dur and desc at most once and with no blank after them, no escapes in descriptions, durations unquoted, below 2^23 ms and of at most nine decimals) every list is read with its meaning, exact to the nanosecond through the double-precision reading and the division by 1000; with empty elements exactly what is read instead. The violated theorems are for all names, values and numbers of their kind."
  },
  {
   "property": "C101",
   "status": "partial",
   "theorems": [
    "HT.C101_reads_partial",
    "HT.C101_meaning_partial",
    "HT.C101_violated_case",
    "HT.C101_violated_meet",
    "HT.C101_violated_forms",
    "HT.C101_violated_lines",
    "HT.C101_violated_empty"
   ],
   "note": "The standard value is a tree of elements and pairs with its blanks, and its text; legality and meaning are defined on the tree without reference to the code. C101_reads_partial says for all legal ASCII values exactly which ones are read and as what; C101_meaning_partial exactly when a value is read with its meaning. The violated theorems are for all values of their kind."
  },
  {
   "property": "C102",
   "status": "partial",
   "theorems": [
    "HT.C102_codings_partial",
    "HT.C102_violated_unweighted",
    "HT.C102_violated_zero",
    "HT.C102_violated_star",
    "HT.C102_violated_any",
    "HT.C102_violated_identity",
    "HT.C102_media_partial",
    "HT.C102_violated_specific",
    "HT.C102_violated_charset"
   ],
   "note": "Partial: lists written plainly with even weights (no member weighted, or all, 0 only for the asterisk); ranges whose weights do not fall with specificity, none 0, without charset=utf-8. The rest is violated: C102_violated_unweighted, _zero, _star, _any, _identity, _specific, _charset."
  },
  {
   "property": "C103",
   "status": "partial",
   "theorems": [
    "HT.C103_meant_once",
    "HT.C103_dates_partial",
    "HT.C103_violated_refused",
    "HT.C103_violated_window"
   ],
   "note": "Spec/StdDate.lean. Dates of RFC 7231 with leap seconds, all years of four digits and the moving window of two-digit years, and an integer-valued instant that also counts before 1970. C103_dates_partial: exactly which dates are read as what they mean, in all layouts and headers. Missing: leap seconds and years before 1970 (refused, C103_violated_refused) and two-digit years outside 1970 to 2069 (C103_violated_window: from 2021 on some date in the future is read as past)."
  },
  {
   "property": "C104",
   "status": "partial",
   "theorems": [
    "HT.C104_outermost_partial",
    "HT.C104_violated_skipped",
    "HT.C104_violated_chunked"
   ],
   "note": "Spec/Codings.lean. Lists of codings by RFC 7230 and 7231 over several lines, the outermost coding, x-gzip as gzip. C104_outermost_partial for last lines that are one known coding as spelled in the table; C104_violated_skipped: every other last line is passed over (a panic if alone), so the two together say what is read from any lines; C104_violated_chunked: a chunked body taken for another. Missing: lines with several codings, capitals, unknown codings, x-gzip, empty elements."
  },
  {
   "property": "C105",
   "status": "partial",
   "theorems": [
    "HT.C105_labels",
    "HT.C105_kinds",
    "HT.C105_fields",
    "HT.C105_words",
    "HT.C105_lists_partial",
    "HT.C105_violated_wildcard",
    "HT.C105_one_line"
   ],
   "note": "Model/DebugTyped.lean: the derived and hand-written Debug of typed headers, Duration's Debug of std. C105_fields: equal text iff equal value for headers with fields; C105_lists_partial: equal text iff equal entries; C105_one_line. Missing: the wildcard of the list headers, which is not printed (C105_violated_wildcard)."
  },
  {
   "property": "C106",
   "status": "partial",
   "theorems": [
    "HT.C106_times",
    "HT.C106_retry_partial",
    "HT.C106_retry_laws",
    "HT.C106_violated_retry",
    "HT.C106_proposals_partial",
    "HT.C106_violated_proposals"
   ],
   "note": "Spec/Compare.lean: the laws std asks of == and partial_cmp; Model/Compare.lean. C106_times, C106_retry_laws; C106_retry_partial and C106_proposals_partial. Missing: a delay against a date (C106_violated_retry), proposals of different things or without weight (C106_violated_proposals)."
  },
  {
   "property": "C107",
   "status": "partial",
   "theorems": [
    "HT.C107_policy_partial",
    "HT.C107_default",
    "HT.C107_violated_default",
    "HT.C107_violated_again",
    "HT.C107_violated_report_to",
    "HT.C107_violated_separator"
   ],
   "note": "The browser's side is `Spec/CspStd.lean`, the two parsing algorithms of Content Security Policy Level 3 (2.2.1, 2.2.2) with white space splitting of Infra, independent of the model. `C107_policy_partial` goes from calls on a new policy to the directive set read, over every order of the hash map. `C107_default` characterises what is read of the default policy with further calls. Four `_violated` theorems give what is read when a script source is added to the default, when a source is added after applying, when endpoints are reported to (their JSON text is a parameter; it has commas because the structure has several fields), and when a source has a semicolon."
  },
  {
   "property": "C108",
   "status": "partial",
   "theorems": [
    "HT.C108_tags_iff_partial",
    "HT.C108_violated_tags_star",
    "HT.C108_vary_iff_partial",
    "HT.C108_violated_vary_star",
    "HT.C108_cache",
    "HT.C108_cache_iff_partial",
    "HT.C108_violated_s_maxage",
    "HT.C108_hsts",
    "HT.C108_allow",
    "HT.C108_clear_iff_partial",
    "HT.C108_origins_partial",
    "HT.C108_violated_origin",
    "HT.C108_violated_origin_comma"
   ],
   "note": "Readers are relations between a value and its meaning (Spec/Written.lean on top of Spec/Listed.lean and Spec/Directives.lean: list elements with optional white space and empty elements, quoted strings, directives, the timing allow check of Fetch), independent of how values are written. `OnlyAs` says that a value has the given meaning and no other. Proved with a general lemma that elements whose end can be told from their text cut a value in one way only. C108_hsts, C108_allow and C108_cache hold for everything; C108_tags_iff_partial, C108_vary_iff_partial, C108_clear_iff_partial, C108_cache_iff_partial say exactly when what is read is what was put in. Missing: wildcards after entries (C108_violated_tags_star, C108_violated_vary_star), empty lists, s-maxage (C108_violated_s_maxage), origins (C108_violated_origin, C108_violated_origin_comma; URL texts are a parameter)."
  },
  {
   "property": "C109",
   "status": "partial",
   "theorems": [
    "HT.C109_codings",
    "HT.C109_accept_partial",
    "HT.C109_violated_accept_star",
    "HT.C109_violated_q",
    "HT.C109_coding"
   ],
   "note": "Readers are relations (Spec/WrittenPrefs.lean on Listed, Pref, MediaPref, CodingLines). `Bal`: texts with commas in quoted strings only end at the first comma outside of them, so that a value splits into elements in one way (`listed_alone`); the meaning of an element is unique (`pref_one`, `alone_range` by the media type parser of C96). `C109_codings` and `C109_coding` are complete. TE has no wildcard in the standard: the asterisk is read as the name of an unknown coding there, which is harmless. `C109_accept_partial` leaves out the wildcard and own parameters `q`: `C109_violated_accept_star`, `C109_violated_q` show what others read then. `WeightOk`: the weight is a finite number from 0 to 1, as `new` and `from_str` guarantee (C40)."
  },
  {
   "property": "C110",
   "status": "partial",
   "theorems": [
    "HT.C110_numbers",
    "HT.C110_dates",
    "HT.C110_retry",
    "HT.C110_credentials_read",
    "HT.C110_credentials_iff_partial",
    "HT.C110_violated_credentials",
    "HT.C110_basic_read",
    "HT.C110_basic_iff_partial",
    "HT.C110_violated_colon"
   ],
   "note": "Readers are relations (Spec/WrittenFields.lean): `DateAs now` allows all three layouts of RFC 7231, leap seconds and two-digit years relative to the time of reading; `CredentialsText` is the grammar of RFC 7235 with token68 or parameters, `BasicText` adds RFC 7617. `C110_numbers`, `C110_dates`, `C110_retry` are complete; `C110_credentials_read` and `C110_basic_read` characterise all readings of all values, of which the `_iff_partial` theorems say when they are what was put in; `C110_violated_credentials`, `C110_violated_colon`: what others read otherwise. Times before 1970 and after 9999 are not written (C26)."
  },
  {
   "property": "C111",
   "status": "partial",
   "theorems": [
    "HT.C111_metrics_iff_partial",
    "HT.C111_durations",
    "HT.C111_violated_metric",
    "HT.C111_violated_name",
    "HT.C111_violated_escape"
   ],
   "note": "Readers are relations (Spec/WrittenTimings.lean): `MetricText` is the grammar quoted in parse.rs, with durations read as the nearest double (in units of 2^-1074 ms) and the first parameter of each name counting; `AnyListed` is `#element`. `C111_metrics_iff_partial` characterises exactly which lists of metrics are read as what was put in, and as nothing else; `CloseTo` bounds the four roundings from the duration to what is read; `C111_durations` says that this tells durations apart. `C111_violated_metric`, `C111_violated_name`, `C111_violated_escape`: what others read otherwise."
  },
  {
   "property": "C112",
   "status": "partial",
   "theorems": [
    "HT.C112_one",
    "HT.C112_chain_iff_partial",
    "HT.C112_violated_port",
    "HT.C112_violated_empty",
    "HT.C112_violated_inject"
   ],
   "note": "Full characterisation of when the written value has exactly one reading by RFC 7239, the right one (C112_chain_iff_partial), over all grammatical readings; any value has at most one reading (C112_one). Violations: a host with a port, an empty for value, and injection of addresses through the host. Text is modelled as characters; non-ASCII text is C04."
  },
  {
   "property": "C113",
   "status": "partial",
   "theorems": [
    "HT.C113_one",
    "HT.C113_read",
    "HT.C113_challenge_iff_partial",
    "HT.C113_violated_inject",
    "HT.C113_violated_backslash"
   ],
   "note": "Full characterisation of when the written value has exactly one reading by RFC 7235, the right one (C113_challenge_iff_partial), over the whole grammar 1#challenge with token68, parameters and empty elements; any value has at most one reading (C113_one); what is written is read with escapes taken away (C113_read). Violations: injected challenges and a backslash at the end."
  },
  {
   "property": "C114",
   "status": "partial",
   "theorems": [
    "HT.C114_tags_iff_partial",
    "HT.C114_star",
    "HT.C114_vary",
    "HT.C114_allow_iff_partial",
    "HT.C114_clear_iff_partial",
    "HT.C114_cache",
    "HT.C114_cache_iff_partial",
    "HT.C114_hsts_partial",
    "HT.C114_numbers_partial",
    "HT.C114_dates_iff_partial",
    "HT.C114_credentials",
    "HT.C114_basic_iff_partial",
    "HT.C114_chain_iff_partial",
    "HT.C114_chain_grown_iff_partial",
    "HT.C114_challenge_iff_partial",
    "HT.C114_codings_iff_partial",
    "HT.C114_violated_codings",
    "HT.C114_coding_iff_partial",
    "HT.C114_violated_s_maxage",
    "HT.C114_violated_params",
    "HT.C114_violated_port",
    "HT.C114_accept_iff_partial",
    "HT.C114_violated_charset",
    "HT.C114_timings_partial"
   ],
   "note": "Composition of reading by the standards (C94, C97-C99, C101, C103, C104) with writing as others read it (C108-C113): exact conditions for tags, methods, clear-site-data, plain cache directives, dates, coding preferences, body codings, Basic, challenges, media ranges and Forwarded (also with an address added); unconditional for Vary, the wildcard, credentials and plain metrics. Violations: s-maxage, several codings, challenge parameters, two charsets, port in host."
  },
  {
   "property": "C115",
   "status": "partial",
   "theorems": [
    "HT.C115_codings_partial",
    "HT.C115_nearly_partial",
    "HT.C115_violated_rounding",
    "HT.C115_media_partial",
    "HT.C115_violated_no_weight"
   ],
   "note": "The whole exchange (write preferences, read, negotiate, write the choice, read) is composed from the models of each step and its outcome characterised for all headers and lists: codings and transfer codings (C115_codings_partial), media types (C115_media_partial), and a bound of one thousandth for arbitrary weights (C115_nearly_partial). Violations: weights closer than a thousandth, missing weights of media types."
  },
  {
   "property": "C116",
   "status": "partial",
   "theorems": [
    "HT.C116_headers_partial",
    "HT.C116_request_partial",
    "HT.C116_response_partial",
    "HT.C116_our_request_partial",
    "HT.C116_our_response_partial",
    "HT.C116_violated_content_type"
   ],
   "note": "Both conversions are composed; the headers that come out are given by one equation per name (Through) and are the ones that went in exactly under the condition GetsThrough. All four directions (C116_request_partial, C116_response_partial, C116_our_request_partial, C116_our_response_partial) and the bare collection (C116_headers_partial). Violations: several values, content type of the body (C116_violated_content_type)."
  },
  {
   "property": "C117",
   "status": "partial",
   "theorems": [
    "HT.C117_remote",
    "HT.C117_host",
    "HT.C117_client_iff_partial",
    "HT.C117_chain",
    "HT.C117_address_iff",
    "HT.C117_violated_two",
    "HT.C117_violated_host",
    "HT.C117_violated_attack"
   ],
   "note": "Proved: every chain of proxies hands on all addresses (C117_chain, C117_address_iff), exactly what remote() and host() give for a written header without semicolons in addresses (C117_remote, C117_host), and that remote() is the client exactly for one address that is a token. Violated for two or more addresses, and by addresses with `;host=`, which a client can smuggle in through X-Forwarded-For."
  },
  {
   "property": "C118",
   "status": "partial",
   "theorems": [
    "HT.C118_learn",
    "HT.C118_tags_partial",
    "HT.C118_violated_comma",
    "HT.C118_dates",
    "HT.C118_dates_exact_partial",
    "HT.C118_violated_fraction"
   ],
   "note": "Proved: exactly what the server reads for every list of tags and every time that a client sends back (C118_learn, C118_tags_partial, C118_dates, C118_dates_exact_partial). Violated by tags with a comma (status 400) and by times with a fraction of a second (come back earlier)."
  },
  {
   "property": "C119",
   "status": "proved",
   "theorems": [
    "HT.C119_trace",
    "HT.C119_valid"
   ],
   "note": "Proved for chains of any length; validity by the recommendation included."
  },
  {
   "property": "C120",
   "status": "proved",
   "theorems": [
    "HT.C120_take",
    "HT.C120_send",
    "HT.C120_pipeline",
    "HT.C120_bytes",
    "HT.C120_short"
   ],
   "note": "Proved for any number of messages, any readers and read schedules; C120_short says what happens when a body states more than it has."
  },
  {
   "property": "C121",
   "status": "partial",
   "theorems": [
    "HT.C121_tags_partial",
    "HT.C121_vary_partial",
    "HT.C121_clear_partial",
    "HT.C121_origins_partial",
    "HT.C121_allow",
    "HT.C121_vary_pushes",
    "HT.C121_tags_pushes",
    "HT.C121_cache_partial",
    "HT.C121_timings_partial",
    "HT.C121_codings",
    "HT.C121_media_partial",
    "HT.C121_violated_s_maxage",
    "HT.C121_violated_empty"
   ],
   "note": "Proved for any number of layers and any changes that leave members which survive being written once (the conditions of C31, C32, C34, C35, C41, C44, C52 and C57). Violated for s-maxage and for lists left empty."
  },
  {
   "property": "C122",
   "status": "partial",
   "theorems": [
    "HT.C122_lists",
    "HT.C122_allow",
    "HT.C122_cache",
    "HT.C122_origins",
    "HT.C122_codings",
    "HT.C122_metrics",
    "HT.C122_media_partial",
    "HT.C122_violated_media",
    "HT.C122_media_headers_partial",
    "HT.C122_forwarded",
    "HT.C122_x_forwarded",
    "HT.C122_credentials",
    "HT.C122_relay"
   ],
   "note": "Bounds proved on numbers and lengths in characters for every reader of lists, forwarding information, credentials and media types. For media types the bound of one is violated (C122_violated_media gives texts of every length held almost twice); the factor two is proved for all texts and the factor one for texts without a quote or of the WHATWG form. The size of URLs is a parameter of the theorem on origins."
  },
  {
   "property": "C123",
   "status": "partial",
   "theorems": [
    "HT.C123_only_needed",
    "HT.C123_chain_only_needed",
    "HT.C123_end_is_ready",
    "HT.C123_declared_ends",
    "HT.C123_ends",
    "HT.C123_violated_truncated",
    "HT.C123_complete_partial"
   ],
   "note": "The polls a body makes of its reader are observed with a reader that records the sizes it is polled with (Spec/Progress.lean). Violated for bodies that end early (C123_violated_truncated, for every shorter text); the partial theorem says when the bytes read are as many as declared."
  },
  {
   "property": "C124",
   "status": "partial",
   "theorems": [
    "HT.C124_request",
    "HT.C124_response",
    "HT.C124_one_line",
    "HT.C124_violated_credentials",
    "HT.C124_names",
    "HT.C124_labels"
   ],
   "note": "Model/DebugWhole.lean adds the derived Debug of Request, Response, Version and Trailers (plain form only). `Debug for Url` is a parameter, assumed to tell the URL and its end (for C124_request) or to be one line (for C124_one_line); the Debug of async_channel ends is the fixed text of async-channel 1.x. Violated for secrets outside bodies: C124_violated_credentials."
  },
  {
   "property": "C125",
   "status": "partial",
   "theorems": [
    "HT.C125_reads_partial",
    "HT.C125_violated_attribute",
    "HT.C125_ascii_partial",
    "HT.C125_appended"
   ],
   "note": "Model/Cookie.lean: `From<Cookie> for HeaderValue`; of the cookie crate only `Display` is used (name=value, then `; ` and the text of each attribute), with the attributes as texts. The browser is an independent specification (Spec/Cookie.lean). Violated for texts with semicolons: C125_violated_attribute."
  },
  {
   "property": "C126",
   "status": "partial",
   "theorems": [
    "HT.C126_asked",
    "HT.C126_told",
    "HT.C126_other_scheme",
    "HT.C126_login",
    "HT.C126_realm_iff_partial",
    "HT.C126_user_iff_partial",
    "HT.C126_same_iff",
    "HT.C126_distinct_partial",
    "HT.C126_violated_colon",
    "HT.C126_violated_realm"
   ],
   "note": "Composes the model of WWW-Authenticate, Authorization and Basic credentials; the client (it answers Basic challenges with what it has for the realm it read) is part of the specification, Spec/Login.lean. Violated for realms with a quote and users with a colon, proved exactly for the others."
  },
  {
   "property": "C127",
   "status": "partial",
   "theorems": [
    "HT.C127_lines",
    "HT.C127_reuse_iff_partial",
    "HT.C127_nothing",
    "HT.C127_right_iff_partial",
    "HT.C127_typed",
    "HT.C127_violated_comma",
    "HT.C127_violated_space"
   ],
   "note": "Composes the model of Vary and of header lookups; the server (any function of the fields it names) and the cache are part of the specification, Spec/Reuse.lean. Violated for names with a comma or outer white space, proved exactly for the others."
  },
  {
   "property": "C128",
   "status": "partial",
   "theorems": [
    "HT.C128_age_partial",
    "HT.C128_short",
    "HT.C128_used_partial",
    "HT.C128_no_lifetime",
    "HT.C128_violated_parts",
    "HT.C128_violated_shared"
   ],
   "note": "Composes the model of Age and Cache-Control; the caches (each adds the time it kept the answer) are part of the specification, Spec/Fresh.lean. Violated for parts of seconds and for s-maxage; sums of ages up to 2^53 seconds."
  },
  {
   "property": "C129",
   "status": "partial",
   "theorems": [
    "HT.C129_lets",
    "HT.C129_nothing_lost",
    "HT.C129_one_wins",
    "HT.C129_can_change_partial",
    "HT.C129_violated_comma"
   ],
   "note": "Composes the models of ETag and If-Match over any execution; the server, its clients and the log of accepted changes are part of the specification, Spec/Updates.lean. Safety is proved for every execution and is an equivalence (C129_nothing_lost, C129_one_wins). That a client can change what it has just read is violated for tags with a comma and proved exactly for which tags it holds."
  },
  {
   "property": "C130",
   "status": "partial",
   "theorems": [
    "HT.C130_unchanged_iff_partial",
    "HT.C130_always_right",
    "HT.C130_not_again_partial",
    "HT.C130_violated_comma"
   ],
   "note": "Composes the models of ETag and If-None-Match over any execution; the server and the client's store are part of the specification, Spec/Revalidate.lean. That the client shows the present document is proved for every execution and is an equivalence (C130_always_right). That documents are not sent again is violated once a tag with a comma is kept, and proved for the others."
  },
  {
   "property": "C131",
   "status": "partial",
   "theorems": [
    "HT.C131_back_partial",
    "HT.C131_never_early_iff_partial",
    "HT.C131_within_partial",
    "HT.C131_violated_fraction",
    "HT.C131_violated_panic"
   ],
   "note": "Composes the models of Retry-After and of the clock arithmetic; the exchange is part of the specification, Spec/Wait.lean. When the client is back is given exactly for all clocks (C131_back_partial), and that it is never early is an equivalence (C131_never_early_iff_partial). Violated for fractions of seconds and beyond the end of time."
  },
  {
   "property": "C132",
   "status": "partial",
   "theorems": [
    "HT.C132_only_asked",
    "HT.C132_own_host",
    "HT.C132_secures_iff_partial",
    "HT.C132_violated_subdomains"
   ],
   "note": "Composes the model of Strict-Transport-Security over any sequence of responses; the store of the client is part of the specification, Spec/Browser.lean. For which policies the client is right is an equivalence (C132_secures_iff_partial); that it makes no other requests secure is proved for all. Violated for every policy for the subdomains."
  },
  {
   "property": "C133",
   "status": "proved",
   "theorems": [
    "HT.C133_any",
    "HT.C133_exactly",
    "HT.C133_by_second",
    "HT.C133_unchanged_exactly",
    "HT.C133_unchanged_by_second",
    "HT.C133_has",
    "HT.C133_no_comparison"
   ],
   "note": "Composes the models of the three date headers and of the comparison of times over any execution; server and clients are part of the specification, Spec/Since.lean. All parts are equivalences or equations."
  },
  {
   "property": "C134",
   "status": "partial",
   "theorems": [
    "HT.C134_one_coding_iff_partial",
    "HT.C134_every_coding",
    "HT.C134_violated_layers"
   ],
   "note": "Composes the models of the two coding headers and of the header collection over any number of layers; the codings are any functions that can be undone, and the layers and clients are part of the specification, Spec/Coded.lean. For which layers the body arrives is an equivalence (C134_one_coding_iff_partial)."
  },
  {
   "property": "C135",
   "status": "partial",
   "theorems": [
    "HT.C135_never_stuck_iff",
    "HT.C135_bound",
    "HT.C135_asked_partial",
    "HT.C135_refused",
    "HT.C135_not_waiting",
    "HT.C135_violated_letter_case"
   ],
   "note": "Composes the model of Expect with a specification of client and server as two parties on two lines that keep order, Spec/Handshake.lean; deadlock is characterised by an equivalence, the number of steps is bounded and the end is the same in every order."
  },
  {
   "property": "C136",
   "status": "partial",
   "theorems": [
    "HT.C136_kept_partial",
    "HT.C136_violated_unknown",
    "HT.C136_written_partial"
   ],
   "note": "Composes the model of Clear-Site-Data with a specification of a browser over any history, Spec/Clearing.lean; when reading panics is an equivalence."
  },
  {
   "property": "C137",
   "status": "partial",
   "theorems": [
    "HT.C137_json",
    "HT.C137_distinct",
    "HT.C137_one_line",
    "HT.C137_ascii_iff",
    "HT.C137_panics_iff",
    "HT.C137_violated_never",
    "HT.C137_violated_cut",
    "HT.C137_grammar",
    "HT.C137_object_iff",
    "HT.C137_array_iff",
    "HT.C137_back"
   ],
   "note": "The derives for report groups are modelled as they expand, Model/Json.lean and Model/JsonRead.lean; JSON itself is an RFC 8259 reader in Spec/Json.lean, which also stands for the reading that serde_json does and is exact for the grammar (C141_grammar_iff)."
  },
  {
   "property": "C138",
   "status": "proved",
   "theorems": [
    "HT.C138_reads_iff",
    "HT.C138_prints_iff",
    "HT.C138_back",
    "HT.C138_entries",
    "HT.C138_same_iff",
    "HT.C138_passed_on",
    "HT.C138_length",
    "HT.C138_bounded",
    "HT.C138_ascii"
   ],
   "note": "The parser and printer of std are modelled from core::net (Rust 1.80), the rest from src/proxies/forwarded.rs."
  },
  {
   "property": "C139",
   "status": "proved",
   "theorems": [
    "HT.C139_reads_iff",
    "HT.C139_written",
    "HT.C139_back",
    "HT.C139_distinct",
    "HT.C139_chars",
    "HT.C139_as_is",
    "HT.C139_joined",
    "HT.C139_map",
    "HT.C139_map_back",
    "HT.C139_request"
   ],
   "note": "serde_urlencoded is modelled for pairs of strings and maps of strings; what from_utf8_lossy puts for bytes that are no UTF-8 is a parameter, and forms of other types are not modelled (see C64)."
  },
  {
   "property": "C140",
   "status": "partial",
   "theorems": [
    "HT.C140_changing_partial",
    "HT.C140_finds_partial",
    "HT.C140_violated_nothing",
    "HT.C140_fails_iff_partial"
   ],
   "note": "Violated for a resource that takes no method: the empty Allow is not read (C44); the rest is proved for resources that always take some."
  },
  {
   "property": "C141",
   "status": "partial",
   "theorems": [
    "HT.C141_grammar_iff",
    "HT.C141_one_meaning",
    "HT.C141_written",
    "HT.C141_any_text_iff_partial",
    "HT.C141_escaped",
    "HT.C141_order",
    "HT.C141_holds",
    "HT.C141_only",
    "HT.C141_body",
    "HT.C141_response_partial",
    "HT.C141_text",
    "HT.C141_distinct",
    "HT.C141_line",
    "HT.C141_back_iff_partial",
    "HT.C141_passed_on",
    "HT.C141_last",
    "HT.C141_request_partial",
    "HT.C141_violated_deep"
   ],
   "note": "serde_json is modelled for its type Value with integers only: what it keeps as floats (fractions, exponents, the negative zero, integers outside of 64 bits) is left out; objects are sorted maps as without the feature preserve_order. Spec/JsonGrammar.lean is the grammar as a relation; C141_grammar_iff shows the reader exact for it. Other types than Value are C64 with the decoder as a parameter."
  },
  {
   "property": "C142",
   "status": "partial",
   "theorems": [
    "HT.C142_hops_partial",
    "HT.C142_same_iff_partial",
    "HT.C142_settles",
    "HT.C142_violated_no_body",
    "HT.C142_text"
   ],
   "note": "The gateway is a program written against the modelled API; histories that leave a header without values (see C05) are left out."
  },
  {
   "property": "C143",
   "status": "partial",
   "theorems": [
    "HT.C143_by_clock",
    "HT.C143_by_age_partial",
    "HT.C143_violated_parts",
    "HT.C143_expired",
    "HT.C143_unreadable"
   ],
   "note": "Composes the models of Date, Expires and Age; the caches are part of the specification, Spec/Expiry.lean. Violated for the lifetime between two dates that are cut to the second, by less than a second."
  },
  {
   "property": "C144",
   "status": "proved",
   "theorems": [
    "HT.C144_delivered",
    "HT.C144_nothing",
    "HT.C144_waits",
    "HT.C144_crash",
    "HT.C144_once"
   ],
   "note": "Composes the channel model of C13 along a line of messages; the gateways are programs of the specification, Spec/Hops.lean: one poll of a gateway receives and, if something came, sends on at once, which the empty channel always allows. Each message stays with its ends taken; messages are not dropped or cloned while trailers pass (C13 allows that)."
  },
  {
   "property": "C145",
   "status": "partial",
   "theorems": [
    "HT.C145_response_partial",
    "HT.C145_request_partial",
    "HT.C145_same_iff",
    "HT.C145_request_same_iff",
    "HT.C145_violated_twice",
    "HT.C145_json_partial",
    "HT.C145_settles",
    "HT.C145_request_settles",
    "HT.C145_violated_lost"
   ],
   "note": "Built on the models of both conversions (C60, C67, C68); which names the crate takes is a parameter, as are its parser and printer of targets (C145_request_partial asks that it gives back the target at hand). C145_same_iff says exactly which headers come back. Extensions, trailers and addresses do not take part in the conversions."
  }
 ]
}