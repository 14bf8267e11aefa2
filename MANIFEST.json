{
 "claims": [
  {
   "property": "C01",
   "status": "proved",
   "theorems": [
    "J8a.C01_longest_match",
    "J8a.C01_configured",
    "J8a.C01_order_independent"
   ],
   "note": "any sorted permutation, any regexp engine; order independence for literal routes under the literal-prefix law"
  },
  {
   "property": "C02",
   "status": "proved",
   "theorems": [
    "J8a.C02_unrouted",
    "J8a.C02_own_404"
   ],
   "note": "every schedule; the converse is for 404 responses without upstream call, an upstream's own 404 is passed on as JSON (C36)"
  },
  {
   "property": "C03",
   "status": "partial",
   "theorems": [
    "J8a.C03_violated",
    "J8a.C03_violated_boot",
    "J8a.C03_partial"
   ],
   "note": "violated by the code: the expression is compiled before the slash is added (C03_violated for every engine and every slashless literal path, C03_violated_boot end to end); C03_partial: exact matching set of every booted literal route"
  },
  {
   "property": "C04",
   "status": "proved",
   "theorems": [
    "J8a.C04_interval",
    "J8a.C04_exact_share",
    "J8a.C04_zero_weight_never"
   ],
   "note": "IEEE-754 addition modelled; exact length when sums need no rounding, otherwise within one rounding of the running sum"
  },
  {
   "property": "C05",
   "status": "partial",
   "theorems": [
    "J8a.C05_violated",
    "J8a.C05_partial",
    "J8a.C05_exact_partial"
   ],
   "note": "violated by float64 rounding (ten weights of 0.1); proved for the computed sum and for exactly representable sums"
  },
  {
   "property": "C06",
   "status": "partial",
   "theorems": [
    "J8a.SortRace.C06_partial",
    "J8a.SortRace.C06_violated",
    "J8a.SortRace.C06_violated_forever",
    "J8a.SortRace.C06_violated_steady",
    "J8a.SortRace.C06_sequential",
    "J8a.SortRace.C06_warm_partial",
    "J8a.SortRace.C06_serial_partial"
   ],
   "note": "violated: two overlapping first resolutions of an unsorted policy lose a label for good (C06_violated), and with more than 12 labels overlapping resolutions do so even when the policy is sorted already, because quicksort moves the median and puts it back (C06_violated_steady). Proved: with at most 12 labels a sorted policy is never written under any schedule; resolutions that do not overlap keep the labels of a policy of any length. The whole of Go 1.15's sort.Sort is modelled"
  },
  {
   "property": "C07",
   "status": "proved",
   "theorems": [
    "J8a.C07_mapped_sound",
    "J8a.C07_not_mapped_iff"
   ],
   "note": "mapURL soundness and exact failure condition; 503 in the handler is C02/C07 of Props/Handler"
  },
  {
   "property": "C08",
   "status": "proved",
   "theorems": [
    "J8a.C08_transform",
    "J8a.C08_booted"
   ],
   "note": ""
  },
  {
   "property": "C09",
   "status": "partial",
   "theorems": [
    "J8a.C09_violated",
    "J8a.C09_partial",
    "J8a.C09_root_transform_partial"
   ],
   "note": "violated for transform / (client chooses the host); proved for every other transform and, for /, the exact safe remainders"
  },
  {
   "property": "C10",
   "status": "proved",
   "theorems": [
    "J8a.C10_downstream_defaults",
    "J8a.C10_upstream_defaults",
    "J8a.C10_defaults_idempotent",
    "J8a.C10_boot_connection"
   ],
   "note": ""
  },
  {
   "property": "C11",
   "status": "proved",
   "theorems": [
    "J8a.C11_scheme",
    "J8a.C11_idempotent",
    "J8a.C11_boot_resources"
   ],
   "note": ""
  },
  {
   "property": "C12",
   "status": "proved",
   "theorems": [
    "J8a.C12_default_policy"
   ],
   "note": "a configured policy named default is overwritten"
  },
  {
   "property": "C13",
   "status": "proved",
   "theorems": [
    "J8a.C13_boot_sound",
    "J8a.C13_boot_refused"
   ],
   "note": ""
  },
  {
   "property": "C14",
   "status": "proved",
   "theorems": [
    "J8a.C14_verified_key",
    "J8a.C14_booted"
   ],
   "note": "every schedule; C14_booted: for a booted gateway after any history of key refreshes the algorithm is none or the token is verified"
  },
  {
   "property": "C15",
   "status": "partial",
   "theorems": [
    "J8a.C15_rejected_partial",
    "J8a.C15_malformed_crashes",
    "J8a.C15_violated"
   ],
   "note": "violated: a token that the library cannot parse makes the handler panic, so the client gets no response (C15_violated; C15_malformed_crashes shows that this is what always happens for such tokens); proved for all other missing, unverified and outdated tokens, every schedule; date claims as computed by the code, related to RFC 7519 in C18"
  },
  {
   "property": "C16",
   "status": "partial",
   "theorems": [
    "J8a.C16_violated",
    "J8a.C16_scheme_token_partial",
    "J8a.C16_bearer_taken_partial"
   ],
   "note": "violated: any scheme is accepted (C16_violated); proved: the token checked is the second space separated field, and every proper Bearer header is taken apart as intended"
  },
  {
   "property": "C17",
   "status": "proved",
   "theorems": [
    "J8a.C17_some_key"
   ],
   "note": "any key set, any kid, any verification function"
  },
  {
   "property": "C18",
   "status": "partial",
   "theorems": [
    "J8a.C18_violated",
    "J8a.C18_violated_overflow",
    "J8a.C18_violated_epoch",
    "J8a.C18_date_claims_partial"
   ],
   "note": "violated for skews above a thousandth of the current Unix time (claims are then left unadjusted), by int64 overflow, and, if the library takes Unix second 0 for absent, for exp = 0, which then never expires; proved as an equivalence otherwise. Whether nbf is compared strictly and whether second 0 counts as absent are parameters"
  },
  {
   "property": "C19",
   "status": "partial",
   "theorems": [
    "J8a.C19_violated",
    "J8a.C19_monotone_partial",
    "J8a.C19_exp_monotone_partial"
   ],
   "note": "violated for skews above a thousandth of the current Unix time; proved below, and for exp up to the overflow"
  },
  {
   "property": "C20",
   "status": "partial",
   "theorems": [
    "J8a.C20_violated",
    "J8a.C20_violated_refresh",
    "J8a.C20_new_kid_partial",
    "J8a.C20_find_after_upsert_partial"
   ],
   "note": "violated: Upsert updates a copy, the old key stays in use (also end to end through LoadJwks); proved for new kids, and the exact value of every lookup after an upsert"
  },
  {
   "property": "C21",
   "status": "proved",
   "theorems": [
    "J8a.C21_any_schedule",
    "J8a.C21_never_forgets"
   ],
   "note": "every history of documents and failures that does not crash (C24)"
  },
  {
   "property": "C22",
   "status": "proved",
   "theorems": [
    "J8a.C22_one_fetch",
    "J8a.C22_ten_seconds",
    "J8a.C22_log_faithful"
   ],
   "note": "Timed machine of the refresh gate: any schedule of requests and fetches, any clock readings. Clock readings are assumed monotone only where stated."
  },
  {
   "property": "C23",
   "status": "proved",
   "theorems": [
    "J8a.C23_only_configured_alg",
    "J8a.C23_no_remote_secrets",
    "J8a.C23_foreign_alg_rejected"
   ],
   "note": ""
  },
  {
   "property": "C24",
   "status": "partial",
   "theorems": [
    "J8a.C24_violated",
    "J8a.C24_returns_partial"
   ],
   "note": "violated: an entry announced with the configured EC algorithm that is not an EC key crashes the process; proved for all other documents"
  },
  {
   "property": "C25",
   "status": "proved",
   "theorems": [
    "J8a.C25_validate_sound",
    "J8a.C25_skew_is_a_number"
   ],
   "note": "arbitrary pem/x509 parsers and JWKS fetch results"
  },
  {
   "property": "C26",
   "status": "proved",
   "theorems": [
    "J8a.C26_rsa",
    "J8a.C26_ec",
    "J8a.C26_rejected_stores_nothing",
    "J8a.C26_rsa_accepts",
    "J8a.C26_ec_accepts"
   ],
   "note": "arbitrary pem/x509 parsers; a certificate block that does not parse crashes the boot instead of being reported"
  },
  {
   "property": "C27",
   "status": "partial",
   "theorems": [
    "J8a.C27_always_checked_partial",
    "J8a.C27_violated_about"
   ],
   "note": "violated: the mux hands about routes to the about handler, which checks no token (C27_violated_about); proved for the proxy handler, every schedule"
  },
  {
   "property": "C28",
   "status": "proved",
   "theorems": [
    "J8a.C28_body_bounded"
   ],
   "note": "every schedule, chunking and buffer size, also for negative limits"
  },
  {
   "property": "C29",
   "status": "partial",
   "theorems": [
    "J8a.C29_violated",
    "J8a.C29_declared_partial",
    "J8a.C29_complete_partial",
    "J8a.C29_nothing_forwarded_partial"
   ],
   "note": "violated: a chunked body over the limit is dropped and the request forwarded without it; proved for declared lengths, and no byte of such a body is forwarded"
  },
  {
   "property": "C30",
   "status": "proved",
   "theorems": [
    "J8a.C30_forwarded_exactly",
    "J8a.C30_accepted",
    "J8a.C30_at_limit"
   ],
   "note": "every schedule; C30_at_limit shows that a declared length equal to the limit is refused with 413 while a chunked one is forwarded"
  },
  {
   "property": "C31",
   "status": "partial",
   "theorems": [
    "J8a.C31_violated",
    "J8a.C31_no_fragment_partial",
    "J8a.C31_failed_read_partial"
   ],
   "note": "violated: after a failed read the request is forwarded with an empty body; proved: never a fragment"
  },
  {
   "property": "C32",
   "status": "proved",
   "theorems": [
    "J8a.C32_request_id"
   ],
   "note": "every schedule"
  },
  {
   "property": "C33",
   "status": "proved",
   "theorems": [
    "J8a.C33_illegal",
    "J8a.C33_own_400",
    "J8a.C33_upstream_method"
   ],
   "note": "every schedule; upper-casing is ASCII"
  },
  {
   "property": "C34",
   "status": "proved",
   "theorems": [
    "J8a.C34_headers",
    "J8a.C34_any_case",
    "J8a.C34_order_irrelevant"
   ],
   "note": "every schedule; for header maps as net/http parses them (canonical distinct names)"
  },
  {
   "property": "C35",
   "status": "partial",
   "theorems": [
    "J8a.C35_violated",
    "J8a.C35_partial"
   ],
   "note": "violated: a late status write of an abandoned attempt puts its 503 on the next attempt's response (C35_violated); proved for every execution without late writes, which covers all single-attempt requests and all executions in which no read timer fires (C50_covered_*)"
  },
  {
   "property": "C36",
   "status": "partial",
   "theorems": [
    "J8a.C36_own_headers_partial",
    "J8a.C36_partial",
    "J8a.C36_status_partial",
    "J8a.C36_violated"
   ],
   "note": "Violated by a late write of the status of an abandoned attempt (C36_violated). Proved for executions without late writes, which include all with one attempt and all in which no read timer fires (C50_covered_*). C36_own_headers_partial holds for every schedule."
  },
  {
   "property": "C37",
   "status": "partial",
   "theorems": [
    "J8a.C37_partial",
    "J8a.C37_every_schedule_partial",
    "J8a.C37_violated"
   ],
   "note": "Violated by a late write of the response of an abandoned attempt (C37_violated). Proved for executions without late writes. For every schedule: the status is that of a received response, the headers are those of one received response, the body is that of the last attempt (C37_every_schedule_partial)."
  },
  {
   "property": "C38",
   "status": "partial",
   "theorems": [
    "J8a.C38_partial",
    "J8a.C38_violated"
   ],
   "note": "Violated when the client names gzip and the upstream body has another coding (C38_violated). Proved without late writes for truthful upstreams with at most one coding, which is gzip or none if the client names gzip, and a lossless codec (a hypothesis about compress/gzip)."
  },
  {
   "property": "C39",
   "status": "partial",
   "theorems": [
    "J8a.C39_partial",
    "J8a.C39_violated",
    "J8a.C39_violated_witness"
   ],
   "note": "Violated for every own response to a client that names gzip (C39_violated, for all inputs, with a witness). Proved for all other clients."
  },
  {
   "property": "C40",
   "status": "partial",
   "theorems": [
    "J8a.C40_partial",
    "J8a.C40_orderly_partial",
    "J8a.C40_violated"
   ],
   "note": "Violated for the method head in lower case (C40_violated). Proved for every schedule and every other method if a 304 response has no body; C40_orderly_partial reduces that hypothesis to one about the upstream."
  },
  {
   "property": "C41",
   "status": "partial",
   "theorems": [
    "J8a.C41_every_schedule_partial",
    "J8a.C41_partial",
    "J8a.C41_violated"
   ],
   "note": "Violated by a late write (C41_violated). Proved without late writes; for every schedule the value is 0 or a number declared by a received response."
  },
  {
   "property": "C42",
   "status": "proved",
   "theorems": [
    "J8a.C42_identity_headers"
   ],
   "note": "Every schedule. The HSTS part is stated as the exact list of values, from which the property follows."
  },
  {
   "property": "C43",
   "status": "proved",
   "theorems": [
    "J8a.C43_own_bodies",
    "J8a.C43_message"
   ],
   "note": "Every schedule. Own responses are those without Content-Length (own_iff). The JSON and UTF-8 readers are written independently of the writers in Spec/Json.lean."
  },
  {
   "property": "C44",
   "status": "partial",
   "theorems": [
    "J8a.C44_partial",
    "J8a.C44_violated"
   ],
   "note": "Violated for weight 0 (C44_violated). Proved as non-interference: for Accept-Encoding values made of usual codings with positive weights that do not accept gzip, the compressor has no influence on any execution."
  },
  {
   "property": "C45",
   "status": "proved",
   "theorems": [
    "J8a.C45_attempts_bounded",
    "J8a.C45_attempts_pos",
    "J8a.C45_one_call_per_attempt"
   ],
   "note": "every schedule; attempts and calls of http.Client.Do, at most one call per attempt"
  },
  {
   "property": "C46",
   "status": "proved",
   "theorems": [
    "J8a.C46_one_response",
    "J8a.C46_response_final"
   ],
   "note": "every schedule"
  },
  {
   "property": "C47",
   "status": "proved",
   "theorems": [
    "J8a.C47_after_deadline",
    "J8a.C47_after_observation"
   ],
   "note": "every schedule"
  },
  {
   "property": "C48",
   "status": "proved",
   "theorems": [
    "J8a.C48_decision",
    "J8a.C48_outcome"
   ],
   "note": "every schedule; the two deadlines are read one after the other, so a deadline that fires between decision and end may or may not be counted"
  },
  {
   "property": "C49",
   "status": "proved",
   "theorems": [
    "J8a.C49_bounded",
    "J8a.C49_terminates"
   ],
   "note": "bound on the handler's own steps for every schedule, and termination of every fair infinite execution; fairness assumes read timers fire and an enabled handler runs, nothing about upstreams"
  },
  {
   "property": "C50",
   "status": "partial",
   "theorems": [
    "J8a.C50_violated",
    "J8a.C50_covered_single",
    "J8a.C50_covered_no_timeout",
    "J8a.C50_answer_partial",
    "J8a.C50_partial"
   ],
   "note": "violated: late headers of an abandoned attempt are delivered with the body of the next (C50_violated); proved for executions without late writes, in particular all single-attempt requests and all executions in which no read timer fires"
  },
  {
   "property": "C51",
   "status": "partial",
   "theorems": [
    "J8a.C51_violated",
    "J8a.C51_partial"
   ],
   "note": "violated: an abandoned attempt's cancelled call overwrites the next attempt's response with nil and the handler panics (C51_violated); proved for executions without late writes"
  },
  {
   "property": "C52",
   "status": "proved",
   "theorems": [
    "J8a.C52_cancel_all",
    "J8a.C52_stay_cancelled"
   ],
   "note": "every schedule"
  },
  {
   "property": "C53",
   "status": "partial",
   "theorems": [
    "J8a.C53_violated",
    "J8a.C53_partial",
    "J8a.C53_orderly_partial"
   ],
   "note": "violated through late writes (C53_violated); proved: the attempt reported has no observed deadline (every schedule), and the response is that attempt's own (no late writes)"
  },
  {
   "property": "C54",
   "status": "proved",
   "theorems": [
    "J8a.C54_closed_once"
   ],
   "note": "every schedule"
  },
  {
   "property": "C55",
   "status": "proved",
   "theorems": [
    "J8a.C55_gzip_result",
    "J8a.C55_gunzip_result",
    "J8a.C55_history_independent",
    "J8a.C55_no_sharing",
    "J8a.C55_input_kept",
    "J8a.C55_magic_bytes"
   ],
   "note": "For every history of pool use and every choice the pool makes. Assumes the documented contract of gzip Reset (a reset writer or reader behaves like a new one), stated as Flate.Forgets and Inflate.Forgets."
  },
  {
   "property": "C56",
   "status": "proved",
   "theorems": [
    "J8a.C56_history_is_last_24",
    "J8a.C56_fill_forgotten",
    "J8a.C56_always_24"
   ],
   "note": "All sequences of samples."
  },
  {
   "property": "C57",
   "status": "partial",
   "theorems": [
    "J8a.C57_incomplete_not_flagged",
    "J8a.C57_one_rate_per_sample",
    "J8a.C57_flagged_iff_rounded",
    "J8a.C57_flagged_iff_doubled_partial",
    "J8a.C57_violated_by_rounding",
    "J8a.C57_violated_by_zero"
   ],
   "note": "C57_flagged_iff_rounded says exactly when a rate is flagged, with rounded float64 division. The reading as exact doubling is violated by rounding (C57_violated_by_rounding) and by a zero first sample (C57_violated_by_zero) and proved outside these (C57_flagged_iff_doubled_partial)."
  },
  {
   "property": "C58",
   "status": "partial",
   "theorems": [
    "J8a.C58_one_marked_minimal",
    "J8a.C58_none_expires_earlier_partial",
    "J8a.C58_expiry_within_clock_progress",
    "J8a.C58_violated_clock_moves"
   ],
   "note": "C58_one_marked_minimal: exactly one link is marked and its remaining validity is least. That no link expires earlier holds if the clock does not move during the loop; C58_expiry_within_clock_progress bounds the error in general and C58_violated_clock_moves shows it is real."
  },
  {
   "property": "C59",
   "status": "partial",
   "theorems": [
    "J8a.C59_panics_iff",
    "J8a.C59_dashed_hex_partial",
    "J8a.C59_violated_three_digits",
    "J8a.C59_violated_twenty_bytes"
   ],
   "note": "C59_panics_iff is exact: a serial panics iff its number of hexadecimal digits is odd and neither 1 nor 31. Violated by three digits (C59_violated_three_digits) and by twenty byte serials whose first byte is below 16 (C59_violated_twenty_bytes, for all of them); C59_dashed_hex_partial covers every other serial."
  },
  {
   "property": "C60",
   "status": "partial",
   "theorems": [
    "J8a.C60_started_only_verified_partial",
    "J8a.C60_roots_self_issued_partial",
    "J8a.C60_good_chain_starts",
    "J8a.C60_violated_root_not_self_signed"
   ],
   "note": "Verification itself is a parameter (x509). Violated: a root is recognised by equal common names only, so a certificate that is not self-signed becomes a trusted root (C60_violated_root_not_self_signed)."
  },
  {
   "property": "C61",
   "status": "proved",
   "theorems": [
    "J8a.C61_ipv4_exact"
   ],
   "note": "All 2^32 addresses and all ports, with the real regular expressions, evaluated leftmost-first."
  },
  {
   "property": "C62",
   "status": "partial",
   "theorems": [
    "J8a.C62_full_exact_partial",
    "J8a.C62_gap_last_exact_partial",
    "J8a.C62_gap_first_exact_partial",
    "J8a.C62_gap_middle_result",
    "J8a.C62_gap_middle_exact_iff",
    "J8a.C62_violated_truncated",
    "J8a.C62_violated_wrong_start"
   ],
   "note": "Violated (C62_violated_truncated, C62_violated_wrong_start). C62_gap_middle_result says exactly what is extracted and C62_gap_middle_exact_iff when it is right; full form, gap first and gap last are proved right."
  },
  {
   "property": "C63",
   "status": "partial",
   "theorems": [
    "J8a.C63_larger_iff",
    "J8a.C63_one_second_more_partial",
    "J8a.C63_violated_overflow"
   ],
   "note": "C63_larger_iff is the exact condition, C63_one_second_more_partial covers every number of seconds up to 9223372035; C63_violated_overflow: 9223372036 seconds wrap the write timeout around, so the full statement is false."
  },
  {
   "property": "C64",
   "status": "proved",
   "theorems": [
    "J8a.C64_precedence",
    "J8a.C64_file_alone"
   ],
   "note": "For every parser and every content of the three sources: the chosen text is the only one that matters, and the process starts iff it is readable and has routes. Parse errors are ignored by the code; parse is a parameter."
  },
  {
   "property": "C65",
   "status": "partial",
   "theorems": [
    "J8a.C65_starts_iff",
    "J8a.C65_answer",
    "J8a.C65_about_iff",
    "J8a.C65_eventually",
    "J8a.C65_violated"
   ],
   "note": "C65_starts_iff, C65_answer, C65_about_iff and C65_eventually describe every request but CONNECT and `*`; C65_violated: an uncleaned path is redirected and a CONNECT without path is 404, so `everything else goes to the proxy handler` is false as stated. http.ServeMux of Go 1.15 is modelled from its documentation and source as remembered."
  },
  {
   "property": "C66",
   "status": "proved",
   "theorems": [
    "J8a.C66_truthful",
    "J8a.C66_delivered"
   ],
   "note": "Header values, body and length for every Accept-Encoding list, id and version; C66_delivered: the client decodes exactly the JSON text for every lossless gzip."
  },
  {
   "property": "C67",
   "status": "partial",
   "theorems": [
    "J8a.C67_violated_logger_panics",
    "J8a.C67_violated_rates_too_short",
    "J8a.C67_no_panic_between_appends_partial"
   ],
   "note": "Violated: the sampler may shrink or grow the shared slice between two reads of the logger, which then indexes out of range and ends the process. Proved without an append in between."
  },
  {
   "property": "C68",
   "status": "partial",
   "theorems": [
    "J8a.C68_violated_by_serial",
    "J8a.C68_goes_on_partial"
   ],
   "note": "Violated: a serial with an odd number of hexadecimal digits other than 1 and 31 panics in formatSerial; the panic is recovered, which ends the daily check for good. Proved if all serials of the verified chains can be formatted."
  },
  {
   "property": "C69",
   "status": "partial",
   "theorems": [
    "J8a.C69_warns_iff_month_left_partial",
    "J8a.C69_violated_after_expiry"
   ],
   "note": "Violated after expiry: verification fails, the error is dropped and nothing is logged. Proved for chains that still verify."
  },
  {
   "property": "C70",
   "status": "partial",
   "theorems": [
    "J8a.C70_answer_iff",
    "J8a.C70_answer_partial",
    "J8a.C70_violated"
   ],
   "note": "C70_answer_iff is the exact condition on the two timeouts; C70_violated: a ten second round trip timeout with the default read timeout accepts a body that takes a minute and can then not answer. Model of net/http deadlines: read deadline on the whole request, write deadline counted from the end of the header."
  },
  {
   "property": "C71",
   "status": "partial",
   "theorems": [
    "J8a.C71_longest_partial",
    "J8a.C71_hidden_iff",
    "J8a.C71_violated"
   ],
   "note": "C71_longest_partial assumes that no proxied route lies below an about path ending in a slash; C71_hidden_iff is the exact condition; C71_violated: about route /about/ hides the proxied route /about/users."
  },
  {
   "property": "C72",
   "status": "partial",
   "theorems": [
    "J8a.C72_no_dot_segments_partial",
    "J8a.C72_violated_connect"
   ],
   "note": "Every method but CONNECT; C72_violated_connect: for CONNECT the path is not cleaned. The path is the decoded one."
  },
  {
   "property": "C73",
   "status": "proved",
   "theorems": [
    "J8a.C73_one_request"
   ],
   "note": "net/http's own repetition of a request on a connection that turns out to be closed is below the model (connections are not modelled)."
  },
  {
   "property": "C74",
   "status": "partial",
   "theorems": [
    "J8a.C74_result",
    "J8a.C74_handed_on_partial",
    "J8a.C74_violated"
   ],
   "note": "C74_result is the exact condition. C74_violated: a 301, 302 or 303 without Location (or one that does not parse) makes net/http (Go 1.15) return an error; the client gets 502 after all attempts."
  },
  {
   "property": "C75",
   "status": "partial",
   "theorems": [
    "J8a.C75_wire_partial",
    "J8a.C75_violated"
   ],
   "note": "C75_wire_partial covers all names but those of the hop, Date and Server (see C34), User-Agent and Accept-Encoding if the client does not send them, and Authorization if the client sends none and the URL has a user (see C171). C75_violated: the upstream sees User-Agent Go-http-client/1.1 and Accept-Encoding gzip, which the client did not send."
  },
  {
   "property": "C76",
   "status": "partial",
   "theorems": [
    "J8a.C76_violated",
    "J8a.C76_partial",
    "J8a.C76_violated_witness"
   ],
   "note": "C76_partial: bodies that do not start with the gzip magic bytes. C76_violated: for every client, a gzip file without content coding is decoded on the way or declared as encoded."
  },
  {
   "property": "C77",
   "status": "partial",
   "theorems": [
    "J8a.C77_partial",
    "J8a.C77_violated"
   ],
   "note": "C77_partial: the decoded content does not start with the gzip magic bytes, the upstream is truthful, and Gunzip and the transport decode alike. C77_violated: an archive the upstream compresses is decoded twice."
  },
  {
   "property": "C78",
   "status": "partial",
   "theorems": [
    "J8a.C78_failed_read_partial",
    "J8a.C78_violated"
   ],
   "note": "C78_failed_read_partial: failing reads, under every schedule. C78_violated: Gunzip ignores errors, so a gzip body that is cut off inside is delivered decoded as far as possible, with a matching Content-Length."
  },
  {
   "property": "C79",
   "status": "proved",
   "theorems": [
    "J8a.C79_released",
    "J8a.C79_closed_once"
   ],
   "note": "Bodies closed by the deferred calls of handle are recorded along the execution (Model/Observe). What cancelling a context does to the connection is net/http's and not modelled."
  },
  {
   "property": "C80",
   "status": "proved",
   "theorems": [
    "J8a.C80_goroutines"
   ],
   "note": "Holds in every state, reachable or not. Close of a closed channel is excluded by C54."
  },
  {
   "property": "C81",
   "status": "partial",
   "theorems": [
    "J8a.C81_logged_partial",
    "J8a.C81_violated"
   ],
   "note": "Holds for handlers that come to their end. Violated by a panic between response and log line (C81_violated): the goroutine of an abandoned attempt sets the response of the current attempt to nil between the two reads of contentEncoding."
  },
  {
   "property": "C82",
   "status": "partial",
   "theorems": [
    "J8a.C82_partial",
    "J8a.C82_violated",
    "J8a.C82_violated_empty"
   ],
   "note": "Proved without late writes for responses of the upstream with a body. Violated for client errors of upstreams that set Content-Encoding (C82_violated): the line names the coding of the discarded body. Likewise with an empty body for a client that accepts gzip (C82_violated_empty)."
  },
  {
   "property": "C83",
   "status": "proved",
   "theorems": [
    "J8a.SortRace.C83_in_range",
    "J8a.SortRace.C83_terminates"
   ],
   "note": "all branches of sort.Sort (insertion sort, quicksort, heapsort), for any answers of Less; entries are read and written as a whole"
  },
  {
   "property": "C84",
   "status": "proved",
   "theorems": [
    "J8a.SortRace.C84_configured"
   ],
   "note": "entries are read and written as a whole: a torn read of the two words of a Go string is outside the model"
  },
  {
   "property": "C85",
   "status": "partial",
   "theorems": [
    "J8a.Rand.C85_since_reseed_partial",
    "J8a.Rand.C85_no_own_partial",
    "J8a.Rand.C85_violated",
    "J8a.Rand.C85_violated_same_dice",
    "J8a.Rand.C85_violated_outage",
    "J8a.Rand.C85_violated_one_label"
   ],
   "note": "Violated: each response of the gateway itself seeds the shared source with the current second (C85_violated for every source that does not always roll the same; C85_violated_same_dice, _outage, _one_label: within a second all requests behind an own response get the same label). Proved: the dice depend on what happened since the last own response only, and are independent as long as there is none."
  },
  {
   "property": "C86",
   "status": "partial",
   "theorems": [
    "J8a.C86_framing_partial",
    "J8a.C86_response_partial",
    "J8a.C86_violated_always",
    "J8a.C86_violated",
    "J8a.C86_violated_response"
   ],
   "note": "Violated: each such header other than Trailer and Transfer-Encoding goes to the upstream as the client sent it (C86_violated_always), and back from it (C86_violated_response). Proved: Trailer and Transfer-Encoding are not passed on to the upstream, Transfer-Encoding not to the client, Content-Length is that of the body."
  },
  {
   "property": "C87",
   "status": "partial",
   "theorems": [
    "J8a.C87_partial",
    "J8a.C87_violated_always",
    "J8a.C87_violated"
   ],
   "note": "Violated: a policy with the name default is replaced by the built-in one. Proved for every other name."
  },
  {
   "property": "C88",
   "status": "partial",
   "theorems": [
    "J8a.C88_violated_always",
    "J8a.C88_violated",
    "J8a.C88_violated_unavailable",
    "J8a.C88_violated_crash",
    "J8a.C88_partial"
   ],
   "note": "Violated: whether a configuration boots does not depend on its policies and resources at all; requests then get 503 or crash the handler. Proved: a dangling resource leads to no upstream, a dangling policy to servers with the label default only."
  },
  {
   "property": "C89",
   "status": "partial",
   "theorems": [
    "J8a.C89_partial",
    "J8a.C89_violated_always",
    "J8a.C89_violated"
   ],
   "note": "Violated: every mode other than TLS is served in the clear, HTTPS with certificate and key on port 443 for instance. Proved: TLS is served exactly for mode TLS in any case with a good certificate, and with a bad one the gateway does not start."
  },
  {
   "property": "C90",
   "status": "partial",
   "theorems": [
    "J8a.C90_faithful_partial",
    "J8a.C90_boot_partial",
    "J8a.C90_violated_unknown",
    "J8a.C90_violated_mistyped",
    "J8a.C90_violated"
   ],
   "note": "Violated: misspelt keys and values of the wrong type are ignored without an error; a route whose jwt is misspelt or written as a number is open, a clock skew written as the number 0 becomes two minutes. Proved: a document that does write down a configuration is read as exactly that one, and a text that is not YAML does not start the gateway."
  },
  {
   "property": "C91",
   "status": "partial",
   "theorems": [
    "J8a.C91_wire_partial",
    "J8a.C91_violated"
   ],
   "note": "Violated for the transform / : GET /a@evil.com/x on route /a arrives as /x at evil.com (C91_violated). Proved for every other transform that is a path, byte for byte, and for / where the rest starts a new part of the URI. Uses the model of net/url in Go/Url.lean."
  },
  {
   "property": "C92",
   "status": "partial",
   "theorems": [
    "J8a.C92_built_partial",
    "J8a.C92_exact",
    "J8a.C92_violated_always",
    "J8a.C92_violated",
    "J8a.C92_violated_root"
   ],
   "note": "Violated: GET /a?x#%zz is accepted by ParseRequestURI but refused by Parse, the error is ignored, and the nil request is used; C92_violated_always says it for every such configuration and schedule, C92_exact exactly when it happens without transforms, C92_violated_root for the transform /. Proved for targets without # ."
  },
  {
   "property": "C93",
   "status": "partial",
   "theorems": [
    "J8a.C93_same_partial",
    "J8a.C93_violated",
    "J8a.C93_violated_token"
   ],
   "note": "Violated for every plain route: with an unreserved character encoded it does not match (C93_violated); a token check is evaded (C93_violated_token). Proved for spellings that encode no unreserved character."
  },
  {
   "property": "C94",
   "status": "partial",
   "theorems": [
    "J8a.C94_violated",
    "J8a.C94_violated_demo"
   ],
   "note": "Violated in every plain configuration, for every target that does not start with a slash: 404, never sent on (C94_violated); C94_violated_demo compares the two forms of one request. Nothing of the property is left to hold."
  },
  {
   "property": "C95",
   "status": "partial",
   "theorems": [
    "J8a.C95_below_partial",
    "J8a.C95_violated",
    "J8a.C95_violated_token"
   ],
   "note": "Violated by every plain route that does not end in a slash (C95_violated); a token check is evaded (C95_violated_token). Proved for routes that end in a slash, with the longest-route rule for the others."
  },
  {
   "property": "C96",
   "status": "proved",
   "theorems": [
    "J8a.C96_answered_by",
    "J8a.C96_before_write_deadline",
    "J8a.C96_time_passes"
   ],
   "note": "Times are natural numbers of nanoseconds. Assumed: the round trip timer has fired when it is due, and the handler goroutine takes a step it is able to take within eps, which includes the time of writing the response. Upstreams and all other goroutines are arbitrary. Reading the request body (proxy.go:215) happens before the first state, and its end is t0. Timeouts of more than 292 years excluded (C98). C96_time_passes shows that the assumptions do not stop the clock."
  },
  {
   "property": "C97",
   "status": "proved",
   "theorems": [
    "J8a.C97_answered_by",
    "J8a.C97_answered_by_limit",
    "J8a.C97_one_attempt"
   ],
   "note": "Assumptions as for C96, with the read timers in place of the round trip timer."
  },
  {
   "property": "C98",
   "status": "partial",
   "theorems": [
    "J8a.C98_duration_partial",
    "J8a.C98_violated"
   ],
   "note": "Holds for every number of seconds that fits into a time.Duration. Violated above: with a round trip timeout of 9223372037 seconds every request ends at once, whatever upstreams do."
  },
  {
   "property": "C99",
   "status": "partial",
   "theorems": [
    "J8a.C99_all_loaded_partial",
    "J8a.C99_violated_always",
    "J8a.C99_violated"
   ],
   "note": "Violated: the loop over the keys ends at the first key of another algorithm (jwt.go:191-240), so keys behind it are not loaded, and the error refuses the boot even if all usable keys were loaded. C99_violated_always: what comes behind such a key makes no difference. The partial covers all keys before it."
  },
  {
   "property": "C100",
   "status": "partial",
   "theorems": [
    "J8a.C100_rotated_partial",
    "J8a.C100_violated_no_kid",
    "J8a.C100_violated_reused"
   ],
   "note": "Violated: a token without kid starts no refresh (C100_violated_no_kid), and a key replaced under its old kid is never used, however often the document is fetched (C100_violated_reused). The partial: a token with a kid not in use yet, served in front of any key of another algorithm, starts a refresh, and is accepted after it."
  },
  {
   "property": "C101",
   "status": "partial",
   "theorems": [
    "J8a.C101_violated_always",
    "J8a.C101_since_boot_partial"
   ],
   "note": "Violated: keys are only ever added; a token that was accepted is accepted after every history of refreshes (C101_violated_always). The partial: since the boot each key in use was in some document."
  },
  {
   "property": "C102",
   "status": "partial",
   "theorems": [
    "J8a.C102_violated_stalled",
    "J8a.C102_refresh_possible_partial"
   ],
   "note": "Violated: jwk.Fetch has no timeout and the semaphore is held meanwhile, so one fetch that does not return blocks all others for good (C102_violated_stalled, over all schedules). The partial assumes that fetches end within F and goroutines move as soon as they can."
  },
  {
   "property": "C103",
   "status": "proved",
   "theorems": [
    "J8a.C103_strong",
    "J8a.C103_logged"
   ],
   "note": "Over a model of the negotiation of crypto/tls 1.15 (Go/Handshake.lean)."
  },
  {
   "property": "C104",
   "status": "partial",
   "theorems": [
    "J8a.C104_connects_partial",
    "J8a.C104_violated_always",
    "J8a.C104_violated"
   ],
   "note": "Violated: with a certificate for an ECDSA or Ed25519 key, TLS 1.2 connections are impossible, since both suites for TLS 1.2 need RSA (C104_violated_always); the gateway starts with such certificates. The partial: RSA keys, or clients with TLS 1.3."
  },
  {
   "property": "C105",
   "status": "partial",
   "theorems": [
    "J8a.C105_preferred_partial",
    "J8a.C105_violated_always",
    "J8a.C105_violated"
   ],
   "note": "Violated: crypto/tls ignores the configuration for TLS 1.3, so AES-128 is used before AES-256 (C105_violated_always). The partial: TLS 1.2."
  },
  {
   "property": "C106",
   "status": "partial",
   "theorems": [
    "J8a.C106_no_crash_partial",
    "J8a.C106_violated_always",
    "J8a.C106_violated"
   ],
   "note": "Violated: a status below 100 is passed to WriteHeader, which panics; the client gets no answer (C106_violated_always). The partial: statuses from 100, executions without late writes (C51), upstream URLs that parse (C92)."
  },
  {
   "property": "C107",
   "status": "partial",
   "theorems": [
    "J8a.C107_final_partial",
    "J8a.C107_violated"
   ],
   "note": "Violated: a 101 of an upstream is handed to a client that did not ask for it (C107_violated). The partial: final statuses from upstreams, executions without late writes (C36)."
  },
  {
   "property": "C108",
   "status": "partial",
   "theorems": [
    "J8a.C108_exact",
    "J8a.C108_anchored_partial",
    "J8a.C108_violated_always",
    "J8a.C108_violated"
   ],
   "note": "Violated: the anchor is put in front of the text of the path, so in `p|q` it belongs to `p` only; `p|q` matches every target that contains `q` (C108_violated_always, C108_violated). The partial: paths without `|`. C108_exact says what every path matches."
  },
  {
   "property": "C109",
   "status": "partial",
   "theorems": [
    "J8a.C109_refused_partial",
    "J8a.C109_exact",
    "J8a.C109_accepted",
    "J8a.C109_violated_always",
    "J8a.C109_violated"
   ],
   "note": "Violated: `*q` is no regular expression, but `^*q` is; it matches every target that contains `q` (C109_violated_always, C109_violated). The partial: paths that do not begin with a repetition. What a regular expression is, is said by the grammar in Spec/ReSyntax; the parser accepts exactly that (C109_exact)."
  },
  {
   "property": "C110",
   "status": "partial",
   "theorems": [
    "J8a.C110_literal_partial",
    "J8a.C110_violated_always",
    "J8a.C110_violated"
   ],
   "note": "Violated: the transform replaces the text of the path, not what it matched; with the path `p.*` it never applies to a target without `*` (C110_violated_always, C110_violated). The partial: literal paths."
  },
  {
   "property": "C111",
   "status": "partial",
   "theorems": [
    "J8a.C111_exact_partial",
    "J8a.C111_violated_always",
    "J8a.C111_violated"
   ],
   "note": "Violated: routes are sorted by the length of their text, so a longer pattern hides a literal path, and its jwt (C111_violated_always, C111_violated). The partial: gateways with literal paths."
  },
  {
   "property": "C112",
   "status": "proved",
   "theorems": [
    "J8a.C112_idle_bounded",
    "J8a.C112_reused"
   ],
   "note": "All interleavings of requests, dials, failures and closings; the pool of Go 1.15's transport as remembered."
  },
  {
   "property": "C113",
   "status": "partial",
   "theorems": [
    "J8a.C113_at_rest_partial",
    "J8a.C113_violated_always",
    "J8a.C113_violated"
   ],
   "note": "Violated: `poolSize` limits idle connections only (as connection.go:43 says), MaxConnsPerHost is not set; n requests at once have n connections (C113_violated_always, C113_violated). The partial: at most `poolSize` more than requests under way."
  },
  {
   "property": "C114",
   "status": "partial",
   "theorems": [
    "J8a.C114_sent_partial",
    "J8a.C114_violated_always",
    "J8a.C114_violated"
   ],
   "note": "Violated: the transport repeats GET, HEAD, OPTIONS, TRACE, and any request of a client that sends an idempotency key, on every idle connection that breaks, within one attempt (C114_violated_always, C114_violated). The partial: other methods without such a header, and the exact bound per attempt."
  },
  {
   "property": "C115",
   "status": "partial",
   "theorems": [
    "J8a.C115_probes_partial",
    "J8a.C115_violated_always",
    "J8a.C115_violated"
   ],
   "note": "Violated: the variable OS is compared with names of GOOS, but Windows sets it to Windows_NT (C115_violated_always, C115_violated). The partial: OS unset or equal to GOOS."
  },
  {
   "property": "C116",
   "status": "partial",
   "theorems": [
    "J8a.C116_partial",
    "J8a.C116_violated_always",
    "J8a.C116_violated"
   ],
   "note": "Violated: about routes `p` and `/p`, about at `/`, ports outside 0 to 65535 are accepted, then the process ends (C116_violated_always, C116_violated). The partial is the exact condition. That the operating system may refuse a port is left out."
  },
  {
   "property": "C117",
   "status": "partial",
   "theorems": [
    "J8a.C117_logged",
    "J8a.C117_ipv4_partial",
    "J8a.C117_same_partial",
    "J8a.C117_violated_always",
    "J8a.C117_violated"
   ],
   "note": "Violated for IPv6 addresses with a gap and more than four groups before or three after it (C117_violated_always, C117_violated). Partials: logged at every level (C117_logged), exact for IPv4, for others the same as C62 finds. Reasons must be calm: no percent sign or double colon, words with at most six colons and no dot behind a colon, as in the messages of crypto/tls and net."
  },
  {
   "property": "C118",
   "status": "partial",
   "theorems": [
    "J8a.C118_exact_partial",
    "J8a.C118_violated_always",
    "J8a.C118_violated"
   ],
   "note": "Violated: net/http reports the panic to the adapter, which logs it at level trace; with any other LOGLEVEL nothing is written (C118_violated_always; C118_violated with the execution of C92). The partial is the exact condition for messages without the words `TLS handshake error`."
  },
  {
   "property": "C119",
   "status": "partial",
   "theorems": [
    "J8a.C119_json_partial",
    "J8a.C119_access_partial",
    "J8a.C119_access_values_partial",
    "J8a.C119_console_partial",
    "J8a.C119_violated_always",
    "J8a.C119_violated"
   ],
   "note": "Violated with LOGCOLOR and LOGLEVEL=DEBUG: the key id of an unverified token is part of a message, which the console writer writes as it is (C119_violated_always, C119_violated). Partials: JSON output of every event with ASCII field names; console output of events whose message has no line break. zerolog as remembered."
  },
  {
   "property": "C120",
   "status": "proved",
   "theorems": [
    "J8a.C120_protocol"
   ],
   "note": "net/http and crypto/tls of Go 1.15 as remembered."
  },
  {
   "property": "C121",
   "status": "partial",
   "theorems": [
    "J8a.C121_http2_partial",
    "J8a.C121_seconds_partial",
    "J8a.C121_http1_partial",
    "J8a.C121_violated_always",
    "J8a.C121_violated"
   ],
   "note": "Violated over HTTP/2: the read deadline is removed when the headers of the first stream are read; only the timer of the stream, the write timeout, is left (C121_violated_always, C121_violated). Partials: HTTP/1, and the write timeout over HTTP/2, in seconds one more than the round trip timeout (C121_seconds_partial)."
  },
  {
   "property": "C122",
   "status": "partial",
   "theorems": [
    "J8a.C122_writer",
    "J8a.C122_known_partial",
    "J8a.C122_exact_partial",
    "J8a.C122_violated_always",
    "J8a.C122_violated"
   ],
   "note": "Violated: a request can combine the old array with the new length and read beyond the end (C122_violated_always), or meet an entry whose key has not been stored (C122_violated). Partials: keys that were there before the request are always seen as they are; a request that loads the header between two appends sees exactly the key set. Simplified: one word per field of an entry."
  },
  {
   "property": "C123",
   "status": "partial",
   "theorems": [
    "J8a.C123_tls13_partial",
    "J8a.C123_floor_partial",
    "J8a.C123_violated_always",
    "J8a.C123_violated"
   ],
   "note": "Violated: no configuration keeps TLS 1.0 with RSA key exchange and CBC or triple DES from being used with an upstream (C123_violated_always, C123_violated). Partials: TLS 1.3, and what is never used. crypto/tls of Go 1.15 as remembered."
  },
  {
   "property": "C124",
   "status": "proved",
   "theorems": [
    "J8a.C124_verified",
    "J8a.C124_clear",
    "J8a.C124_served"
   ],
   "note": "Verification of certificates is a parameter; net/http and crypto/tls of Go 1.15 as remembered."
  },
  {
   "property": "C125",
   "status": "partial",
   "theorems": [
    "J8a.C125_static_partial",
    "J8a.C125_violated_always",
    "J8a.C125_violated"
   ],
   "note": "Violated: the scheme of jwksUrl is not looked at (C125_violated_always, C125_violated). Partial: without a JWKS URL nothing comes from the network."
  },
  {
   "property": "C126",
   "status": "partial",
   "theorems": [
    "J8a.C126_ec_partial",
    "J8a.C126_violated_rsa",
    "J8a.C126_violated_hmac",
    "J8a.C126_violated"
   ],
   "note": "Violated: RSA keys and secrets of any size are loaded (C126_violated_rsa, C126_violated_hmac, C126_violated). Partial: elliptic curves."
  },
  {
   "property": "C127",
   "status": "proved",
   "theorems": [
    "J8a.C127_kid",
    "J8a.C127_no_kid",
    "J8a.C127_not_string",
    "J8a.C127_garbage",
    "J8a.C127_only",
    "J8a.C127_named_key",
    "J8a.C127_unknown_key"
   ],
   "note": "encoding/base64 and encoding/json of Go 1.15 as remembered. Headers nested deeper than 10000, or with numbers outside of float64, are refused by the library and not covered."
  },
  {
   "property": "C128",
   "status": "partial",
   "theorems": [
    "J8a.C128_read_partial",
    "J8a.C128_http1_partial",
    "J8a.C128_violated_always",
    "J8a.C128_violated"
   ],
   "note": "Proved for every target without a space, in particular for everything that came over HTTP/1 and a configuration without spaces. Violated: over HTTP/2 a target may have a space in its query; it is written as it is, and for every such target what the upstream receives is no request."
  },
  {
   "property": "C129",
   "status": "partial",
   "theorems": [
    "J8a.C129_exact",
    "J8a.C129_violated"
   ],
   "note": "C129_exact: a part arrives as the part it names if and only if the gateway does not recode it, i.e. the client does not mention gzip and the part does not begin with gzip's magic bytes (or recoding happens to give it back). Violated: a client that accepts gzip gets the part compressed under the Content-Range of the plain part."
  },
  {
   "property": "C130",
   "status": "partial",
   "theorems": [
    "J8a.C130_exact",
    "J8a.C130_violated"
   ],
   "note": "C130_exact: the bytes of two clients are the same if and only if both or neither have them recoded. Violated: two clients get plain and compressed bytes under the same strong ETag."
  },
  {
   "property": "C131",
   "status": "partial",
   "theorems": [
    "J8a.C131_partial",
    "J8a.C131_violated_always",
    "J8a.C131_violated"
   ],
   "note": "Proved for upstreams that list Accept-Encoding in Vary. Violated: the gateway adds no Vary, so a response without one may be reused for a client for which the gateway would have sent other bytes."
  },
  {
   "property": "C132",
   "status": "partial",
   "theorems": [
    "J8a.C132_exact",
    "J8a.C132_violated"
   ],
   "note": "C132_exact: the bytes are unchanged if and only if neither compression nor decompression applies. Violated: a response with no-transform is compressed for a client that mentions gzip."
  },
  {
   "property": "C133",
   "status": "partial",
   "theorems": [
    "J8a.C133_exact",
    "J8a.C133_read_partial",
    "J8a.C133_own_partial",
    "J8a.C133_clean_partial",
    "J8a.C133_violated_always",
    "J8a.C133_violated"
   ],
   "note": "C133_exact, for every schedule: what the client gets is a response if and only if every written header has a token for its name and a printable value. C133_read_partial, C133_own_partial, C133_clean_partial: then there is exactly one reading, the one that was meant. Violated for every response that is passed on with a name that is no token; the witness is `Transfer-Encoding : chunked`, whose name keeps its space, is not dropped and is sent beside Content-Length. CONNECT is included (for late writes, under OwnRefuses, which holds without them: own_refuses). Left out: methods that are HEAD in other than upper case (C40_violated)."
  },
  {
   "property": "C138",
   "status": "partial",
   "theorems": [
    "J8a.C138_attempts",
    "J8a.C138_ended",
    "J8a.C138_codes",
    "J8a.C138_failed",
    "J8a.C138_outcome_partial",
    "J8a.C138_uri",
    "J8a.C138_never_recovers",
    "J8a.C138_level",
    "J8a.C138_fields",
    "J8a.C138_violated"
   ],
   "note": "For all executions: beginnings and ends of attempts in order and once (C138_attempts, C138_ended), statuses of the very attempt (C138_codes), a failed last attempt means 502 or 504 (C138_failed), no line about a recovered panic (C138_never_recovers), level and fields of the lines. C138_outcome_partial: without late writes the last attempt is logged as successful exactly if the client gets its status. Violated with late writes: attempt 2 is logged as successful with 200 while the client gets 503, written by the goroutine of attempt 1."
  },
  {
   "property": "C139",
   "status": "partial",
   "theorems": [
    "J8a.C139_independent_partial",
    "J8a.C139_violated_always",
    "J8a.C139_violated",
    "J8a.C139_token_partial"
   ],
   "note": "C139_independent_partial: other headers, among them Authorization and Cookie, and the body have no influence on the lines about attempts and the last line, execution by execution. C139_token_partial: the lines about a token depend on it only through what the library makes of it. Violated for the query: upReqURI has the whole target unless the route has a transform (C139_violated_always); the witness logs access_token=secret at level info."
  },
  {
   "property": "C134",
   "status": "partial",
   "theorems": [
    "J8a.C134_relayed_partial",
    "J8a.C134_violated_always",
    "J8a.C134_violated_own",
    "J8a.C134_violated"
   ],
   "note": "C134_relayed_partial: below 400 the required header (Content-Range of a 206) is passed on. Violated for every status from 400 on: the client's response never has the header, whatever the upstream sent (C134_violated_always), and no own 401 has a challenge (C134_violated_own); witness C134_violated. Without late writes (orderly executions)."
  },
  {
   "property": "C135",
   "status": "partial",
   "theorems": [
    "J8a.C135_violated_always",
    "J8a.C135_id_partial",
    "J8a.C135_violated"
   ],
   "note": "Violated for every request and attempt: Via, Forwarded and X-Forwarded-* reach the upstream exactly as the client sent them (C135_violated_always, on the wire, redirections included). C135_id_partial: the request id does reach every upstream."
  },
  {
   "property": "C136",
   "status": "partial",
   "theorems": [
    "J8a.C136_violated_always",
    "J8a.C136_violated"
   ],
   "note": "Violated for every forwarded request: Max-Forwards goes on unchanged (C136_violated_always), and a request with 0 is forwarded (C136_violated)."
  },
  {
   "property": "C137",
   "status": "partial",
   "theorems": [
    "J8a.C137_own_partial",
    "J8a.C137_violated_always",
    "J8a.C137_violated"
   ],
   "note": "C137_own_partial: exactly one Date, from which the time of writing can be read, for every time up to 9999, by the independent reader in Spec/Calendar. Violated for every response that is passed on: its Date is replaced (C137_violated_always)."
  },
  {
   "property": "C140",
   "status": "partial",
   "theorems": [
    "J8a.C140_form_partial",
    "J8a.C140_text_partial",
    "J8a.C140_source_partial",
    "J8a.C140_violated_always",
    "J8a.C140_violated",
    "J8a.C140_violated_hosts"
   ],
   "note": "Proved: form of the id, that it may stand in a header, where host and version come from. Violated: host and version are joined without a separator (C140_violated_always, C140_violated), and 32 bits do not suffice for 2^32+1 hosts (C140_violated_hosts). MD5 is concrete, from RFC 1321."
  },
  {
   "property": "C141",
   "status": "partial",
   "theorems": [
    "J8a.C141_accepted_partial",
    "J8a.C141_rejected_partial",
    "J8a.C141_dates_partial",
    "J8a.C141_unsigned_partial",
    "J8a.C141_kid_partial",
    "J8a.C141_violated_always",
    "J8a.C141_violated_malformed_always",
    "J8a.C141_violated_early_always",
    "J8a.C141_violated"
   ],
   "note": "Proved: one line with the outcome for each forwarded and each refused request (C141_accepted_partial, C141_rejected_partial), the dates of verified tokens (C141_dates_partial, C141_unsigned_partial; after the first second of 1970 and up to 9999, zones of whole minutes), the key id (C141_kid_partial). Violated: nothing is written unless LOGLEVEL is TRACE (C141_violated_always), nothing about malformed tokens (C141_violated_malformed_always), claims up to 1 are logged as absent (C141_violated_early_always), year 10000 is no RFC 3339 (C141_violated)."
  },
  {
   "property": "C142",
   "status": "partial",
   "theorems": [
    "J8a.C142_authority_partial",
    "J8a.C142_leaf_partial",
    "J8a.C142_violated_disruption",
    "J8a.C142_violated_sign",
    "J8a.C142_violated_saturated",
    "J8a.C142_violated_unmarked"
   ],
   "note": "Proved by reading the text back with an independent reader: time to expiry (right to the smaller unit), day of issue, validity in days, mark of the earliest, what is left of 398 days. Violated: disruption is announced for 398 days after issue whatever the expiry; after that the text says 'expired -2 days ago'; distances saturate at 292 years; an authority that expires first is not marked. Limits: last microsecond, fractions of seconds. durafmt is modelled from memory of its source."
  },
  {
   "property": "C143",
   "status": "partial",
   "theorems": [
    "J8a.C143_form_partial",
    "J8a.C143_distinct_partial",
    "J8a.C143_violated_source",
    "J8a.C143_violated_chosen"
   ],
   "note": "violated: the error of the random source is dropped, every id is then that of the nil UUID; a client may repeat the id of another request. Proved for every source that gives 16 bytes: form, same id in every attempt and in the response of every execution, and equal ids iff the 122 random bits are equal"
  },
  {
   "property": "C144",
   "status": "partial",
   "theorems": [
    "J8a.C144_uptime_true",
    "J8a.C144_violated_first_day",
    "J8a.C144_growth_partial",
    "J8a.C144_violated_fallen",
    "J8a.C144_violated_early",
    "J8a.C144_violated_span"
   ],
   "note": "uptime: every line proved true, and one is written in each round from ten seconds on; violated on the first day, whose only round comes too early. Memory: proved as an equivalence with a doubling anywhere in the last 24 samples; violated for memory that was given back, right after the start, and for the day, since the samples compared are 23 hours apart"
  },
  {
   "property": "C145",
   "status": "partial",
   "theorems": [
    "J8a.C145_readings_kept_partial",
    "J8a.C145_violated_reading",
    "J8a.C145_violated_process",
    "J8a.C145_violated"
   ],
   "note": "violated: errors are dropped and the missing result is dereferenced, which ends the process; proved for readings that succeed"
  },
  {
   "property": "C146",
   "status": "partial",
   "theorems": [
    "J8a.C146_violated_always",
    "J8a.C146_violated_uncancelled",
    "J8a.C146_bounded_partial",
    "J8a.C146_violated"
   ],
   "note": "violated: contexts do not derive from the request's, so every execution is also one for a client that left at any moment (C146_violated_always), and nothing is cancelled before a timer fires (C146_violated_uncancelled). Proved: with the round trip timeout the work ends, as for clients that stay"
  },
  {
   "property": "C147",
   "status": "partial",
   "theorems": [
    "J8a.C147_secret_partial",
    "J8a.C147_static_partial",
    "J8a.C147_violated"
   ],
   "note": "violated: the key set URL is logged as it is, credentials included, at level warn when the fetch fails. Proved: the lines of boot are the same for any two sets of HMAC secrets, and any configured key shows only as one of 14 answers fixed by the other fields or as a curve size"
  },
  {
   "property": "C148",
   "status": "partial",
   "theorems": [
    "J8a.C148_remote_partial",
    "J8a.C148_static_partial",
    "J8a.C148_boot_partial",
    "J8a.C148_violated_size",
    "J8a.C148_violated_remote",
    "J8a.C148_violated_hmac"
   ],
   "note": "violated: the line is written behind the switch, so unusable keys, shared secrets, keys under a known kid and keys of the wrong size are reported as successfully parsed. Proved: accepted configured keys, key sets whose keys are all usable and new, and the last line of boot (an equivalence)"
  },
  {
   "property": "C149",
   "status": "partial",
   "theorems": [
    "J8a.C149_location_partial",
    "J8a.C149_followed_partial",
    "J8a.C149_violated_slash",
    "J8a.C149_violated_opaque",
    "J8a.C149_violated_fragment"
   ],
   "note": "proved for targets that begin with a slash, with no encoded slash for the resource; violated for encoded slashes, targets with an opaque part and a number sign in the query. Absolute-form targets are modelled but not covered by the partial theorems."
  },
  {
   "property": "C150",
   "status": "partial",
   "theorems": [
    "J8a.C150_one_token_partial",
    "J8a.C150_first_partial",
    "J8a.C150_violated"
   ],
   "note": "violated by the code: a second Authorization header or a third field is handed on unverified (C150_violated); C150_one_token_partial for clients that present one token, C150_first_partial for the first field of the first header of any client"
  },
  {
   "property": "C151",
   "status": "partial",
   "theorems": [
    "J8a.C151_request_partial",
    "J8a.C151_violated"
   ],
   "note": "violated by the code for responses, which are read as a whole without limit (C151_violated); C151_request_partial for every request body; net/http's own buffers are not counted"
  },
  {
   "property": "C152",
   "status": "partial",
   "theorems": [
    "J8a.C152_announced_partial",
    "J8a.C152_violated_always",
    "J8a.C152_violated"
   ],
   "note": "violated by the code: every body that is not announced as too large is taken before the head is judged (C152_violated_always, witness C152_violated); C152_announced_partial for bodies announced as too large"
  },
  {
   "property": "C153",
   "status": "partial",
   "theorems": [
    "J8a.C153_proxy_partial",
    "J8a.C153_about_partial",
    "J8a.C153_handled_iff",
    "J8a.C153_violated_always",
    "J8a.C153_violated"
   ],
   "note": "violated by the code: no answer of net/http itself has any of the headers (C153_violated_always, witness C153_violated); C153_proxy_partial and C153_about_partial for both handlers, C153_handled_iff tells which requests reach them; requests refused for their version, headers or Host are left out"
  },
  {
   "property": "C154",
   "status": "partial",
   "theorems": [
    "J8a.C154_quiet_partial",
    "J8a.C154_violated_old_always",
    "J8a.C154_violated",
    "J8a.C154_violated_connect_always",
    "J8a.C154_violated_connect",
    "J8a.C154_said_partial"
   ],
   "note": "violated by the code: an upstream's Connection header is passed on; close ends the client's connection, Close is announced and not done (C154_violated); and an HTTP/1.0 client that asked for keep-alive is told so when its connection ends because its body broke off or the gateway shuts down (C154_violated_old_always); C154_quiet_partial if no upstream sends the header; every body that is passed on in answer to CONNECT ends the connection without a word and is lost (C154_violated_connect_always); C154_quiet_partial is for methods other than CONNECT and other spellings of HEAD (C155_violated); failing writes are left out C154_said_partial: with HTTP/1.1 the end is announced whatever Connection headers upstreams send, unless a switch of protocols is."
  },
  {
   "property": "C155",
   "status": "partial",
   "theorems": [
    "J8a.C155_announced_partial",
    "J8a.C155_violated",
    "J8a.C155_violated_connect_always"
   ],
   "note": "violated by the code for the method head in lower case (C155_violated); C155_announced_partial for every other response that a client can read (C133 tells which these are), with CONNECT; RFC 7230 3.3.2 on CONNECT, no Content-Length in a 2xx response, is violated by everything that is passed on (C155_violated_connect_always)"
  },
  {
   "property": "C156",
   "status": "partial",
   "theorems": [
    "J8a.C156_partial",
    "J8a.C156_violated_always",
    "J8a.C156_violated"
   ],
   "note": "Every exit is preceded by exactly one fatal line, the last, with a true reason, and a start has none. Not so for a crash (a null jwt entry, a key whose PEM block is missing or whose certificate does not parse, about routes with the same path or with path /, a chain with a block that is no certificate): C156_violated and C156_violated_always. C156_partial lists all causes."
  },
  {
   "property": "C157",
   "status": "partial",
   "theorems": [
    "J8a.C157_started_partial",
    "J8a.C157_listening_partial",
    "J8a.C157_violated"
   ],
   "note": "The log of a start that succeeds, line by line. The line about listening is written before the port is opened: when it is taken or no port, the log says that the gateway listens (C157_violated)."
  },
  {
   "property": "C158",
   "status": "proved",
   "theorems": [
    "J8a.C158_private_key"
   ],
   "note": "Two documents that differ in the private key only, where tls.X509KeyPair gives the same for both. Lines of the goroutine of tlsHealthCheck are about the certificate (C69) and not modelled here."
  },
  {
   "property": "C159",
   "status": "partial",
   "theorems": [
    "J8a.C159_quiet_partial",
    "J8a.C159_after_partial",
    "J8a.C159_violated_always"
   ],
   "note": "Holds for all lines but the first three of a start, and for every line that is written if LOGLEVEL is neither TRACE nor DEBUG; the variables after the start make the logger of C117 to C119. Violated at TRACE and DEBUG in every start: hostName, version and srvID are logged before the id is put into the logger (C159_violated_always)."
  },
  {
   "property": "C160",
   "status": "proved",
   "theorems": [
    "J8a.C160_level",
    "J8a.C160_told"
   ],
   "note": "For the lines of every start and for every line after it. The ReadMe says that lines go to stdout; they go to stderr, which is not part of the statement."
  },
  {
   "property": "C161",
   "status": "partial",
   "theorems": [
    "J8a.C161_told",
    "J8a.C161_partial",
    "J8a.C161_instant",
    "J8a.C161_violated"
   ],
   "note": "Exact condition for the zone named in the log to be the zone of the times (C161_partial), and each time reads back as its instant in any zone of whole minutes (C161_instant). Violated if TZ is not set on a machine that does not run on UTC, or TZ is a name that the machine does not know (C161_violated)."
  },
  {
   "property": "C162",
   "status": "partial",
   "theorems": [
    "J8a.C162_granted",
    "J8a.C162_sends_partial",
    "J8a.C162_violated"
   ],
   "note": "violated by the code: with the transform / a request for /a@evil.com/x goes to a host that the document does not name (C162_violated); C162_granted: route and token for every path on which the engine is right (those without special characters, and for the model of Go's engine all regular expressions without |; with | see C108_violated) and every target; C162_sends_partial: target and server on the wire for the same paths, which are plain text if they have a transform (others: C110_violated_always), and targets that are a path and query if a route selects them"
  },
  {
   "property": "C163",
   "status": "partial",
   "theorems": [
    "J8a.C163_refuses_partial",
    "J8a.C163_violated"
   ],
   "note": "violated by the code: a body of exactly maxBodyBytes is refused (C163_violated); C163_refuses_partial with lengths from the limit on; the engine is right about the paths (without special characters, or regular expressions without |); for entries with a jwksUrl and no key 401 is explained only as to tokens signed with keys served at the start"
  },
  {
   "property": "C164",
   "status": "partial",
   "theorems": [
    "J8a.C164_named",
    "J8a.C164_exits",
    "J8a.C164_started_partial",
    "J8a.C164_file_alone",
    "J8a.C164_variable_alone",
    "J8a.C164_violated",
    "J8a.C164_violated_empty"
   ],
   "note": "violated by the code: a file named without -c is ignored together with all options behind it, and the gateway starts with the default file (C164_violated); an empty name counts as no option (C164_violated_empty). C164_started_partial: options -c up to the first argument that is no option; C164_exits says exactly which command lines end the process; package flag is modelled from memory, what it prints is left out"
  },
  {
   "property": "C165",
   "status": "partial",
   "theorems": [
    "J8a.C165_sound_partial",
    "J8a.C165_delivered_partial",
    "J8a.C165_accepted_partial",
    "J8a.C165_wire_partial",
    "J8a.C165_violated_always",
    "J8a.C165_violated"
   ],
   "note": "violated by the code: for every HEAD with a chunked body the handler gets no body, and the body is taken for the next request and refused (C165_violated_always, C165_violated). C165_sound_partial holds for all streams. C165_delivered_partial, C165_accepted_partial and C165_wire_partial: well-formed HTTP/1.1 messages with one Host; left out in C165_wire_partial: the fields of changedFields, Authorization if the client sends none and the URL has a user (see C171), CONNECT, bodies that do not fit. The reader of net/http is modelled from memory, without limits on sizes of heads and chunk lines"
  },
  {
   "property": "C166",
   "status": "partial",
   "theorems": [
    "J8a.C166_sound_partial",
    "J8a.C166_received_partial",
    "J8a.C166_accepted_partial",
    "J8a.C166_wire_partial",
    "J8a.C166_content_partial",
    "J8a.C166_violated_always",
    "J8a.C166_violated"
   ],
   "note": "violated by the code: a response after more than five interim ones is not received (C166_violated_always, C166_violated). C166_sound_partial holds for all streams; names need not be tokens, see C133_violated. C166_received_partial, C166_accepted_partial, C166_wire_partial and C166_content_partial: well-formed messages after at most five interim ones; left out: the fields of changedReplyFields beyond what is said of Content-Type, Cache-Control and Content-Encoding, statuses of 400 and up, CONNECT, entities for which C38 or C77 fails. The reader of net/http is modelled from memory"
  },
  {
   "property": "C167",
   "status": "partial",
   "theorems": [
    "J8a.C167_replies_partial",
    "J8a.C167_pairs_partial",
    "J8a.C167_partial",
    "J8a.C167_violated_always",
    "J8a.C167_violated"
   ],
   "note": "violated by the code: the 101 of an upstream is passed on to a client, which then has no answer and cannot read on (C167_violated_always, C167_violated; see C107). C167_replies_partial holds for every stream of bytes that clients send; left out: CONNECT, late writes (C50), upstream responses that are not well-formed (C133) or 1xx, HEAD in other spellings. C167_pairs_partial and C167_partial: well-formed messages as in C165. The loop of net/http is modelled from memory; when it ends a connection is a parameter (ReplyConn) but for what endsAfter says"
  },
  {
   "property": "C168",
   "status": "partial",
   "theorems": [
    "J8a.C168_partial",
    "J8a.C168_violated_empty",
    "J8a.C168_violated"
   ],
   "note": "violated by the code: a key set without keys, or with keys of the right algorithm that are not of its kind or size, is an error without a warning (C168_violated_empty, C168_violated for every algorithm), and the caller drops the error. C168_partial is exact about which refreshes warn, what the line says, and that a skipped refresh changes nothing; left out: refreshes that crash (C24)"
  },
  {
   "property": "C169",
   "status": "partial",
   "theorems": [
    "J8a.C169_partial",
    "J8a.C169_old_partial",
    "J8a.C169_violated_old",
    "J8a.C169_violated",
    "J8a.C169_violated_words"
   ],
   "note": "violated by the code: an upstream's Connection: close ends the client's connection (C169_violated, see C154); with HTTP/1.0, close beside keep-alive is not heeded (C169_violated_old); 'do not close' closes (C169_violated_words). C169_partial: well-formed messages of HTTP/1.1 as in C165 with options that are tokens, upstreams that send no Connection header, methods other than CONNECT and other spellings of HEAD, responses that can be read. C169_old_partial is about the reasons to end a connection (MayEnd, see C154_quiet_partial) for HTTP/1.0. How net/http reads the wish is modelled from memory"
  },
  {
   "property": "C170",
   "status": "partial",
   "theorems": [
    "J8a.C170_relayed_partial",
    "J8a.C170_violated"
   ],
   "note": "violated by the code: with the transform /, the bytes of a request for /a@evil.com/x become bytes with Host: evil.com (C170_violated). C170_relayed_partial: documents whose paths have no special characters or, without a transform, are regular expressions without |, with plain transforms and hosts, messages of HTTP/1.1 as in C165 whose target is a path and query if a route selects it, no CONNECT, bodies that fit, HEAD without a body, and with the transform / targets in which a new part begins after the path. Library code of net/http is modelled from memory"
  },
  {
   "property": "C171",
   "status": "partial",
   "theorems": [
    "J8a.C171_exact_partial",
    "J8a.C171_own_partial",
    "J8a.C171_violated",
    "J8a.C171_violated_always"
   ],
   "note": "violated by the code: with the transform /, a request for /a@evil.com/x without Authorization is sent to evil.com with Basic credentials made of the upstream's name and port (C171_violated); C171_violated_always: the same for every route with the transform /, every named upstream, every text before the @ and every host after it. C171_exact_partial says for every execution what is sent; C171_own_partial: plain routes and hosts, targets in origin form, and either the client sends an Authorization or, with the transform /, a new part begins after the path. C170 says the same in terms of the document and bytes"
  },
  {
   "property": "C172",
   "status": "partial",
   "theorems": [
    "J8a.C172_partial",
    "J8a.C172_violated_always",
    "J8a.C172_violated"
   ],
   "note": "violated by the code: a 101 of an upstream with Upgrade and Connection is passed on with both, what the upstream sends afterwards is dropped, and the gateway reads the connection of the client as HTTP (C172_violated_always, C172_violated). C172_partial: a client is told only if the last upstream asked said so; responses without late writes, clean headers"
  },
  {
   "property": "C173",
   "status": "partial",
   "theorems": [
    "J8a.C173_own_partial",
    "J8a.C173_ended_partial",
    "J8a.C173_whole_partial",
    "J8a.C173_waiting_partial",
    "J8a.C173_close_partial",
    "J8a.C173_reused",
    "J8a.C173_abandoned",
    "J8a.C173_violated_always",
    "J8a.C173_violated"
   ],
   "note": "violated by the code: bytes that follow an answer and read as a response are handed to the next request that takes the connection before the read loop looks at it (C173_violated_always); with the body of an answer to HEAD, the client of another request gets it (C173_violated). C173_own_partial, C173_waiting_partial: upstreams that send one well-formed answer to each request and nothing else. C173_abandoned: every upstream. persistConn is from the source of Go 1.15 as remembered. C173_close_partial: a connection is used again only if the answer does not say that it ends; C173_reused: and only after a final response that was read to its end, every upstream. C173_whole_partial: an answer that was read to its end is all of the upstream's answer also if the connection is not used again, unless it ends with the connection. C173_ended_partial is the same for answers that end with the connection, if the upstream does not close it too early."
  },
  {
   "property": "C174",
   "status": "partial",
   "theorems": [
    "J8a.C174_alone",
    "J8a.C174_source",
    "J8a.C174_own_partial",
    "J8a.C174_message_partial",
    "J8a.C174_violated_always",
    "J8a.C174_violated"
   ],
   "note": "C174_alone and C174_source hold for every upstream. C174_own_partial and C174_message_partial assume that upstreams send one well-formed answer to each request on a connection and nothing else; the last is about reused connections and answers below 400. C174_violated_always and C174_violated: an upstream that sends more than it was asked for is heard by another client."
  },
  {
   "property": "C175",
   "status": "partial",
   "theorems": [
    "J8a.C175_partial",
    "J8a.C175_violated_always",
    "J8a.C175_violated"
   ],
   "note": "Proved for all bytes over HTTP/1.1, configurations without spaces in transforms, schemes and hosts, and methods other than CONNECT; a request that is written in part ends its connection. C175_violated_always and C175_violated: a target with a space, over HTTP/2, makes the rest of the connection unreadable."
  },
  {
   "property": "C176",
   "status": "proved",
   "theorems": [
    "J8a.C176_finished"
   ],
   "note": "Fairness is Spec/Schedule.Fair for this request alone: its handler runs if it stays able to, and the read timers of its attempts fire or their contexts are cancelled. Nothing is assumed about its other goroutines, the connections, the pool and the other requests."
  },
  {
   "property": "C177",
   "status": "partial",
   "theorems": [
    "J8a.C177_source_partial",
    "J8a.C177_message_partial",
    "J8a.C177_violated",
    "J8a.C177_refused_partial"
   ],
   "note": "C177_source_partial holds under every schedule and for every upstream. C177_message_partial is for orderly executions, answers below 400 and upstreams that send one well-formed answer to each request, and do not close a connection in the midst of an answer that ends with it. Violated if they do (C177_violated): a part of the body is passed on as complete, with a length. For gzip bodies that end too early see C78_violated. C177_refused_partial: with a status of 400 and up the client reads a message of the gateway itself, without any field of an upstream; its status is 502 or 504, or that of the upstream's whole answer to this client's request (400 to 499)."
  },
  {
   "property": "C178",
   "status": "partial",
   "theorems": [
    "J8a.C178_refused_partial",
    "J8a.C178_requests_partial",
    "J8a.C178_exchange_partial",
    "J8a.C178_violated"
   ],
   "note": "C178_requests_partial and C178_exchange_partial put C170_relayed_partial and C177_message_partial together, for every number of requests. Restrictions: documents as in C170_relayed_partial, origin-form targets, bodies that fit, no CONNECT, with the transform / a new part after the path; on the way back orderly executions, answers below 400 and upstreams as in C177. Violated (C178_violated): with the transform / a client can make the gateway connect to an address that is not in the document and write its request there. C178_refused_partial: the same for clients of a gateway started with a document, with the message that the upstream read for the request."
  },
  {
   "property": "C179",
   "status": "partial",
   "theorems": [
    "J8a.C179_turned_partial",
    "J8a.C179_violated"
   ],
   "note": "violated by the code: a body of exactly maxBodyBytes is refused with 413 (C179_violated, with the document and the bytes). C179_turned_partial: with lengths from the limit on; HTTP/1.1 messages as in C165_delivered_partial; engines that are right about the paths; for entries with a jwksUrl and no key 401 is explained only as to tokens signed with keys served at the start; a gateway whose id, version and request id are text"
  },
  {
   "property": "C180",
   "status": "partial",
   "theorems": [
    "J8a.C180_answered_partial",
    "J8a.C180_violated",
    "J8a.C180_violated_always"
   ],
   "note": "violated by the code: a client that sends something that is no token to a route with a jwt entry with keys reads nothing, because the handler crashes (C180_violated: document, message, and every execution of the hub; C180_violated_always: every document that protects the target). C180_answered_partial: handlers that ended, in good order if the request was passed on; messages and documents as in C178 and C179; upstreams that answer each request with one well-formed message"
  },
  {
   "property": "C181",
   "status": "partial",
   "theorems": [
    "J8a.C181_refused_partial",
    "J8a.C181_violated"
   ],
   "note": "violated by the code: a client that presents something that is no token to a protected route reads nothing (C181_violated, and C180_violated_always for every document). C181_refused_partial: bodies of announced length that are not exactly the limit (C29_violated, C163_violated), messages and documents as in C178 and C179, entries of the document that are there"
  },
  {
   "property": "C182",
   "status": "partial",
   "theorems": [
    "J8a.C182_admitted_partial",
    "J8a.C182_violated"
   ],
   "note": "violated by the code: a body in chunks that is longer than the limit is dropped, and an upstream is asked without it (C182_violated). C182_admitted_partial: messages in the grammar of C165 and documents whose paths begin with / and have no alternatives (C108_violated); the bound for bodies only without a transfer coding"
  },
  {
   "property": "C183",
   "status": "partial",
   "theorems": [
    "J8a.C183_passed_partial",
    "J8a.C183_violated"
   ],
   "note": "violated by the code: a body exactly as long as the limit is refused with 413 (C183_violated). C183_passed_partial: messages and documents as in C178 and C179, bodies below the limit or in chunks, entries of the document that are there"
  },
  {
   "property": "C184",
   "status": "partial",
   "theorems": [
    "J8a.C184_alive_partial",
    "J8a.C184_violated"
   ],
   "note": "violated by the code: a text in the Authorization field that is no token crashes the handler (C184_violated). C184_alive_partial: tokens that are tokens, documents without empty resources, entries of the document that are there; for messages that are passed on, those of C178, orderly executions and statuses of 100 and above"
  },
  {
   "property": "C185",
   "status": "partial",
   "theorems": [
    "J8a.C185_served_partial",
    "J8a.C185_once_partial",
    "J8a.C185_violated"
   ],
   "note": "violated by the code: a body exactly as long as the limit is refused with 413 (C185_violated). C185_served_partial: messages and documents as in C178 and C183, upstreams that keep to the protocol, no late writes; C185_once_partial: for a single attempt, and messages that must not be repeated, without an assumption on writes"
  },
  {
   "property": "C186",
   "status": "partial",
   "theorems": [
    "J8a.C186_told_partial",
    "J8a.C186_violated"
   ],
   "note": "violated by the code: a client whose bearer text is no token reads nothing, however long the gateway goes on (C186_violated). C186_told_partial: messages and documents as in C181"
  },
  {
   "property": "C187",
   "status": "partial",
   "theorems": [
    "J8a.C187_answered_partial",
    "J8a.C187_violated"
   ],
   "note": "violated by the code: a client whose bearer text is no token is never answered (C187_violated). C187_answered_partial: messages and documents as in C178 and C184, texts that are tokens, upstreams that keep to the protocol, no late writes (there are none with one attempt, Hub.Goes.single)"
  }
 ]
}