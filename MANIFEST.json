{
 "claims": [
  {
   "property": "C01",
   "status": "proved",
   "theorems": [
    "OAuth.C01_percent_encode",
    "OAuth.C01_to_form",
    "OAuth.C01_to_form_any_request",
    "OAuth.C01_fragmentation",
    "OAuth.C01_to_query"
   ],
   "note": "to_form for every list of pairs and every request; encoder equality for every value and fragmentation"
  },
  {
   "property": "C02",
   "status": "proved",
   "theorems": [
    "OAuth.C02_double_encoding",
    "OAuth.C02_is_single_twice",
    "OAuth.C02_parameter_list",
    "OAuth.C02_derived"
   ],
   "note": "every text, every fragmentation; the base strings of parameter lists and derived requests"
  },
  {
   "property": "C03",
   "status": "proved",
   "theorems": [
    "OAuth.C03_form_round_trip",
    "OAuth.C03_form_injective",
    "OAuth.C03_form_round_trip_any_request",
    "OAuth.C03_keys_not_encoded"
   ],
   "note": "keys made of unreserved characters, as the statement requires; C03_keys_not_encoded shows the requirement is needed"
  },
  {
   "property": "C04",
   "status": "proved",
   "theorems": [
    "OAuth.C04_no_injection",
    "OAuth.C04_outputs",
    "OAuth.C04_delimiters",
    "OAuth.C04_plain_form"
   ],
   "note": "Single and double encoding of every value (C04_no_injection); whole headers, forms, queries and base strings (C04_outputs, C04_delimiters, C04_plain_form)."
  },
  {
   "property": "C05",
   "status": "proved",
   "theorems": [
    "OAuth.C05_unchecked_conversions_safe"
   ],
   "note": "slices and assertions are explicit partial operations that never fail"
  },
  {
   "property": "C06",
   "status": "proved",
   "theorems": [
    "OAuth.C06_base_string",
    "OAuth.C06_digest_bytes"
   ],
   "note": "every request, every signing algorithm with constant name and nonce/timestamp use; header, form and query"
  },
  {
   "property": "C07",
   "status": "partial",
   "theorems": [
    "OAuth.C07_base_string_iff",
    "OAuth.C07_rfc_server_accepts_partial",
    "OAuth.C07_violated"
   ],
   "note": "Violated: values of the same parameter are sorted before encoding (C07_violated). Exact condition on base strings (C07_base_string_iff); acceptance proved under it."
  },
  {
   "property": "C08",
   "status": "proved",
   "theorems": [
    "OAuth.C08_permutation_invariance",
    "OAuth.C08_permutation_invariance_exact"
   ],
   "note": "every sorting algorithm meeting the contract"
  },
  {
   "property": "C09",
   "status": "proved",
   "theorems": [
    "OAuth.C09_header_parses",
    "OAuth.C09_protocol_params"
   ],
   "note": "every request and signature method whose signature needs no quoting (all of the crate's except PLAINTEXT with '\"' are shown to meet it); see C27 for PLAINTEXT"
  },
  {
   "property": "C10",
   "status": "proved",
   "theorems": [
    "OAuth.C10_signed_is_sent"
   ],
   "note": ""
  },
  {
   "property": "C11",
   "status": "partial",
   "theorems": [
    "OAuth.C11_only_protocol_parameters",
    "OAuth.C11_iff",
    "OAuth.C11_violated",
    "OAuth.C11_protocol_parameters_partial"
   ],
   "note": "C11_violated: request parameters are dropped from authorized forms and queries; C11_protocol_parameters_partial proves the part about protocol parameters and the signature"
  },
  {
   "property": "C12",
   "status": "proved",
   "theorems": [
    "OAuth.C12_form_layout"
   ],
   "note": "exact text of form and query"
  },
  {
   "property": "C13",
   "status": "proved",
   "theorems": [
    "OAuth.C13_to_query",
    "OAuth.C13_to_query_of_to_form"
   ],
   "note": ""
  },
  {
   "property": "C14",
   "status": "proved",
   "theorems": [
    "OAuth.C14_misordered_keys"
   ],
   "note": "every call sequence"
  },
  {
   "property": "C15",
   "status": "proved",
   "theorems": [
    "OAuth.C15_uri_query",
    "OAuth.C15_release_signs_verbatim"
   ],
   "note": ""
  },
  {
   "property": "C16",
   "status": "proved",
   "theorems": [
    "OAuth.C16_any_request",
    "OAuth.C16_parameter_list_never_panics"
   ],
   "note": "HMAC-SHA1, PLAINTEXT, and RSA-SHA1 with a key operation that does not fail; a build without a clock needs a timestamp in the options."
  },
  {
   "property": "C17",
   "status": "proved",
   "theorems": [
    "OAuth.C17_derived",
    "OAuth.C17_protocol_once_in_order",
    "OAuth.C17_empty"
   ],
   "note": ""
  },
  {
   "property": "C18",
   "status": "proved",
   "theorems": [
    "OAuth.C18_sorted_interleaving",
    "OAuth.C18_order"
   ],
   "note": ""
  },
  {
   "property": "C19",
   "status": "proved",
   "theorems": [
    "OAuth.C19_always_sorted"
   ],
   "note": "every history of constructions and extensions"
  },
  {
   "property": "C20",
   "status": "proved",
   "theorems": [
    "OAuth.C20_from_sorted",
    "OAuth.C20_from_sorted_rejects"
   ],
   "note": ""
  },
  {
   "property": "C21",
   "status": "proved",
   "theorems": [
    "OAuth.C21_declaration_order",
    "OAuth.C21_as_assert_sorted",
    "OAuth.C21_rejection_order"
   ],
   "note": ""
  },
  {
   "property": "C22",
   "status": "proved",
   "theorems": [
    "OAuth.C22_fields"
   ],
   "note": ""
  },
  {
   "property": "C23",
   "status": "partial",
   "theorems": [
    "OAuth.C23_distinct_names",
    "OAuth.C23_accepts",
    "OAuth.C23_partial",
    "OAuth.C23_empty_name_reported",
    "OAuth.C23_non_ascii_key",
    "OAuth.C23_protocol_name",
    "OAuth.C23_violated",
    "OAuth.C23_violated_duplicates",
    "OAuth.C23_accepted_written",
    "OAuth.C23_duplicates_exact",
    "OAuth.C23_accepted_iff"
   ],
   "note": "False as stated: a lone field named \"\" is reported as a duplicate (C23_empty_name_reported), and identifiers outside ASCII become keys that are not URI-safe (C23_non_ascii_key). C23_partial proves the rest; C23_protocol_name shows that names of protocol parameters are not excluded. Exactly: C23_duplicates_exact (what is reported), C23_accepted_iff and, in terms of what is written, C23_accepted_written (what is accepted)."
  },
  {
   "property": "C24",
   "status": "proved",
   "theorems": [
    "OAuth.C24_accepted_iff",
    "OAuth.C24_configuration",
    "OAuth.C24_order_independent",
    "OAuth.C24_others_ignored",
    "OAuth.C24_no_panic",
    "OAuth.C24_container",
    "OAuth.C24_items_parse",
    "OAuth.C24_arguments"
   ],
   "note": ""
  },
  {
   "property": "C25",
   "status": "proved",
   "theorems": [
    "OAuth.C25_streaming_hmac_key",
    "OAuth.C25_streaming_hmac_sha1_key"
   ],
   "note": "any hash of at most 64 bytes output, any fragmentation of the key text"
  },
  {
   "property": "C26",
   "status": "proved",
   "theorems": [
    "OAuth.C26_hmac_sha1_signature"
   ],
   "note": "SHA-1 is modelled and computed, see Vectors.lean"
  },
  {
   "property": "C27",
   "status": "partial",
   "theorems": [
    "OAuth.C27_header_iff",
    "OAuth.C27_header_partial",
    "OAuth.C27_header_violated",
    "OAuth.C27_form_violated"
   ],
   "note": "C27_header_violated and C27_form_violated: the PLAINTEXT signature is not percent-encoded; C27_header_partial covers secrets of unreserved characters; C27_header_iff: these are the only ones"
  },
  {
   "property": "C28",
   "status": "proved",
   "theorems": [
    "OAuth.C28_rsa_sha1_signature"
   ],
   "note": "RSA key operations are parameters"
  },
  {
   "property": "C29",
   "status": "partial",
   "theorems": [
    "OAuth.C29_either_partial",
    "OAuth.C29_crate_methods",
    "OAuth.C29_violated",
    "OAuth.C29_either_exact"
   ],
   "note": "C29_violated: an overridden consumer_key is not delegated; C29_either_partial covers every algorithm that does not override it; C29_either_exact says what Either does for every algorithm"
  },
  {
   "property": "C30",
   "status": "proved",
   "theorems": [
    "OAuth.C30_secrets_only_in_signature",
    "OAuth.C30_secrets_never_panic"
   ],
   "note": "every signature method with constant name and nonce/timestamp use, both runs succeeding (header, form, query); success itself is independent of the secrets for methods that sign every base string"
  },
  {
   "property": "C31",
   "status": "partial",
   "theorems": [
    "OAuth.C31_credentials",
    "OAuth.C31_builder",
    "OAuth.C31_rsa_key",
    "OAuth.C31_authorizer_partial",
    "OAuth.C31_plaintext_reveals_secrets",
    "OAuth.C31_violated"
   ],
   "note": "Holds for Credentials, Token, Builder and for HMAC-SHA1 and RSA-SHA1 authorizers; violated by PLAINTEXT authorizers, whose Debug output determines the secrets (C31_plaintext_reveals_secrets, C31_violated)."
  },
  {
   "property": "C32",
   "status": "proved",
   "theorems": [
    "OAuth.C32_nonce_text",
    "OAuth.C32_nonce_injective",
    "OAuth.C32_nonce_sent"
   ],
   "note": "generated nonce is a prefix-free URL-safe text, injective in the nine random bytes; the same text is signed and sent"
  },
  {
   "property": "C33",
   "status": "partial",
   "theorems": [
    "OAuth.C33_positive_iff",
    "OAuth.C33_timestamp_partial",
    "OAuth.C33_violated"
   ],
   "note": "C33_violated: timestamp 0 when the clock reads the first second of the epoch; C33_timestamp_partial proves the rest; C33_positive_iff says exactly when the timestamp is positive"
  },
  {
   "property": "C34",
   "status": "proved",
   "theorems": [
    "OAuth.C34_last_call_wins",
    "OAuth.C34_outputs",
    "OAuth.C34_commute"
   ],
   "note": "every history of setter and authorize calls"
  },
  {
   "property": "C35",
   "status": "proved",
   "theorems": [
    "OAuth.C35_shorthands",
    "OAuth.C35_form_shorthands",
    "OAuth.C35_query_shorthands",
    "OAuth.C35_consuming",
    "OAuth.C35_free",
    "OAuth.C35_with_buf",
    "OAuth.C35_outputs"
   ],
   "note": ""
  },
  {
   "property": "C36",
   "status": "proved",
   "theorems": [
    "OAuth.C36_header",
    "OAuth.C36_form",
    "OAuth.C36_query",
    "OAuth.C36_urlencoder"
   ],
   "note": "every writer (any state machine failing at any point), every signature method and request; also to_query and the public Urlencoder"
  },
  {
   "property": "C37",
   "status": "proved",
   "theorems": [
    "OAuth.C37_history",
    "OAuth.C37_replay",
    "OAuth.C37_replay_serializers",
    "OAuth.C37_record_eq",
    "OAuth.C37_oauth_parameters"
   ],
   "note": ""
  },
  {
   "property": "C38",
   "status": "proved",
   "theorems": [
    "OAuth.C38_in_place",
    "OAuth.C38_map_credentials",
    "OAuth.C38_map_token",
    "OAuth.C38_map_one_side",
    "OAuth.C38_compose"
   ],
   "note": "stateful closures are state monads; composition for stateless functions (with state the order of effects differs)"
  },
  {
   "property": "C39",
   "status": "proved",
   "theorems": [
    "OAuth.C39_success_iff",
    "OAuth.C39_order_independent",
    "OAuth.C39_others_ignored",
    "OAuth.C39_errors_truthful",
    "OAuth.C39_errors_complete",
    "OAuth.C39_round_trip"
   ],
   "note": "every format delivering a map, every entry list; formats that do not deliver a map are out of the model"
  },
  {
   "property": "C40",
   "status": "proved",
   "theorems": [
    "OAuth.C40_protocol_calls_ignored"
   ],
   "note": ""
  },
  {
   "property": "C41",
   "status": "proved",
   "theorems": [
    "OAuth.C41_forwarding"
   ],
   "note": ""
  },
  {
   "property": "C42",
   "status": "proved",
   "theorems": [
    "OAuth.C42_deterministic",
    "OAuth.C42_pinned",
    "OAuth.C42_consumption",
    "OAuth.C42_same_parameters"
   ],
   "note": "every writer, signature method and request without repeated protocol calls; exact consumption; requests conveying the same parameters"
  },
  {
   "property": "C43",
   "status": "proved",
   "theorems": [
    "OAuth.C43_echo",
    "OAuth.C43_derived",
    "OAuth.C43_server_accepts",
    "OAuth.C43_runs_iff",
    "OAuth.C43_keys_iff",
    "OAuth.C43_reserved_secret"
   ],
   "note": "For the parameters of any ParameterList or derived struct of strings with URI-safe keys; keys and secrets as Plain and Agreed state (the server uses secrets unencoded). C43_runs_iff is the exact condition for any client and any endpoint; C43_keys_iff and C43_reserved_secret: a secret with a reserved character, known to both sides, is refused."
  },
  {
   "property": "C44",
   "status": "partial",
   "theorems": [
    "OAuth.C44_accepted_iff",
    "OAuth.C44_refused",
    "OAuth.C44_accepts_only_signed_partial",
    "OAuth.C44_plaintext_accepts_anything",
    "OAuth.C44_violated",
    "OAuth.C44_not_found",
    "OAuth.C44_service",
    "OAuth.C44_service_answers",
    "OAuth.C44_no_clock"
   ],
   "note": "Every accepted request carries the expected identifiers, verifier and timestamp, and a matching HMAC unless it says PLAINTEXT. The full statement is false of the code: a PLAINTEXT signature is never compared, shown by C44_violated and C44_plaintext_accepts_anything. C44_accepted_iff and C44_refused say exactly which requests reach the handler."
  },
  {
   "property": "C45",
   "status": "partial",
   "theorems": [
    "OAuth.C45_panics_iff",
    "OAuth.C45_never_panics_partial",
    "OAuth.C45_service_never_panics_partial",
    "OAuth.C45_violated"
   ],
   "note": "No panic if the timestamp plus the window fits in u64, the clock is after the epoch and the body arrives. Without the first the full statement is false in debug builds, shown by C45_violated. C45_panics_iff says exactly when it panics."
  },
  {
   "property": "C46",
   "status": "proved",
   "theorems": [
    "OAuth.C46_authorize",
    "OAuth.C46_base_string_binds"
   ],
   "note": ""
  },
  {
   "property": "C47",
   "status": "proved",
   "theorems": [
    "OAuth.C47_signing_key_injective",
    "OAuth.C47_plaintext_output",
    "OAuth.C47_hmac_state"
   ],
   "note": ""
  },
  {
   "property": "C48",
   "status": "proved",
   "theorems": [
    "OAuth.C48_items_in_order",
    "OAuth.C48_consumed_iff",
    "OAuth.C48_headers",
    "OAuth.C48_client_header",
    "OAuth.C48_client_methods",
    "OAuth.C48_empty_value_rejected"
   ],
   "note": "Iterator semantics, when the text is consumed completely, and that headers of this crate are."
  },
  {
   "property": "C49",
   "status": "proved",
   "theorems": [
    "OAuth.C49_temporary_credentials",
    "OAuth.C49_token_credentials",
    "OAuth.C49_main",
    "OAuth.C49_printed",
    "OAuth.C49_late_panics"
   ],
   "note": "The HTTP transport is assumed faithful (Http in Model/Client.lean); InTime states the clock conditions."
  },
  {
   "property": "C50",
   "status": "proved",
   "theorems": [
    "OAuth.C50_base_string_iff",
    "OAuth.C50_rfc_server_accepts",
    "OAuth.C50_derived_request_accepted"
   ],
   "note": ""
  },
  {
   "property": "C51",
   "status": "proved",
   "theorems": [
    "OAuth.C51_rfc_server_accepts_rsa",
    "OAuth.C51_pkcs1",
    "OAuth.C51_derived_request_accepted_rsa"
   ],
   "note": "RFC 3447 stands for the rsa crate"
  },
  {
   "property": "C52",
   "status": "partial",
   "theorems": [
    "OAuth.C52_same_answer_until_limit",
    "OAuth.C52_not_after_window_partial",
    "OAuth.C52_violated"
   ],
   "note": "violated, see C52_violated; proved: not answered after the time window"
  },
  {
   "property": "C53",
   "status": "proved",
   "theorems": [
    "OAuth.C53_base_string_binds",
    "OAuth.C53_accepted_was_signed",
    "OAuth.C53_tampered_refused"
   ],
   "note": ""
  },
  {
   "property": "C54",
   "status": "proved",
   "theorems": [
    "OAuth.C54_only_checks",
    "OAuth.C54_same_output"
   ],
   "note": ""
  },
  {
   "property": "C55",
   "status": "partial",
   "theorems": [
    "OAuth.C55_from_sorted",
    "OAuth.C55_in_order_partial",
    "OAuth.C55_in_order_iff",
    "OAuth.C55_sent_as_pairs",
    "OAuth.C55_contents",
    "OAuth.C55_vec",
    "OAuth.C55_violated"
   ],
   "note": "C55_violated: ParameterList::default keeps a container whose Default is not sorted; C55_in_order_partial proves the rest and C55_in_order_iff that this is the only exception"
  },
  {
   "property": "C56",
   "status": "partial",
   "theorems": [
    "OAuth.C56_base_string_iff",
    "OAuth.C56_rfc_server_accepts_partial",
    "OAuth.C56_not_normal",
    "OAuth.C56_violated",
    "OAuth.C56_uri_part",
    "OAuth.C56_query_wrong",
    "OAuth.C56_any_names_iff"
   ],
   "note": "C56_violated: the URI is signed as given, so http://a.b (no slash), upper case hosts and default ports give another base string; C56_rfc_server_accepts_partial covers URIs in normal form, C56_base_string_iff shows these are the only ones, C56_any_names_iff the same for all methods and names, C56_query_wrong that a URI with a query is never signed as the RFC says"
  },
  {
   "property": "C57",
   "status": "partial",
   "theorems": [
    "OAuth.C57_iff",
    "OAuth.C57_partial",
    "OAuth.C57_right_field",
    "OAuth.C57_violated",
    "OAuth.C57_method_parameter"
   ],
   "note": "Violated: a field written r#keyword is accessed as self.keyword, which is not an identifier (C57_violated); a type parameter called _S clashes with that of the method (C57_method_parameter). C57_iff gives the exact condition under which all names resolve; C57_partial covers structs without raw field names and without names starting with an underscore; C57_right_field holds without restriction."
  },
  {
   "property": "C58",
   "status": "proved",
   "theorems": [
    "OAuth.C58_applies_iff",
    "OAuth.C58_arguments",
    "OAuth.C58_declares",
    "OAuth.C58_always_generates"
   ],
   "note": "For every item the macro expands, with bounds known by their text."
  },
  {
   "property": "C59",
   "status": "proved",
   "theorems": [
    "OAuth.C59_panics_iff",
    "OAuth.C59_all_errors",
    "OAuth.C59_field_errors",
    "OAuth.C59_reports_unique"
   ],
   "note": "The errors of a field are stated for attributes that syn can parse (an attribute that cannot be parsed is reported as one error). Token streams satisfy Lawful; C88 has the exact panic condition without it."
  },
  {
   "property": "C60",
   "status": "proved",
   "theorems": [
    "OAuth.C60_hmac",
    "OAuth.C60_rsa",
    "OAuth.C60_parameter_list",
    "OAuth.C60_derived"
   ],
   "note": "HMAC-SHA1 for any understandable request, parameter lists and derived requests; RSA-SHA1 with RFC 3447 keys."
  },
  {
   "property": "C61",
   "status": "partial",
   "theorems": [
    "OAuth.C61_alone",
    "OAuth.C61_alone_rsa",
    "OAuth.C61_partial",
    "OAuth.C61_partial_rsa",
    "OAuth.C61_violated"
   ],
   "note": "False of the code (C61_violated): the request parameters are not in the output. C61_alone and C61_alone_rsa are exact; C61_partial, C61_partial_rsa: accepted if the request has none or if they are sent the other way."
  },
  {
   "property": "C62",
   "status": "partial",
   "theorems": [
    "OAuth.C62_iff",
    "OAuth.C62_partial",
    "OAuth.C62_methods",
    "OAuth.C62_derived",
    "OAuth.C62_violated"
   ],
   "note": "False of the code (C62_violated): a parameter list may contain oauth_nonce. C62_iff is exact, for every method whose signature is percent-encoded (C62_methods: HMAC-SHA1, RSA-SHA1), and C62_derived for derived requests; C62_partial: it holds if no parameter is named like a protocol parameter, and always for the signed form or query alone."
  },
  {
   "property": "C63",
   "status": "proved",
   "theorems": [
    "OAuth.C63_request",
    "OAuth.C63_errors",
    "OAuth.C63_fields"
   ],
   "note": "Tokens of the method body with hygiene contexts and lexical environments; equal to the coarse rendering used by C21-C23, C50."
  },
  {
   "property": "C64",
   "status": "partial",
   "theorems": [
    "OAuth.C64_iff",
    "OAuth.C64_partial",
    "OAuth.C64_violated"
   ],
   "note": "False next to a constant or static called like a variable of the generated code, including the parameters f and t of its helper functions (C64_violated); C64_iff is the exact condition, C64_partial assumes no such constant."
  },
  {
   "property": "C65",
   "status": "proved",
   "theorems": [
    "OAuth.C65_iff",
    "OAuth.C65_served",
    "OAuth.C65_text",
    "OAuth.C65_credentials",
    "OAuth.C65_flattened"
   ],
   "note": "iff for arbitrary bodies (C65_iff), round trip among other parameters (C65_served), serde(flatten) (C65_flattened). Form decoding of serde_urlencoded is proved equal to the URL Standard specification, with the reading of UTF-8 written out (C90)."
  },
  {
   "property": "C66",
   "status": "partial",
   "theorems": [
    "OAuth.C66_partial",
    "OAuth.C66_violated",
    "OAuth.C66_iff"
   ],
   "note": "False of formats that store a struct as a sequence (bincode, postcard, JSON arrays): the visitor has no visit_seq, so what Serialize writes Deserialize always refuses (C66_violated). C66_partial: formats with field names. C66_iff: exactly those."
  },
  {
   "property": "C67",
   "status": "partial",
   "theorems": [
    "OAuth.C67_violated",
    "OAuth.C67_partial",
    "OAuth.C67_recovers",
    "OAuth.C67_iff",
    "OAuth.C67_contents"
   ],
   "note": "False: extend hands the iterator to the container and sorts afterwards, so an iterator that panics leaves the list out of order (C67_violated, C67_iff for Vec). C67_partial: in order unless the last call was an extend that unwound; C67_recovers: a completed extend repairs it; C67_contents: nothing is lost."
  },
  {
   "property": "C68",
   "status": "partial",
   "theorems": [
    "OAuth.C68_iff",
    "OAuth.C68_partial",
    "OAuth.C68_violated",
    "OAuth.C68_captured"
   ],
   "note": "Violated: a struct called Copy with a fmt attribute captures the Copy of the helper functions (C68_violated), and _S in an attribute path is captured by the parameter of the method (C68_captured). C68_iff gives the exact condition; C68_partial covers structs without underscored names where Copy, Fn, Sized and bool are those of the standard library."
  },
  {
   "property": "C69",
   "status": "proved",
   "theorems": [
    "OAuth.C69_count",
    "OAuth.C69_chance",
    "OAuth.C69_bounds",
    "OAuth.C69_years",
    "OAuth.C69_series",
    "OAuth.C69_collide"
   ],
   "note": "C69_count and C69_chance give the exact number and probability for every n, C69_bounds closed bounds, C69_years the figure of the comment; C69_series and C69_collide show that the nonces in the headers of successive requests are those of the successive draws."
  },
  {
   "property": "C70",
   "status": "partial",
   "theorems": [
    "OAuth.C70_partial",
    "OAuth.C70_violated",
    "OAuth.C70_iff"
   ],
   "note": "Violated by a PLAINTEXT request with a wrong signature (C70_violated): the answer tells whether the identifiers are the expected ones. C70_partial: every request that does not name PLAINTEXT. C70_iff: the exact condition."
  },
  {
   "property": "C71",
   "status": "partial",
   "theorems": [
    "OAuth.C71_iff",
    "OAuth.C71_partial",
    "OAuth.C71_violated",
    "OAuth.C71_scheme_case"
   ],
   "note": "Violated by two spaces after the scheme (C71_violated). C71_iff gives the exact condition for every header; C71_partial: one space and no empty value (or a library that takes them). C71_scheme_case: the scheme is compared with regard to case."
  },
  {
   "property": "C72",
   "status": "partial",
   "theorems": [
    "OAuth.C72_iff",
    "OAuth.C72_collected",
    "OAuth.C72_partial",
    "OAuth.C72_violated",
    "OAuth.C72_violated_order"
   ],
   "note": "Violated by realm in the header (C72_violated) and by values that change order when encoded (C72_violated_order). C72_iff gives the exact condition; C72_partial: requests that meet it."
  },
  {
   "property": "C73",
   "status": "partial",
   "theorems": [
    "OAuth.C73_header_iff",
    "OAuth.C73_partial",
    "OAuth.C73_form_rejected",
    "OAuth.C73_query_rejected",
    "OAuth.C73_violated"
   ],
   "note": "False of the code (C73_violated): exact condition for headers (C73_header_iff); signed forms and queries are never accepted (C73_form_rejected, C73_query_rejected). C73_partial: unreserved secrets."
  },
  {
   "property": "C74",
   "status": "partial",
   "theorems": [
    "OAuth.C74_iff",
    "OAuth.C74_partial",
    "OAuth.C74_violated"
   ],
   "note": "False of the code (C74_violated): a rejected struct with a type parameter S gives E0403 besides the reported errors. Exact condition (C74_iff); C74_partial: no parameter called S."
  },
  {
   "property": "C75",
   "status": "proved",
   "theorems": [
    "OAuth.C75_one_item",
    "OAuth.C75_expands_iff",
    "OAuth.C75_default"
   ],
   "note": ""
  },
  {
   "property": "C76",
   "status": "proved",
   "theorems": [
    "OAuth.C76_items",
    "OAuth.C76_expands_iff"
   ],
   "note": ""
  },
  {
   "property": "C77",
   "status": "partial",
   "theorems": [
    "OAuth.C77_iff",
    "OAuth.C77_partial",
    "OAuth.C77_violated",
    "OAuth.C77_setters"
   ],
   "note": "False of the code (C77_violated): the third rule of impl_setters! does not type-check. Exact condition (C77_iff); C77_partial: bool and Option fields, as in auth::Options. C77_setters holds for all fields."
  },
  {
   "property": "C78",
   "status": "proved",
   "theorems": [
    "OAuth.C78_resolves",
    "OAuth.C78_unique",
    "OAuth.C78_prev_key",
    "OAuth.C78_additive",
    "OAuth.C78_to_form_with_buf"
   ],
   "note": "the items that are conditional or refer to something conditional, of oauth1-request and oauth-credentials; of the dependencies only which crates and features are there"
  },
  {
   "property": "C79",
   "status": "partial",
   "theorems": [
    "OAuth.C79_examples_partial",
    "OAuth.C79_iff",
    "OAuth.C79_std_partial",
    "OAuth.C79_violated",
    "OAuth.C79_clock"
   ],
   "note": "False: C79_violated. C79_iff says for each example when it works; eight work wherever they are compiled, the example of README.md nowhere."
  },
  {
   "property": "C80",
   "status": "proved",
   "theorems": [
    "OAuth.C80_sendable",
    "OAuth.C80_methods",
    "OAuth.C80_plain"
   ],
   "note": "all inputs; user-defined signature methods if their signature texts are encoded (Sends)"
  },
  {
   "property": "C81",
   "status": "proved",
   "theorems": [
    "OAuth.C81_length",
    "OAuth.C81_capacity",
    "OAuth.C81_hmac",
    "OAuth.C81_plaintext"
   ],
   "note": "Exact lengths for requests that serialize in the standard order; capacity for every request"
  },
  {
   "property": "C82",
   "status": "proved",
   "theorems": [
    "OAuth.C82_sha1"
   ],
   "note": "Equivalence with a relational specification, for all messages"
  },
  {
   "property": "C83",
   "status": "partial",
   "theorems": [
    "OAuth.C83_refused_iff",
    "OAuth.C83_handled_iff",
    "OAuth.C83_partial",
    "OAuth.C83_violated",
    "OAuth.C83_violated_handled"
   ],
   "note": "False of the code: a missing consumer key, token or verifier is answered 401 (C83_violated), parameters given twice and other versions of the protocol are let through (C83_violated_handled). C83_refused_iff and C83_handled_iff are exact; C83_partial: the rest."
  },
  {
   "property": "C84",
   "status": "partial",
   "theorems": [
    "OAuth.C84_iff",
    "OAuth.C84_partial",
    "OAuth.C84_violated",
    "OAuth.C84_violated_refused"
   ],
   "note": "False of the code (C84_violated, C84_violated_refused): the content type is compared as text, so a form whose type has a charset or capital letters is passed over. C84_iff: the exact condition; C84_partial: forms whose type is written in the one way."
  },
  {
   "property": "C85",
   "status": "partial",
   "theorems": [
    "OAuth.C85_partial",
    "OAuth.C85_iff",
    "OAuth.C85_violated"
   ],
   "note": "False of the code (C85_violated): an attribute value that came through a variable is refused. C85_iff: a struct is accepted exactly if it has no such value and is accepted when written out; C85_partial: types make no difference."
  },
  {
   "property": "C86",
   "status": "partial",
   "theorems": [
    "OAuth.C86_iff",
    "OAuth.C86_partial",
    "OAuth.C86_only_documented",
    "OAuth.C86_refused",
    "OAuth.C86_violated"
   ],
   "note": "False of the code (C86_violated): crate = \"name\" is refused for every struct (C86_refused). C86_iff: a struct that follows the documentation is accepted exactly if it does not use that attribute and the library is found; C86_partial: the documented attributes of fields are accepted."
  },
  {
   "property": "C87",
   "status": "partial",
   "theorems": [
    "OAuth.C87_parts",
    "OAuth.C87_iff",
    "OAuth.C87_partial",
    "OAuth.C87_lost",
    "OAuth.C87_signed",
    "OAuth.C87_violated"
   ],
   "note": "False of the code (C87_violated): a URI with a fragment gets the request into the fragment (C87_lost). C87_iff: it holds exactly if there is no fragment or no parameter; C87_parts: what happens to every URI."
  },
  {
   "property": "C88",
   "status": "partial",
   "theorems": [
    "OAuth.C88_panics_iff",
    "OAuth.C88_iff",
    "OAuth.C88_partial",
    "OAuth.C88_lenient",
    "OAuth.C88_otherwise",
    "OAuth.C88_violated"
   ],
   "note": "False of the code (C88_violated): an invisible group with parentheses after a path makes Meta::parse unwrap an error. Exact conditions: C88_iff, C88_panics_iff; C88_partial where it holds."
  },
  {
   "property": "C89",
   "status": "proved",
   "theorems": [
    "OAuth.C89_same",
    "OAuth.C89_field",
    "OAuth.C89_container",
    "OAuth.C89_duplicates",
    "OAuth.C89_perm",
    "OAuth.C89_errors",
    "OAuth.C89_other",
    "OAuth.C89_entries_unique",
    "OAuth.C89_unique"
   ],
   "note": "Paths in the texts lose all spaces, also those inside generic arguments (spec: pathText). Places and texts of errors of syn itself are passed on unchanged (ReportsAt.unread)."
  },
  {
   "property": "C90",
   "status": "partial",
   "theorems": [
    "OAuth.C90_text",
    "OAuth.C90_substituted",
    "OAuth.C90_received",
    "OAuth.C90_iff",
    "OAuth.C90_partial",
    "OAuth.C90_accepted_was_signed",
    "OAuth.C90_violated",
    "OAuth.C90_altered_accepted"
   ],
   "note": "false of the code: bytes that are not UTF-8 are signed as U+FFFD (C90_violated, C90_altered_accepted). C90_iff is exact: equal base strings mean equal texts; C90_partial and C90_accepted_was_signed give equal bytes where no U+FFFD is signed"
  },
  {
   "property": "C91",
   "status": "partial",
   "theorems": [
    "OAuth.C91_base_string_iff",
    "OAuth.C91_partial",
    "OAuth.C91_otherwise",
    "OAuth.C91_violated",
    "OAuth.C91_violated_custom_method",
    "OAuth.C91_violated_name",
    "OAuth.C91_form_iff"
   ],
   "note": "false of the code: methods and names are signed as given (C91_violated, C91_violated_custom_method, C91_violated_name). C91_base_string_iff (every method, all names) and C91_form_iff are exact; C91_partial is the claim for methods and names that need no encoding, C91_otherwise says what happens to the others"
  },
  {
   "property": "C92",
   "status": "proved",
   "theorems": [
    "OAuth.C92_calls",
    "OAuth.C92_recorded",
    "OAuth.C92_required",
    "OAuth.C92_own"
   ],
   "note": "For every implementor of Sign; the calls are compared with the list in Spec/Said.lean, with the text of each argument"
  },
  {
   "property": "C93",
   "status": "partial",
   "theorems": [
    "OAuth.C93_written",
    "OAuth.C93_iff",
    "OAuth.C93_partial",
    "OAuth.C93_urn",
    "OAuth.C93_violated",
    "OAuth.C93_form_violated"
   ],
   "note": "Does not hold of names with reserved characters (C93_violated); C93_iff says exactly of which names it holds, C93_partial that it holds of them"
  },
  {
   "property": "C94",
   "status": "proved",
   "theorems": [
    "OAuth.C94_entries",
    "OAuth.C94_in_order_iff",
    "OAuth.C94_strings",
    "OAuth.C94_as_list",
    "OAuth.C94_accepted",
    "OAuth.C94_any_pairs",
    "OAuth.C94_base_string_iff",
    "OAuth.C94_set_in_order_iff",
    "OAuth.C94_numbers_as_values",
    "OAuth.C94_numbers_as_keys"
   ],
   "note": "every lawful Ord; BTreeMap and BTreeSet by the contract of std"
  },
  {
   "property": "C95",
   "status": "proved",
   "theorems": [
    "OAuth.C95_same",
    "OAuth.C95_never",
    "OAuth.C95_bomb",
    "OAuth.C95_forgotten"
   ],
   "note": "unwinding as in Rust: a panic during a panic aborts"
  },
  {
   "property": "C96",
   "status": "partial",
   "theorems": [
    "OAuth.C96_uri_iff",
    "OAuth.C96_base_string_iff",
    "OAuth.C96_example",
    "OAuth.C96_code",
    "OAuth.C96_partial",
    "OAuth.C96_violated"
   ],
   "note": "C96_violated: an authority with capital letters is signed as it is. C96_uri_iff and C96_base_string_iff are exact; C96_partial where it holds, C96_example for the server as it is."
  },
  {
   "property": "C97",
   "status": "proved",
   "theorems": [
    "OAuth.C97_signing",
    "OAuth.C97_output",
    "OAuth.C97_iff",
    "OAuth.C97_keeps",
    "OAuth.C97_capacity"
   ],
   "note": "Every buffer type (writer, default value, Display). C97_signing: fragments and panics; C97_output, C97_iff: outputs; C97_keeps, C97_capacity: buffers that keep what they accept."
  },
  {
   "property": "C98",
   "status": "partial",
   "theorems": [
    "OAuth.C98_iff",
    "OAuth.C98_partial",
    "OAuth.C98_encoded",
    "OAuth.C98_violated",
    "OAuth.C98_unfailing",
    "OAuth.C98_signed",
    "OAuth.C98_covers"
   ],
   "note": "False for values that return Ok after a failed write (C98_violated); exact condition C98_iff."
  },
  {
   "property": "C99",
   "status": "proved",
   "theorems": [
    "OAuth.C99_ties",
    "OAuth.C99_whole",
    "OAuth.C99_division",
    "OAuth.C99_cast",
    "OAuth.C99_timestamp",
    "OAuth.C99_code",
    "OAuth.C99_monotone",
    "OAuth.C99_beyond"
   ],
   "note": "Every rounding to nearest of IEEE 754; trusted: f64 is binary64 and Date.now() gives integral time values."
  },
  {
   "property": "C100",
   "status": "partial",
   "theorems": [
    "OAuth.C100_iff",
    "OAuth.C100_verbatim",
    "OAuth.C100_partial",
    "OAuth.C100_names",
    "OAuth.C100_any_path",
    "OAuth.C100_violated"
   ],
   "note": "False of the code (C100_violated: crate = a::<u8>::b is accepted and gives a use item that is no use declaration). C100_iff is the exact condition on the path; C100_partial the claim under it; C100_any_path shows that the macro does not look at the path."
  },
  {
   "property": "C101",
   "status": "proved",
   "theorems": [
    "OAuth.C101_fmt",
    "OAuth.C101_skip_if",
    "OAuth.C101_option",
    "OAuth.C101_code",
    "OAuth.C101_one_type",
    "OAuth.C101_generic",
    "OAuth.C101_order"
   ],
   "note": "For a model of type inference (arguments from left to right, coercion to the first type of the deref chain that fits, bounds last). C101_code combines it with C64_iff."
  },
  {
   "property": "C102",
   "status": "proved",
   "theorems": [
    "OAuth.C102_answers",
    "OAuth.C102_not_found_iff",
    "OAuth.C102_nothing_disclosed"
   ],
   "note": "Requests that make the server panic (C45) have no answer; the clock is not before the epoch (C44_no_clock for that)."
  }
 ]
}
