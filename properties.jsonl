{"id": "C01", "title": "Form/query values are RFC 3986 percent-encoded, however Display fragments its output", "statement": "For every parameter value, the bytes that `to_form`/`to_query` write after `key=` are exactly the RFC 3986 percent-encoding of the text the value displays (unreserved bytes verbatim, every other byte as %HH with upper-case hex), and this does not depend on how the value's Display splits the text into write_str calls.", "quantifier": "all values (all byte strings of any length) and all ways of fragmenting their formatted text", "why_tests_cant": "infinitely many texts and fragmentations; a bug may only appear when a reserved byte sits at a fragment boundary", "anchors": ["oauth1-request/src/util/percent_encoding.rs: PercentEncode, percent_encode, RESERVED", "oauth1-request/src/serializer/urlencode.rs: Urlencoder::serialize_parameter"]}
{"id": "C02", "title": "The signature base string carries every value percent-encoded exactly twice", "statement": "The text fed to the signing algorithm for a parameter value is percent-encode(percent-encode(text)); the hand-written bit map, 1280-byte table and run-splitting loop agree with applying the single encoding two times, for every text and every fragmentation; so the base string of a request holds exactly the protocol parameters sent and the parameters supplied, each encoded twice (once, if supplied encoded).", "quantifier": "all byte strings, all fragmentations, all parameter lists and derived requests", "why_tests_cant": "the run-splitting loop has unboundedly many shapes; a table or boundary slip shows only for particular run layouts", "anchors": ["oauth1-request/src/util/percent_encoding.rs: DoublePercentEncode, double_encode_byte, should_percent_encode, get_bit, ENCODE_MAP", "oauth1-request/src/serializer/auth.rs: Authorizer::serialize_parameter, serialize_parameter_encoded"]}
{"id": "C03", "title": "A form produced by to_form decodes back to exactly the request's pairs", "statement": "Splitting the string returned by `to_form(request)` on & and =, and percent-decoding, gives back precisely the list of (key, value text) pairs that the request serialized, same order and multiplicity, provided the keys are URI-safe; so two requests with different pairs never give the same form.", "quantifier": "all requests: any number of pairs, any values, URI-safe keys", "why_tests_cant": "injectivity/round-trip over unbounded lists of unbounded strings", "anchors": ["oauth1-request/src/lib.rs: to_form", "oauth1-request/src/serializer/urlencode.rs: Urlencoder"]}
{"id": "C04", "title": "No value can inject a delimiter into a header, form, query or base string", "statement": "Whatever the values of request parameters, callback, verifier, nonce, consumer key and token, their serialized representation contains only unreserved characters and % followed by two upper-case hex digits: never a quote, comma, ampersand, equals sign, space, control or non-ASCII byte.", "quantifier": "all byte strings as values", "why_tests_cant": "adversarial strings are unbounded", "anchors": ["oauth1-request/src/util/percent_encoding.rs", "oauth1-request/src/serializer/auth.rs: append_to_header"]}
{"id": "C05", "title": "The unchecked UTF-8 conversions only ever see ASCII", "statement": "Every byte slice converted with `str::from_utf8_unchecked` while percent-encoding is pure ASCII (hence valid UTF-8), every index into the encoding table and bit map is in bounds, and the debug_assert!s about it never fire; so encoding any value is memory-safe and panic-free.", "quantifier": "all byte strings and all fragmentations", "why_tests_cant": "undefined behaviour is not reliably observable by tests, and inputs are unbounded", "anchors": ["oauth1-request/src/util/percent_encoding.rs: DoublePercentEncode::fmt, double_encode_byte, get_bit"]}
{"id": "C06", "title": "Base string layout: method, URI and parameters joined with exactly one delimiter", "statement": "For every sequence of serialize calls made on an authorizing serializer, what the signing algorithm is fed is `METHOD & encoded-URI &` followed by `key%3Dvalue` for each parameter that was serialized (request and protocol parameters alike, in call order), with `%26` exactly between consecutive parameters and nowhere else.", "quantifier": "all call sequences of any length, all methods, URIs, options, credentials", "why_tests_cant": "delimiter bookkeeping is a state machine over unbounded call histories", "anchors": ["oauth1-request/src/serializer/auth.rs: sign_delimiter, append_to_header_encoded, serialize_parameter, make_sign", "oauth1-request/src/signature_method/digest_common.rs: UpdateSign"]}
{"id": "C07", "title": "An RFC 5849 server verifying an authorized request computes the same HMAC-SHA1 signature", "statement": "Take any request given as a parameter list and authorize it: parsing the returned Authorization header as RFC 5849 section 3.5.1 says, collecting its protocol parameters (minus oauth_signature) with the request's own pairs, and computing the HMAC-SHA1 signature over the RFC 5849 section 3.4.1 signature base string (encode, sort by encoded name then encoded value, concatenate) yields exactly the oauth_signature in the header.", "quantifier": "all requests, methods, base string URIs, credentials, options, nonces, clocks", "why_tests_cant": "interoperability must hold for every parameter list; tests pin a few vectors", "anchors": ["oauth1-request/src/serializer/auth.rs: Authorizer", "oauth1-request/src/request/parameter_list.rs: cmp, ParameterList", "oauth1-request/src/signature_method/hmac_sha1.rs", "oauth1-request/src/lib.rs: Builder::authorize"]}
{"id": "C08", "title": "The order in which parameters are supplied to ParameterList never changes the output", "statement": "Two ParameterLists built from permutations of the same pairs serialize to the same bytes under every serializer, hence have the same signature, whatever unstable sorting algorithm is used.", "quantifier": "all lists, all permutations, all correct unstable sorts", "why_tests_cant": "n! permutations for unbounded n; unstable sort outcome is unspecified for equal elements", "anchors": ["oauth1-request/src/request/parameter_list.rs: ParameterList::new, sort, cmp"]}
{"id": "C09", "title": "The Authorization header parses back to exactly the protocol parameters", "statement": "The value returned by `authorize` is `OAuth ` followed by comma-separated key=\"value\" items; parsing it and percent-decoding gives exactly: callback (if set), consumer key, nonce, signature method, timestamp, token (if set), verifier (if set), version 1.0 (if requested), in this order, then the signature as the last item; each once; values equal to those configured; and request parameters never appear in it.", "quantifier": "all credentials, options, requests, nonces, timestamps", "why_tests_cant": "all strings for all fields; the header is one line that must be unambiguous for all of them", "anchors": ["oauth1-request/src/serializer/auth.rs: append_to_header_encoded, serialize_oauth_*, end"]}
{"id": "C10", "title": "Signed protocol parameters are the same as those sent", "statement": "For every signature method with nonce and timestamp in use, the multiset of protocol parameters fed to the signature equals the one written to the header, form or query (same names, same values): the nonce or timestamp sent is the one signed, and a parameter is signed if and only if it is sent.", "quantifier": "all options, credentials, random nonces, clock readings, call sequences", "why_tests_cant": "nonce and clock are nondeterministic; signed and sent copies go through different encoders", "anchors": ["oauth1-request/src/serializer/auth.rs: append_to_header!, serialize_oauth_nonce, serialize_oauth_timestamp"]}
{"id": "C11", "title": "Builder::to_form and to_query output the request parameters along with the protocol parameters", "statement": "The string returned by `Builder::to_form` (and the query appended by `Builder::to_query`) contains, besides the protocol parameters and the signature, every key-value pair of the request, as documented.", "quantifier": "all requests, credentials, options", "why_tests_cant": "must hold for every request; the repo has no test of it", "anchors": ["oauth1-request/src/lib.rs: Builder::to_form, Builder::to_query", "oauth1-request/src/serializer/auth.rs: Authorizer::serialize_parameter"]}
{"id": "C12", "title": "Builder::to_form/to_query layout: protocol parameters then signature, URI preserved", "statement": "The form string is an &-joined sequence of key=value items holding the protocol parameters in order with oauth_signature last and no stray separators; `Builder::to_query(uri)` returns uri, then one ?, then that same sequence; the result never starts with a separator and the URI is a prefix.", "quantifier": "all URIs, credentials, options, requests", "why_tests_cant": "separator state machine over unbounded histories", "anchors": ["oauth1-request/src/serializer/auth.rs: query, form_with_buf", "oauth1-request/src/serializer/urlencode.rs: append_delim"]}
{"id": "C13", "title": "Plain to_query appends exactly one query part, and none for an empty request", "statement": "`to_query(uri, request)` returns uri unchanged when the request has no pairs and otherwise uri + \"?\" + to_form(request); it never emits protocol parameters.", "quantifier": "all URIs and requests", "why_tests_cant": "unbounded inputs", "anchors": ["oauth1-request/src/lib.rs: to_query", "oauth1-request/src/serializer/urlencode.rs: Urlencoder::query"]}
{"id": "C14", "title": "Misordered keys panic in debug builds, and only then", "statement": "With debug assertions and alloc, an authorizing serializer panics on a call sequence exactly when some emitted key (request or protocol) is byte-wise smaller than the key emitted just before it; in release builds the same sequence never panics for that reason; in neither case are equal adjacent keys rejected.", "quantifier": "all call sequences, all keys", "why_tests_cant": "histories of any length with interleaved protocol keys whose emission depends on options", "anchors": ["oauth1-request/src/serializer/auth.rs: check_dictionary_order"]}
{"id": "C15", "title": "A URI containing \"?\" is rejected in debug builds, however it is formatted", "statement": "Creating an authorizing serializer in a debug build panics if and only if the displayed URI contains a ? byte, no matter how Display fragments the URI; in a release build it does not panic for that reason and the URI is signed verbatim (percent-encoded).", "quantifier": "all URIs, all fragmentations", "why_tests_cant": "fragmentation is unbounded", "anchors": ["oauth1-request/src/serializer/auth.rs: make_sign"]}
{"id": "C16", "title": "Authorizing a well-formed request never panics", "statement": "For any ParameterList (any pairs, in any order) with displayable values, any credentials, options (a timestamp among them if the build has no clock), signature secrets and a query-free URI, `authorize`, `to_form` and `to_query` return normally, in debug and in release builds: the ordering assertion cannot fire, OAuthParameter::None is never serialized or advanced, buffers suffice.", "quantifier": "all parameter lists, credentials, options, random bytes, clock readings, build modes", "why_tests_cant": "absence of panics over all inputs", "anchors": ["oauth1-request/src/request.rs: AssertSorted::serialize", "oauth1-request/src/util/oauth_parameter.rs: next", "oauth1-request/src/util.rs: OAuthParameter::serialize", "oauth1-request/src/serializer/auth.rs: check_dictionary_order, gen_nonce"]}
{"id": "C17", "title": "Every request emits the eight protocol parameters exactly once and in order", "statement": "Whatever keys a request has (sorted or not, including keys starting with oauth_), serializing it calls each of the eight serialize_oauth_* methods exactly once, in the order callback, consumer key, nonce, signature method, timestamp, token, verifier, version, and emits every pair exactly once in order.", "quantifier": "all key lists of any length", "why_tests_cant": "the interleaving loop is driven by unbounded key lists", "anchors": ["oauth1-request/src/request.rs: AssertSorted::serialize, Request for (), Request for Option", "oauth1-request/src/util/oauth_parameter.rs", "oauth1-request-derive/src/method_body.rs"]}
{"id": "C18", "title": "Protocol parameters are interleaved at their sorted position", "statement": "If the pairs are in ascending key order, the complete sequence of serialized keys (request keys and oauth_* keys together) is in ascending byte order, as RFC 5849 section 3.4.1.3.2 requires, also when request keys fall between two protocol keys.", "quantifier": "all ascending key lists", "why_tests_cant": "unbounded lists; keys can interleave with the eight names in arbitrarily many ways", "anchors": ["oauth1-request/src/request.rs: AssertSorted::serialize", "oauth1-request/src/util/oauth_parameter.rs: partial_cmp"]}
{"id": "C19", "title": "A ParameterList is always sorted, through any history of operations", "statement": "After any sequence of construction (new, from_sorted, From, FromIterator, Default) and extend operations, iterating a ParameterList yields exactly the supplied pairs as a multiset, in ascending order of (key, displayed value).", "quantifier": "all operation histories, all pairs", "why_tests_cant": "unbounded histories", "anchors": ["oauth1-request/src/request/parameter_list.rs: ParameterList::{new,from_sorted,extend,from_iter,default,iter,into_inner}"]}
{"id": "C20", "title": "ParameterList::from_sorted accepts exactly the sorted lists and never reorders", "statement": "from_sorted(list) returns Some(list unchanged) if and only if all pairs i<j satisfy (key_i, text_i) <= (key_j, text_j); values compare by displayed text, not numerically.", "quantifier": "all lists", "why_tests_cant": "the check only looks at adjacent windows; correctness for all pairs needs transitivity over unbounded lists", "anchors": ["oauth1-request/src/request/parameter_list.rs: from_sorted, is_sorted_by, cmp"]}
{"id": "C21", "title": "#[derive(Request)] output does not depend on field declaration order", "statement": "Two structs with the same set of fields (names, attributes, values) in different declaration order serialize identically under every serializer, and the keys are emitted in ascending order interleaved with the protocol parameters exactly as the equivalent AssertSorted list would be.", "quantifier": "all struct definitions, all permutations of fields, all field values", "why_tests_cant": "macro inputs are unbounded", "anchors": ["oauth1-request-derive/src/lib.rs: expand_derive_oauth1_authorize", "oauth1-request-derive/src/method_body.rs: MethodBody::to_tokens"]}
{"id": "C22", "title": "#[derive(Request)] field attributes do what they say", "statement": "For each field: skip never serializes it; an Option field (or option = true) is serialized iff Some, with the inner value; skip_if suppresses it exactly when the predicate is true of the (unwrapped) value; encoded selects serialize_parameter_encoded; fmt selects the formatter; rename selects the key; a non-skipped, non-suppressed field is serialized exactly once.", "quantifier": "all struct definitions, attribute combinations and field values", "why_tests_cant": "attribute combinations times values are unbounded", "anchors": ["oauth1-request-derive/src/method_body.rs: MethodBody::to_tokens, is_option", "oauth1-request-derive/src/field.rs: Field, Name"]}
{"id": "C23", "title": "A derive that compiles has distinct, URI-safe parameter names", "statement": "If derive(Request) accepts a struct, no two parameters of the generated request share a name, and every key it emits consists of unreserved characters only; if it is rejected for duplicates, two fields really share a name.", "quantifier": "all struct definitions", "why_tests_cant": "unbounded numbers of fields and names; adjacent-only duplicate check relies on sorting", "anchors": ["oauth1-request-derive/src/lib.rs: expand_derive_oauth1_authorize (sort, duplicate fold)", "oauth1-request-derive/src/meta.rs: UriSafe::from_expr", "oauth1-request-derive/src/field.rs: Field::new"]}
{"id": "C24", "title": "Attribute parsing rejects unknown, malformed and repeated attributes and is order-independent", "statement": "A field's #[oauth1(...)] attributes are accepted iff each item is a known name of the right kind and no name occurs twice across all of the field's attributes; the resulting configuration does not depend on the order of the items or on how they are grouped into attributes; attributes of other macros are ignored.", "quantifier": "all lists of attributes", "why_tests_cant": "unbounded lists, all permutations/groupings", "anchors": ["oauth1-request-derive/src/meta.rs: def_meta!, add_meta_impl!, Meta::parse, FromExprExt", "oauth1-request-derive/src/field.rs: FieldMeta", "oauth1-request-derive/src/container.rs"]}
{"id": "C25", "title": "The streaming HMAC key equals the HMAC key of the whole signing key", "statement": "However the signing key text is split into writes, the HMAC computed by the HMAC-SHA1 signer is HMAC-SHA1 keyed with the complete concatenated key, for keys shorter than, equal to, and longer than the 64-byte block (where the key must first be hashed).", "quantifier": "all write sequences, all key lengths", "why_tests_cant": "boundary at 64 bytes with arbitrary fragmentation", "anchors": ["oauth1-request/src/signature_method/hmac_sha1.rs: SigningKey::{new,write,into_hmac}"]}
{"id": "C26", "title": "HMAC-SHA1 signature value", "statement": "With HMAC-SHA1 the emitted oauth_signature is percent-encode(base64(HMAC-SHA1(key, base string))) with key = percent-encode(client secret) & percent-encode(token secret), the part after & empty when no token is set; it decodes to exactly 20 bytes.", "quantifier": "all secrets, all base strings", "why_tests_cant": "unbounded inputs", "anchors": ["oauth1-request/src/signature_method/hmac_sha1.rs", "oauth1-request/src/signature_method.rs: write_signing_key", "oauth1-request/src/signature_method/digest_common.rs: Base64PercentEncodeDisplay"]}
{"id": "C27", "title": "PLAINTEXT signature is sent percent-encoded", "statement": "With PLAINTEXT, the oauth_signature item written to the header, form or query is the URL-encoded representation (as the Sign::Signature contract says) of percent-encode(client secret) & percent-encode(token secret), so that decoding the item returns the RFC 5849 section 3.4.4 signature and the form still splits into the right pairs.", "quantifier": "all secrets", "why_tests_cant": "adversarial secrets; interaction of separator and encoding", "anchors": ["oauth1-request/src/signature_method/plaintext.rs: PlaintextSign::end", "oauth1-request/src/serializer/auth.rs: end"]}
{"id": "C28", "title": "RSA-SHA1 signs the base string with the key and ignores shared secrets", "statement": "With RSA-SHA1 the oauth_signature is percent-encode(base64(RSASSA-PKCS1-v1_5(SHA-1(base string)))) for owned and borrowed keys alike, whatever the secrets; the only panic is a failing RSA private-key operation.", "quantifier": "all keys, secrets, base strings", "why_tests_cant": "unbounded inputs", "anchors": ["oauth1-request/src/signature_method/rsa_sha1.rs"]}
{"id": "C29", "title": "Either behaves exactly like the signature method it holds", "statement": "Authorizing with Either::Left(l) gives the same output as authorizing with l, and likewise for Right, for every signature method including user-defined ones.", "quantifier": "all signature methods (including custom ones overriding any method), all requests", "why_tests_cant": "quantifies over all trait implementations", "anchors": ["oauth1-request/src/signature_method/either.rs"]}
{"id": "C30", "title": "Shared secrets influence nothing but the signature", "statement": "Changing the client secret or the token secret changes at most the value of oauth_signature: every other byte of the header, form or query is the same.", "quantifier": "all secrets, requests, options", "why_tests_cant": "noninterference relates pairs of executions", "anchors": ["oauth1-request/src/serializer/auth.rs: new_, end", "oauth1-request/src/signature_method.rs: SignatureMethod::sign_with"]}
{"id": "C31", "title": "Debug output never reveals a shared secret", "statement": "The Debug rendering of Credentials, Token, Builder and Authorizer is the same whatever the shared secrets are.", "quantifier": "all credentials", "why_tests_cant": "noninterference over all secrets", "anchors": ["oauth-credentials/src/lib.rs: Debug for Credentials", "oauth1-request/src/lib.rs: Builder", "oauth1-request/src/serializer/auth.rs: Authorizer", "oauth1-request/src/signature_method/plaintext.rs: PlaintextSign"]}
{"id": "C32", "title": "Generated nonces keep all 72 bits of randomness and need no encoding", "statement": "A generated nonce consists of URL-safe base64 characters only (so encoding leaves it unchanged), has at most 12 characters, is produced without panic for any random bytes, and two nonces are equal only if all nine random bytes were equal.", "quantifier": "all 2^72 random inputs", "why_tests_cant": "2^72 inputs; trimming of leading zeroes could merge values", "anchors": ["oauth1-request/src/serializer/auth.rs: gen_nonce, NONCE_LEN"]}
{"id": "C33", "title": "The timestamp sent is a positive decimal integer", "statement": "oauth_timestamp is the decimal representation (no sign, no leading zero) of a positive integer: the configured one if set, else the current Unix time in seconds.", "quantifier": "all configured timestamps and clock readings", "why_tests_cant": "clock readings cannot be controlled in tests", "anchors": ["oauth1-request/src/serializer/auth.rs: serialize_oauth_timestamp, get_current_timestamp", "oauth1-request/src/serializer/auth.rs: Options::timestamp"]}
{"id": "C34", "title": "Builder setters: last call wins, None unsets, and signing never changes the builder", "statement": "After any sequence of setter calls, the parameters used are those of the last call for each option (absent if it was None or never set); setters of different options commute; authorizing any number of requests in between has no effect on later outputs with pinned nonce and timestamp.", "quantifier": "all histories of setter and authorize calls", "why_tests_cant": "unbounded histories", "anchors": ["oauth1-request/src/lib.rs: Builder::{new,with_token,token,callback,verifier,nonce,timestamp,version}", "oauth1-request/src/util.rs: impl_setters", "oauth1-request/src/serializer/auth.rs: Options"]}
{"id": "C35", "title": "All entry points agree", "statement": "get/put/post/... are authorize with the corresponding method name; into_* consume the builder but give the same result as their borrowing counterparts; the *_with_buf forms append the same text to the buffer; the free functions equal a Builder with both credentials and default options.", "quantifier": "all arguments", "why_tests_cant": "argument mix-ups only show for particular argument combinations", "anchors": ["oauth1-request/src/lib.rs: builder_authorize_shorthand, builder_to_form_shorthand, builder_to_query_shorthand, authorize_shorthand, authorize"]}
{"id": "C36", "title": "Writing to a caller-supplied buffer is all-or-panic", "statement": "For any fmt::Write buffer, the *_with_buf functions issue writes whose concatenation is exactly the string the String-returning form would return; if any write fails the call panics, so a truncated header is never returned.", "quantifier": "all writers (any state machine, failing at any point), all requests", "why_tests_cant": "all failure points of all writers", "anchors": ["oauth1-request/src/serializer/auth.rs: authorization_with_buf, form_with_buf", "oauth1-request/src/serializer/urlencode.rs"]}
{"id": "C37", "title": "Recorder is a faithful oracle for Request implementations", "statement": "The Vec<Record> a request produces on a Recorder is exactly its sequence of serializer calls, and replaying these records on any other serializer gives the same result as serializing the request there; Record equality is exactly equality of kind, key and displayed value.", "quantifier": "all requests, all serializers", "why_tests_cant": "quantifies over all serializers", "anchors": ["oauth1-request/src/serializer/recorder.rs"]}
{"id": "C38", "title": "Credentials/Token accessors and maps keep the four strings in place", "statement": "new/from_parts/from_ref/as_ref/client/token/From never swap or alter identifiers and secrets; map applies the function to each contained string exactly once (identifier then secret, client then token), map_client and map_token leave the other pair untouched, and maps compose.", "quantifier": "all strings and all (stateful) functions", "why_tests_cant": "quantifies over closures with state", "anchors": ["oauth-credentials/src/lib.rs: Credentials, Token"]}
{"id": "C39", "title": "Credentials deserialization accepts exactly well-formed responses", "statement": "Deserializing a map succeeds iff oauth_token and oauth_token_secret each occur exactly once with convertible values; other entries are ignored wherever they are; the result does not depend on entry order; duplicates and absences are errors naming the field; and serialize-then-deserialize is the identity.", "quantifier": "all entry lists of any length in any order", "why_tests_cant": "unbounded lists and permutations", "anchors": ["oauth-credentials/src/serde_imp.rs: Deserialize/Serialize for Credentials, Field"]}
{"id": "C40", "title": "Plain form/query serialization ignores protocol calls", "statement": "The output of to_form/to_query is a function of the request pairs only: it does not depend on where or how many times protocol-parameter calls are made, and reads no clock and no randomness.", "quantifier": "all call sequences", "why_tests_cant": "unbounded call sequences", "anchors": ["oauth1-request/src/serializer/urlencode.rs", "oauth1-request/src/serializer.rs: skip_serialize_oauth_parameters"]}
{"id": "C41", "title": "Forwarding Request implementations are transparent", "statement": "&R, &mut R and Some(R) serialize exactly as R; () and None serialize as an empty parameter list; a ParameterList serializes as the AssertSorted of its sorted pairs.", "quantifier": "all requests, all serializers", "why_tests_cant": "quantifies over all serializers and requests", "anchors": ["oauth1-request/src/request.rs: Request impls", "oauth1-request/src/request/parameter_list.rs: Request for ParameterList"]}
{"id": "C42", "title": "Two requests with the same effective parameters are indistinguishable, and the only nondeterminism is nonce and timestamp", "statement": "The output of authorize is a deterministic function of its arguments, the nine random nonce bytes (only if no nonce is set and the method uses one) and one clock reading (only if no timestamp is set); with both pinned, the output is the same under any random source and clock, and exactly that much randomness is consumed.", "quantifier": "all random sources, clocks, arguments", "why_tests_cant": "nondeterministic inputs", "anchors": ["oauth1-request/src/serializer/auth.rs: serialize_oauth_nonce, serialize_oauth_timestamp"]}
{"id": "C43", "title": "The example server accepts what the client signs", "statement": "A request signed by the client with HMAC-SHA1 and the credentials the endpoint expects, sent within the time window, with parameters in header plus query or form, passes the example server's verification.", "quantifier": "all parameter lists, nonces, timestamps within the window", "why_tests_cant": "client and server compute base strings by different code; agreement must hold for all inputs", "anchors": ["examples/src/server/handler.rs: verify_and_then, collect_params, collect_oauth_params, create_base_string", "examples/src/server/authorization.rs"]}
{"id": "C44", "title": "The example server accepts nothing that is not correctly signed", "statement": "If the example server runs the handler for a request, the request carried the expected consumer key and token, a timestamp not too old, and a signature matching the one computed from the shared secrets for the signature method named in it.", "quantifier": "all incoming requests", "why_tests_cant": "adversarial requests", "anchors": ["examples/src/server/handler.rs: verify_and_then::inner"]}
{"id": "C45", "title": "The example server never panics on a request", "statement": "No header, query or form content makes verification panic.", "quantifier": "all incoming requests", "why_tests_cant": "adversarial inputs", "anchors": ["examples/src/server/handler.rs: verify_and_then::inner, collect_auth_params", "examples/src/server/authorization.rs"]}
{"id": "C46", "title": "A signature binds method, URI and every parameter", "statement": "Two authorized calls are fed the same signature base string only if HTTP method, URI text and the sequence of (key, value text) pairs are the same (for methods and keys made of unreserved characters): no re-partitioning of keys, values, URI or method yields the same base string.", "quantifier": "all pairs of requests", "why_tests_cant": "injectivity over unbounded inputs", "anchors": ["oauth1-request/src/serializer/auth.rs: make_sign, serialize_parameter", "oauth1-request/src/signature_method/digest_common.rs"]}
{"id": "C47", "title": "The signing key determines the pair of secrets", "statement": "Two different (client secret, token secret) pairs never give the same signing key, except that an absent token counts as an empty token secret.", "quantifier": "all secrets", "why_tests_cant": "adversarial secrets containing & or %", "anchors": ["oauth1-request/src/signature_method.rs: write_signing_key"]}
{"id": "C48", "title": "The header parser of the example server inverts header construction", "statement": "Parsing key=\"value\" lists with the example's iterator yields every item in order and stops at the first item that does not parse, reporting the unconsumed rest; a header produced by the client is consumed completely.", "quantifier": "all headers", "why_tests_cant": "unbounded lists", "anchors": ["examples/src/server/authorization.rs: Punctuated, auth_param, hash, quoted_string"]}
{"id": "C49", "title": "The example client completes the dance with the example server", "statement": "The example client obtains temporary credentials, exchanges them for token credentials and makes both echo requests without panicking, and prints every parameter it sent, whatever the random bytes and the time, as long as no request takes longer than the 30-second window.", "quantifier": "all random sources and clocks", "why_tests_cant": "nonces and timestamps differ in every run; client and server are separate implementations of signing", "anchors": ["examples/src/client/main.rs: main", "examples/src/client/auth.rs", "examples/src/client/request.rs: Request::send", "examples/src/server/main.rs", "examples/src/server/handler.rs"]}
{"id": "C50", "title": "A server that follows RFC 5849 accepts requests of any shape, in particular derived ones", "statement": "For a request of any shape whose encoded pairs come out ascending, the signed base string is the one RFC 5849 section 3.4.1 describes (and exactly then); such a server accepts the HMAC-SHA1 header whatever the order in which it receives the pairs. A struct with #[derive(Request)] and distinct unreserved keys always satisfies this, whatever its field values.", "quantifier": "all requests, all derived structs, all field values, all orders of arrival", "why_tests_cant": "quantifies over struct definitions and values; the server is a separate specification", "anchors": ["oauth1-request/src/serializer/auth.rs", "oauth1-request-derive/src/method_body.rs", "oauth1-request-derive/src/field.rs", "oauth1-request/src/signature_method/hmac_sha1.rs"]}
{"id": "C51", "title": "RSA-SHA1 headers verify with the public key", "statement": "With the RSASSA-PKCS1-v1_5 private key operation of RFC 3447 and any valid key of at least 46 bytes, authorizing never panics because of the signature, and verification with the public key succeeds exactly if the base string computed by the server has the digest of the one signed; so an RFC 5849 server accepts the header of every request C50 covers.", "quantifier": "all valid RSA keys, all requests", "why_tests_cant": "number theory over all keys (Euler), not reachable by sampling keys", "anchors": ["oauth1-request/src/signature_method/rsa_sha1.rs", "oauth1-request/src/serializer/auth.rs"]}
{"id": "C52", "title": "A signed request is answered at most once by the example server", "statement": "A request with a nonce and an HMAC-SHA1 signature that was answered once is not answered again (RFC 5849 section 3.3).", "quantifier": "all requests, all pairs of times", "why_tests_cant": "quantifies over all requests and times", "anchors": ["examples/src/server/handler.rs: verify_and_then", "examples/src/server/main.rs"]}
{"id": "C53", "title": "What the example server accepts is what a client signed", "statement": "If a received signature that matches the text the server computes is one for a text some run of the client signed (nobody else can make signatures), then every accepted request (other than PLAINTEXT) has the method, URI and parameters of such a run, no more and no fewer; a signature moved to any other request is refused unless two HMACs collide.", "quantifier": "all requests, all histories of client runs", "why_tests_cant": "injectivity across two separate implementations, over unbounded inputs", "anchors": ["examples/src/server/handler.rs: create_base_string, verify_and_then::inner", "oauth1-request/src/serializer/auth.rs"]}
{"id": "C54", "title": "Build configurations give the same output", "statement": "For every signature method, writer, request and URI, a build with debug assertions and with or without alloc returns exactly what the release build with the same clock returns, text or panic; except that it panics if the URI contains ? (debug) or a key is misordered (debug with alloc).", "quantifier": "all configurations, all requests, all user-defined signers and writers", "why_tests_cant": "tests run in one configuration", "anchors": ["oauth1-request/src/serializer/auth.rs: make_sign, check_dictionary_order", "oauth1-request/src/util/percent_encoding.rs", "oauth1-request/src/util/oauth_parameter.rs"]}
{"id": "C55", "title": "A ParameterList over any container is sorted", "statement": "For every container type A of elements P (whose as_ref and as_mut lend the same slice), after any history of new, From, FromIterator, from_sorted, default and extend the pairs are in ascending order, sorting loses and adds nothing, and the request is sent as the plain list of its pairs is.", "quantifier": "all containers and element types, all histories", "why_tests_cant": "quantifies over user-defined containers", "anchors": ["oauth1-request/src/request/parameter_list.rs: ParameterList<K, V, A, P>"]}
{"id": "C56", "title": "The URI signed is the base string URI of RFC 5849", "statement": "For every http or https URI without query and fragment, the base string has the base string URI of RFC 5849 section 3.4.1.2 (scheme and host in lower case, no default port, the path as requested), so that a server that follows the RFC accepts the header.", "quantifier": "all http and https URIs", "why_tests_cant": "unbounded grammar; the server is a separate specification", "anchors": ["oauth1-request/src/serializer/auth.rs: make_sign", "oauth1-request/src/lib.rs: Builder::authorize"]}
{"id": "C57", "title": "The code generated for an accepted struct refers to its fields and parameters", "statement": "If derive(Request) accepts a struct, every field access in the generated method is an access to the field whose attributes led to it, the type parameter of the method differs from those of the struct, and the trait is found: the names in the generated code resolve.", "quantifier": "all struct definitions the macro accepts", "why_tests_cant": "quantifies over programs; a test compiles one struct", "anchors": ["oauth1-request-derive/src/method_body.rs: MethodBody::to_tokens", "oauth1-request-derive/src/field.rs: Field::new", "oauth1-request-derive/src/lib.rs: expand_derive_oauth1_authorize"]}
{"id": "C58", "title": "The derived impl is for exactly the instantiations with displayable type arguments", "statement": "The impl generated for a generic struct has the struct's own parameters as arguments, in order, keeps all bounds and the where clause, and applies exactly to those instantiations of the struct whose type arguments implement Display; whenever the macro returns on a struct with named fields it generates an impl, also with errors.", "quantifier": "all generic parameter lists and instantiations", "why_tests_cant": "quantifies over programs", "anchors": ["oauth1-request-derive/src/lib.rs: add_trait_bounds, expand_derive_oauth1_authorize"]}
{"id": "C59", "title": "The macro reports all errors at once and panics only without a crate name", "statement": "For a struct with named fields the macro returns unless the crate cannot be named by an identifier and the struct does not name it; the errors it returns are exactly those of each ill-formed or repeated attribute item, each duplicate name, and a failed lookup, none hiding another, and well-formed items next to bad ones still take effect.", "quantifier": "all attribute lists, struct definitions and outcomes of the crate lookup", "why_tests_cant": "combinations of errors are unbounded", "anchors": ["oauth1-request-derive/src/meta.rs: def_meta, new, add_meta", "oauth1-request-derive/src/ctxt.rs", "oauth1-request-derive/src/lib.rs: expand_derive_oauth1_authorize"]}
{"id": "C60", "title": "A request sent as documented passes an RFC 5849 server, from the bytes of the HTTP message on", "statement": "Sign a request to a URI in normal form; send the Authorization header that authorize returns together with the form that to_form returns as the body, or to the URI that to_query returns. A server that parses header, query and form body (with the form decoding of the URL Standard) and follows RFC 5849 accepts the message.", "quantifier": "all requests with unreserved names whose encoded pairs ascend (all parameter lists whose values keep their order, all derived requests), all values, credentials, options, normal http(s) URIs and methods; HMAC-SHA1 and RSA-SHA1", "why_tests_cant": "tests stop at the strings the crate returns and never run a server on them", "anchors": ["oauth1-request/src/lib.rs: Builder::authorize, to_form, to_query", "oauth1-request/src/serializer/urlencode.rs", "oauth1-request/src/serializer/auth.rs"]}
{"id": "C61", "title": "The output of Builder::to_form or to_query, sent as it is, passes an RFC 5849 server", "statement": "The form returned by Builder::to_form, sent as the body, or the URI returned by Builder::to_query, requested, is accepted by a server that follows RFC 5849.", "quantifier": "all parameter lists, credentials, options, normal URIs and methods", "why_tests_cant": "tests compare the output with itself and send it to no server", "anchors": ["oauth1-request/src/lib.rs: Builder::to_form, to_query", "oauth1-request/src/serializer/auth.rs: serialize_parameter"]}
{"id": "C62", "title": "No protocol parameter more than once in what is sent", "statement": "A request sent with the header of authorize and the form of to_form as its body, or to the URI of to_query, contains none of the nine OAuth protocol parameters more than once, as RFC 5849 section 3.1 demands; the same for the output of Builder::to_form or Builder::to_query sent alone.", "quantifier": "All builders with HMAC-SHA1 or RSA-SHA1, requests (derived ones among them), option settings, methods, URIs without a query, environments.", "why_tests_cant": "The repository never looks at header and body together, and its requests in tests have no parameter with an oauth_ name except one derive test that only records calls.", "anchors": ["oauth1-request/src/serializer/auth.rs: serialize_parameter, append_to_header_encoded", "oauth1-request/src/request/parameter_list.rs: ParameterList::new", "oauth1-request-derive/src/lib.rs: duplicate check"]}
{"id": "C63", "title": "Variables of the derived code never capture a name from an attribute", "statement": "The tokens generated by derive(Request) (blocks, let bindings with their hygiene, the helper value, and the paths given in fmt and skip_if), run under the scoping rules of Rust, call the function in scope where the struct is defined, also when it is called tmp, value, helper, fmt or serializer, apply it to the field it was given for, and make exactly the serializer calls that the fields and attributes describe.", "quantifier": "All accepted structs, all names of functions, all contexts of the tokens of the struct other than that of the expansion, all values of the fields.", "why_tests_cant": "A test compiles one struct with one choice of names; scoping mistakes show only for particular combinations of names, attributes and options.", "anchors": ["oauth1-request-derive/src/method_body.rs: MethodBody::to_tokens", "oauth1-request-derive/src/method_body/helper.rs: FmtHelper, SkipIfHelper"]}
{"id": "C64", "title": "The derived code compiles exactly when the types are as the attributes say", "statement": "The method generated for an accepted struct type-checks if and only if every field that is not skipped has a type that suits its attributes: an Option if it is treated as one, a (content) type that implements Display or is accepted by the fmt function, and is accepted by the skip_if predicate.", "quantifier": "All accepted structs, all typings of their fields and of the functions they mention.", "why_tests_cant": "The ui tests compile one struct with fourteen kinds of error and compare messages; they do not show that there are no others.", "anchors": ["oauth1-request-derive/src/method_body.rs: MethodBody::to_tokens", "oauth1-request-derive/src/method_body/helper.rs: FmtHelper, SkipIfHelper", "oauth1-request-derive/tests/ui/typeck.rs"]}
{"id": "C65", "title": "Credentials are read from the bytes of a response exactly if it has one token and one secret", "statement": "Reading Credentials from the body of a response to a temporary credentials or token request succeeds if and only if the pairs of the body, by the form decoding of the URL Standard, have one oauth_token and one oauth_token_secret, and gives their values; credentials written with Serialize among other parameters are read back unchanged; behind serde(flatten) the same credentials are read.", "quantifier": "All bodies, all credentials, all other parameters, all positions.", "why_tests_cant": "The documentation has one response; unbounded bodies, encodings and orders.", "anchors": ["oauth-credentials/src/serde_imp.rs: Deserialize/Serialize for Credentials, FIELDS", "examples/src/client/auth.rs", "examples/src/server/handler.rs: post_request_temp_credentials, post_request_token"]}
{"id": "C66", "title": "Credentials survive every data format", "statement": "Credentials that were written by Serialize in a format that restores strings are read back by Deserialize, whether the format stores a struct as a map of names and values or as the sequence of its values.", "quantifier": "All credentials, all formats.", "why_tests_cant": "Tests use two formats with field names.", "anchors": ["oauth-credentials/src/serde_imp.rs: Deserialize/Serialize for Credentials"]}
{"id": "C67", "title": "A ParameterList is sorted even after a caught panic", "statement": "After any history of constructors and extend calls, including extend calls that unwind because the iterator or the Display of a value panics (the panic being caught), the pairs of a ParameterList are in ascending order, as its documentation guarantees.", "quantifier": "All containers, all histories, all iterators and points at which they panic.", "why_tests_cant": "Tests never let an iterator panic inside extend.", "anchors": ["oauth1-request/src/request/parameter_list.rs: Extend for ParameterList, sort"]}
{"id": "C68", "title": "The names in the derived item refer to what is meant by them", "statement": "Whatever items are in scope where an accepted struct is, and whatever the struct, its generic parameters, bounds and attributes are called, every type, trait and module name in the item generated by the derive macro refers to what is meant: names taken from the struct to what they refer to in the struct, names of the macro to what the macro declares or to the standard library.", "quantifier": "All accepted structs, all surroundings, all names.", "why_tests_cant": "Tests compile a handful of structs in ordinary modules.", "anchors": ["oauth1-request-derive/src/lib.rs: expand_derive_oauth1_authorize", "oauth1-request-derive/src/method_body.rs: MethodBody::to_tokens", "oauth1-request-derive/src/method_body/helper.rs: FmtHelper, SkipIfHelper"]}
{"id": "C69", "title": "Generated nonces collide as rarely as the comment on NONCE_LEN says", "statement": "If all values of the random bytes are equally likely, the probability that among n nonces generated in succession two are equal is 1 - (2^72 - 1)/2^72 * ... * (2^72 - n + 1)/2^72; at one million nonces a second, the expected time until two nonces of the same second coincide is between 299 and 300 years.", "quantifier": "All numbers of nonces, all outputs of the random generator.", "why_tests_cant": "The event has probability 1e-10 per second; no test can observe it.", "anchors": ["oauth1-request/src/serializer/auth.rs: NONCE_LEN, gen_nonce, serialize_oauth_nonce"]}
{"id": "C70", "title": "The answer to a badly signed request does not depend on the expected identifiers", "statement": "To a request without a signature that matches the secrets, the example server answers the same whatever identifiers of client and token and whatever verifier it expects, so that they cannot be guessed by sending badly signed requests.", "quantifier": "All requests, libraries, build profiles, clocks, handlers, all pairs of expectations with the same secrets.", "why_tests_cant": "A test sends one request to one server; the claim compares the answers of servers with different expectations.", "anchors": ["examples/src/server/handler.rs: verify_and_then"]}
{"id": "C71", "title": "Authorization headers are read by the documented grammar", "statement": "The example server takes from an Authorization header the parameters that the grammar in its documentation, auth-scheme [ 1*SP #auth-param ], gives it, and none from a header with another scheme.", "quantifier": "All header values, all libraries.", "why_tests_cant": "Unbounded header values; the server has no tests of its parser.", "anchors": ["examples/src/server/authorization.rs: Punctuated, auth_scheme, auth_param, hash", "examples/src/server/handler.rs: collect_auth_params"]}
{"id": "C72", "title": "The text the server verifies is the RFC 5849 base string of what it received", "statement": "The text over which the example server computes the HMAC is the signature base string of RFC 5849 section 3.4.1 for the method, the target and the parameters of header, form and query it received.", "quantifier": "All requests and libraries.", "why_tests_cant": "The server has no tests against another implementation; the differences show only for realm and for particular pairs of values.", "anchors": ["examples/src/server/handler.rs: create_base_string, collect_params"]}
{"id": "C73", "title": "PLAINTEXT requests are accepted by a server that follows RFC 5849", "statement": "Sign a request with PLAINTEXT and send it, as a header beside the plain form or query, or as a signed form or query: a server that follows RFC 5849 finds in oauth_signature the text of section 3.4.4 (the encoded secrets and &) and accepts the message.", "quantifier": "All requests, secrets, URIs in normal form, worlds, and all other content of the message.", "why_tests_cant": "Unbounded secrets and requests; no test looks at the output of PLAINTEXT (one calls it with empty secrets, one expects a panic before the end).", "anchors": ["oauth1-request/src/signature_method/plaintext.rs: PlaintextSign::end", "oauth1-request/src/serializer/auth.rs: end"]}
{"id": "C74", "title": "The impl generated along with errors gives no errors of its own", "statement": "When the derive macro rejects a struct that has named fields, it also generates an impl of Request with an empty method, so that code using the struct gives no further errors; whatever the struct and its surroundings are called, that impl resolves its names and declares no parameter twice.", "quantifier": "All rejected structs, all surroundings, all names.", "why_tests_cant": "The ui tests compile one rejected struct, without generics.", "anchors": ["oauth1-request-derive/src/lib.rs: expand_derive_oauth1_authorize"]}
{"id": "C75", "title": "cfg_type_param_hack! leaves one item with the parameters of the build", "statement": "Whatever features are enabled, exactly one item is left of the expansion of cfg_type_param_hack!: the item it was given, with the type parameters whose #[cfg] holds, in order. The macro expands whenever the only attributes of parameters are #[cfg].", "quantifier": "All items, parameter lists, predicates and builds.", "why_tests_cant": "Each test run has one set of features; the expansion doubles with every #[cfg].", "anchors": ["oauth1-request/src/util.rs: cfg_type_param_hack"]}
{"id": "C76", "title": "doc_auto_cfg! documents the #[cfg] of each item and changes nothing else", "statement": "doc_auto_cfg! keeps the items it is given, in order, with their attributes in order, and adds for each #[cfg(p)] a #[doc(cfg(p))] to the same item; so each item is kept in the same builds as before. It expands exactly if the input does not end in an attribute.", "quantifier": "All sequences of items and attributes, all builds.", "why_tests_cant": "Attributes for documentation have no effect that a test could see.", "anchors": ["oauth1-request/src/util.rs: doc_auto_cfg, doc_coerce_expr"]}
{"id": "C77", "title": "options! gives every field a setter that compiles", "statement": "options! generates for each field of the struct one setter by its name, which sets that field and no other; it type-checks whatever type the field has.", "quantifier": "All lists of fields.", "why_tests_cant": "There is one use of the macro, and it has no field for the third rule.", "anchors": ["oauth1-request/src/util.rs: options, impl_setters"]}
{"id": "C78", "title": "Every combination of features compiles, without clashes, and features only add", "statement": "In every build that Cargo makes of any selection of features, for any target, with or without debug assertions and unit tests: whatever crate, dependency feature or item a compiled item (listed in the model: those that are conditional or refer to something conditional) refers to is there; a struct expression names exactly the fields that are there; no two compiled items have the same name; and enabling more features takes no item away but two imports.", "quantifier": "all selections of features of oauth1-request and its dependencies, targets, build modes", "why_tests_cant": "CI builds three selections of features; there are thousands.", "anchors": ["oauth1-request/Cargo.toml: [dependencies], [features]", "oauth1-request/src/lib.rs: cfg attributes", "oauth1-request/src/serializer/auth.rs: Authorizer, new_, get_current_timestamp, get_rng", "oauth1-request/src/signature_method.rs: cfg attributes", "oauth-credentials/src/lib.rs: cfg attributes"]}
{"id": "C79", "title": "The examples of the documentation work wherever they are compiled", "statement": "An example of the documentation that is not marked `ignore` in a build refers only to items that are there in the build, and does not sign without a timestamp in a build without a clock.", "quantifier": "all examples, all selections of features, targets", "why_tests_cant": "The examples run in the builds of CI only.", "anchors": ["oauth1-request/src/lib.rs: l.19-115", "oauth1-request/src/serializer/recorder.rs: l.21-52", "oauth-credentials/src/lib.rs: l.147-304", "README.md: l.20-66"]}
{"id": "C80", "title": "Headers, forms and queries are well-formed where they are sent", "statement": "Whatever the credentials, options, method, URI, request, random bytes and clock: a header made with HMAC-SHA1, RSA-SHA1 or PLAINTEXT is credentials by the grammar of RFC 7235 (scheme OAuth, parameters with quoted values), made of visible ASCII characters and inner spaces only, so every HTTP implementation takes it (no CR, LF or NUL can be injected); a signed form and the query appended to a URI are queries by the grammar of RFC 3986, and so are plain forms and queries if the keys are.", "quantifier": "all inputs, all signature methods of the crate (any hash function, any RSA key operation)", "why_tests_cant": "Tests compare a few outputs; hostile credentials (CR LF, quotes, NUL, non-ASCII) are not among them.", "anchors": ["oauth1-request/src/serializer/auth.rs: append_to_header_encoded, end", "oauth1-request/src/util.rs: PercentEncode", "oauth1-request/src/signature_method/plaintext.rs: end", "oauth1-request/src/serializer/urlencode.rs"]}
{"id": "C81", "title": "The size of outputs, and buffers of fixed capacity", "statement": "The length of a header is 24 plus, for each protocol parameter set, its name, its encoded value (three bytes for each byte not unreserved) and 4, plus the signature; of a form, 16 plus name, encoded value and 2 for each, plus the signature; a query adds one byte and the form to the URI. Request parameters, method and host add nothing. The encoded HMAC-SHA1 signature has 28 to 84 bytes, the PLAINTEXT signature as many as the encoded secrets and 1. With a buffer of fixed capacity that refuses what does not fit, authorize_with_buf, to_form_with_buf and to_query return exactly if the string version's output fits behind what the buffer holds, and append it; otherwise they panic.", "quantifier": "all inputs, buffers and capacities", "why_tests_cant": "Tests write to growing strings only; no test uses a buffer that can be full.", "anchors": ["oauth1-request/src/serializer/auth.rs: append_to_header_encoded, end", "oauth1-request/src/lib.rs: authorize_with_buf, to_form_with_buf, to_query", "oauth1-request/src/util.rs: PercentEncode"]}
{"id": "C82", "title": "The hash function is SHA-1", "statement": "The function that stands for the sha1 crate in the model (and so in every statement about HMAC-SHA1 and RSA-SHA1 signatures) is SHA-1 as specified by FIPS 180-4: padding, message schedule, round functions and constants, for messages of any length.", "quantifier": "all messages", "why_tests_cant": "Test vectors are a few short messages; an error in the padding of some lengths would not show.", "anchors": ["oauth1-request/src/signature_method/hmac_sha1.rs: HmacSha1Sign", "oauth1-request/src/signature_method/rsa_sha1.rs"]}
{"id": "C83", "title": "The example server answers 400 and 401 as RFC 5849 says", "statement": "To a request with missing, unsupported or duplicated protocol parameters the example server answers 400, to one with wrong credentials, a wrong signature or an old timestamp 401, to both kinds at once one of these; only other requests reach the handler (RFC 5849, 3.2).", "quantifier": "all incoming requests, all expected credentials, all times", "why_tests_cant": "There are no tests of the example server; the answer depends on the order of sixteen checks", "anchors": ["examples/src/server/handler.rs: verify_and_then, inner, collect_oauth_params"]}
{"id": "C84", "title": "The example server takes a body for a form exactly if it says so", "statement": "The parameters with which the example server runs a handler are those of the header, of the body if its content type is that of a form (RFC 7231: in upper or lower case, with or without parameters such as charset), and of the query.", "quantifier": "all incoming requests, all content types", "why_tests_cant": "There are no tests of the example server; its client sends the content type in one way only", "anchors": ["examples/src/server/handler.rs: verify_and_then"]}
{"id": "C85", "title": "A struct written by a macro_rules! macro derives as the same struct written out", "statement": "Whether the types of the fields and the values of the attributes are written out or come through variables of a macro_rules! macro (and so are enclosed in an invisible group) makes no difference to what #[derive(Request)] does: the same code, the same errors.", "quantifier": "all structs with named fields, all ways of enclosing their types and attribute values in groups", "why_tests_cant": "One test has a type that comes through a variable, none an attribute value", "anchors": ["oauth1-request-derive/src/method_body.rs: is_option", "oauth1-request-derive/src/meta.rs: FromExprExt", "oauth1-request-derive/tests/pull_3.rs"]}
{"id": "C86", "title": "The attributes of the derive macro can be used as documented", "statement": "A struct that uses #[derive(Request)] as its documentation says is accepted: fields with #[oauth1(encoded)], fmt = path, option = bool, rename = \"name\", skip, skip_if = path, and the struct with #[oauth1(crate = \"name\")], in which case the generated code finds the library under that name.", "quantifier": "all structs with named fields and documented attributes, all names", "why_tests_cant": "The tests only use a path for the crate; the documented form is in none of them", "anchors": ["oauth1-request/src/lib.rs: Request (documentation of the derive macro)", "oauth1-request-derive/src/container.rs: ContainerMeta", "oauth1-request-derive/src/meta.rs: FromExprExt for ExprPath"]}
{"id": "C87", "title": "The URI returned by to_query has the request as its query", "statement": "For every URI without a query, to_query(uri, request) is the same URI with the request as its query: reading the returned URI by RFC 3986, what is before the query and the fragment are those of uri, and the query decodes to the pairs of the request. (The documentation warns of URIs that have a query.)", "quantifier": "all URIs without a query, all requests with URI-safe keys", "why_tests_cant": "The tests use two URIs, neither with a fragment", "anchors": ["oauth1-request/src/lib.rs: to_query", "oauth1-request/src/serializer/urlencode.rs: Urlencoder::query, append_delim"]}
{"id": "C88", "title": "The derive macro returns whatever tokens its attributes consist of", "statement": "For every struct whose attributes name the crate, #[derive(Request)] returns code or errors, whatever tokens are written in its #[oauth1(..)] attributes, including the invisible groups that enclose the variables of macro_rules! macros: parsing them does not panic.", "quantifier": "all token trees in the attributes of a struct and its fields, all parsers of paths and expressions that consume tokens, versions of syn whose Group parser enters invisible groups and those whose does not", "why_tests_cant": "The ui tests have no attribute written by a macro, and no token stream with invisible groups", "anchors": ["oauth1-request-derive/src/meta.rs: Meta::parse", "oauth1-request-derive/src/lib.rs: expand_derive_oauth1_authorize"]}
{"id": "C89", "title": "The errors of the derive macro name what is wrong and point at it", "statement": "Each error of #[derive(Request)] says what is wrong and is placed there: an unknown or repeated attribute at its name, with the name in the text; a missing or superfluous value at the item, joined with its value where spans can be joined; a value of the wrong kind at the value; a name that is not URI-safe at its literal; a second field of a name at the later declaration (the literal of its first valid rename, or its identifier), with the name in the text; a failed crate lookup at the call; an item without named fields at the item. The errors are those of the fields in order, then the duplicate parameters by name, then those of the struct; nothing else is reported, and one error hides no other.", "quantifier": "all structs and attributes, all token parsers and their errors, all span implementations (with and without join), all outcomes of the crate lookup", "why_tests_cant": "The ui test shows each error once, on one compiler on which spans cannot be joined; it has one pair of duplicate fields, the later of which is renamed", "anchors": ["oauth1-request-derive/src/meta.rs: add_meta, Meta::span, FromExprExt", "oauth1-request-derive/src/lib.rs: expand_derive_oauth1_authorize", "oauth1-request-derive/src/field.rs: Name::span", "oauth1-request-derive/tests/ui/attrs.stderr"]}
{"id": "C90", "title": "The signature covers the bytes of the parameters", "statement": "The example server works with the parameters of the Authorization header, form and query read as UTF-8, where what is not UTF-8 is replaced as Unicode recommends (each maximal subpart by U+FFFD); text of any kind arrives unchanged. Two requests for which it computes the same base string have the same method, path and parameters, byte for byte, signatures apart; so what it accepts is byte for byte what a client signed.", "quantifier": "all requests, all byte strings (valid UTF-8 or not), all histories of client runs", "why_tests_cant": "Tests send a few valid texts; the claim is about all byte strings, and the failure needs bytes that no client of this crate produces", "anchors": ["examples/src/server/handler.rs: collect_auth_params, collect_params, create_base_string"]}
{"id": "C91", "title": "Any method and any names may be given", "statement": "A server that follows RFC 5849 accepts the header returned for a request with any HTTP method (any token) and any parameter names, and a form made from the pairs is read back as these pairs.", "quantifier": "all methods, all lists of names and values of any bytes, all URIs, keys and environments", "why_tests_cant": "Tests sign GET and POST with alphanumeric names; the claim is about all methods and names, and the exact set for which it holds", "anchors": ["oauth1-request/src/serializer/auth.rs: make_sign", "oauth1-request/src/signature_method/hmac_sha1.rs: Sign for HmacSha1Sign", "oauth1-request/src/serializer.rs: Serializer::serialize_parameter", "oauth1-request/src/serializer/urlencode.rs: Urlencoder"]}
{"id": "C92", "title": "A signing algorithm is told the base string by the documented calls", "statement": "For every request and every implementor of Sign, whichever of its methods it overrides: what is called before end is request_method, uri, and for each parameter its own method (consumer_key, nonce, signature_method, ... for protocol parameters, parameter for the others) with the encoded value, with delimiter between, each exactly once and in order. A signature method that implements only the required methods, by the pieces of text they are documented with, signs the signature base string.", "quantifier": "all requests, all implementors of Sign and SignatureMethod, all methods, URIs, options, credentials and environments", "why_tests_cant": "The calls are made on a type parameter; tests sign with the methods of the crate, which do not tell the provided methods from parameter", "anchors": ["oauth1-request/src/signature_method.rs: Sign, provide!", "oauth1-request/src/serializer/auth.rs: append_to_header!, make_sign, serialize_parameter"]}
{"id": "C93", "title": "A signature method of one's own is named as it names itself", "statement": "For every signature method, also one with a name of its own (RFC 5849 section 3.4 lets servers define them), the header has its name as the percent-encoded value of oauth_signature_method, and the signature is the one of the base string which has it percent-encoded twice, like every other value.", "quantifier": "all names, all functions of the secrets and the base string, all requests, builders and environments", "why_tests_cant": "The methods of the crate have three fixed names; the claim is about all names", "anchors": ["oauth1-request/src/signature_method.rs: Sign::get_signature_method_name, Sign::signature_method", "oauth1-request/src/serializer/auth.rs: serialize_oauth_signature_method"]}
{"id": "C94", "title": "An ordered map or set is a request if its order is that of its text", "statement": "AssertSorted over a BTreeMap, after any history of collecting, inserting, extending and removing, sends each key once with the value given last; all maps of a key type are in the order the serializers need exactly if Ord of the keys is the order of their text, and then the request is sent as any ParameterList of the same pairs is and its signature is accepted by a server that follows RFC 5849; a set of (name, value) pairs is in order exactly if the values are ordered as they display, so numbers are not (the debug assertion does not notice, the server rejects). With the pairs of any iterator authorizing panics exactly if debug assertions are compiled in and a name is followed by a smaller one, and the base string is that of RFC 5849 exactly if the pairs come in its order.", "quantifier": "all key and value types with a lawful Ord, all histories of map operations, all lists of pairs, builders and environments", "why_tests_cant": "The documentation shows one map of two strings; the claim is about the order of every key type and every history", "anchors": ["oauth1-request/src/request.rs: AssertSorted", "oauth1-request/src/request.rs: AssertSorted::new", "oauth1-request/src/serializer/auth.rs: check_dictionary_order"]}
{"id": "C95", "title": "The macro's drop bomb never goes off and never turns a panic into an abort", "statement": "The context that collects the errors of the derive macro panics when it is dropped without its errors having been taken. The macro takes them on every path on which it creates the context, so this panic never happens; and where the macro panics for another reason while the context is there, dropping it does not panic again, which would abort the compiler.", "quantifier": "all structs and other items, all attributes, all parsers, all results of the crate lookup, all builds", "why_tests_cant": "one has to cover every way through the macro, including its panics, with a context alive at each point", "anchors": ["oauth1-request-derive/src/ctxt.rs: Ctxt, take_error, Drop", "oauth1-request-derive/src/lib.rs: expand_derive_oauth1_authorize"]}
{"id": "C96", "title": "The server signs the base string URI of RFC 5849, whatever scheme and authority it is set up with", "statement": "create_base_string leaves out the default port of the scheme. For every http or https scheme and authority that the constants of the example server may be set to, and every path, the URI in the text that it verifies is the base string URI of RFC 5849 section 3.4.1.2: scheme and host in lower case, the port only if it is not the default.", "quantifier": "all schemes, user information, hosts (names and addresses in brackets), ports and paths", "why_tests_cant": "the repository only has one authority; where a port begins in an authority with brackets or a password is a matter of all texts", "anchors": ["examples/src/server/handler.rs: create_base_string, SCHEME, AUTHORITY"]}
{"id": "C97", "title": "PLAINTEXT works with any buffer that keeps the signing key", "statement": "Plaintext::with_buf writes the signing key of RFC 5849 section 3.4.4, in the same fragments, to a default value of any buffer type. Signing panics exactly if the buffer refuses a fragment. Otherwise header, form and query are those of PLAINTEXT with what the buffer displays in place of the signing key, so they are the same if and only if it displays the key; a buffer of fixed capacity works exactly if the key fits.", "quantifier": "All buffer types (writers, default values, Display implementations), secrets, builders and requests.", "why_tests_cant": "A buffer type is code: tests can try String and a few others.", "anchors": ["oauth1-request/src/signature_method/plaintext.rs: with_buf, sign_with, PlaintextSign", "oauth1-request/src/signature_method.rs: write_signing_key"]}
{"id": "C98", "title": "A form or query in a caller's buffer is complete or the call panics, whatever the values do", "statement": "If serializing a request with Urlencoder::form_with_buf or Urlencoder::query returns, all of the text that the String version gives has been written to the buffer, also if a value of the request does not stop at a failed write. This holds exactly if no value returns Ok after a write it was told had failed; on writers that never fail (String, the digests behind signatures) every value behaves as one that stops.", "quantifier": "All requests (as sequences of calls), all behaviours of Display implementations (any reaction to the result of each write), all buffers (any function from state and text to a result and a state).", "why_tests_cant": "A Display implementation and a buffer are code; which write fails, and what happens after it, is chosen by them.", "anchors": ["oauth1-request/src/serializer/urlencode.rs: append_delim, serialize_parameter, serialize_parameter_encoded", "oauth1-request/src/util/percent_encoding.rs: Display for PercentEncode, Display for DoublePercentEncode", "oauth1-request/src/signature_method/digest_common.rs: parameter, UpdateWrite"]}
{"id": "C99", "title": "With the js feature the timestamp is the whole seconds, in spite of floating-point division", "statement": "(Date::now() / 1000.0) as u64 is the number of whole seconds since the epoch for every time value ECMAScript permits, and 0 before the epoch: the rounding of the division never carries a time into the next second. Later times never give earlier timestamps.", "quantifier": "All integers from -8.64e15 to 8.64e15 (and all that f64 holds exactly, up to 2^53), every rounding to nearest.", "why_tests_cant": "1.7e16 time values, and a clock that tests cannot set; the bound matters (C99_beyond).", "anchors": ["oauth1-request/src/serializer/auth.rs: get_current_timestamp"]}
{"id": "C100", "title": "The path given as `crate` is one that can be imported", "statement": "If the derive macro accepts a struct with #[oauth1(crate = path)], the item `use path as _oauth1_request;` in its output is a use declaration of Rust. Violated: the macro takes every path expression, but only simple paths can be imported; exact condition: no attributes, no type in front (<T as Trait>::x), no generic arguments, no Self.", "quantifier": "All path expressions (attributes, qualified types, generic arguments with any tokens, any number of segments), all structs and attributes.", "why_tests_cant": "The compile tests of the repository use two paths; path expressions are an infinite language.", "anchors": ["oauth1-request-derive/src/lib.rs: expand_derive_oauth1_authorize (use #krate as _oauth1_request)", "oauth1-request-derive/src/container.rs: ContainerMeta", "oauth1-request-derive/src/meta.rs: FromExprExt for ExprPath"]}
{"id": "C101", "title": "The functions in fmt and skip_if may be any that could be called with a reference to the field", "statement": "In the code of an accepted struct, the calls through the helper functions type-check exactly if the named function could be called by hand with a reference to the (content of the) field: &String where &str is asked for, &Box<Vec<T>> where &Vec<_> is. This depends on the order of the parameters of the helper: in the other order only functions for the type of the field itself fit. Generic functions are called for the type of the field itself.", "quantifier": "All signatures (any parameter types, results, bounds), all types and chains of dereferencing, all accepted structs.", "why_tests_cant": "Type inference is over all types of all programs; the repository compiles one deref coercion and twelve failing cases.", "anchors": ["oauth1-request-derive/src/method_body/helper.rs: DeriveRequestAssertion::fmt, fmt_impls_fn, skip_if_impls_fn", "oauth1-request-derive/src/method_body.rs: MethodBody::to_tokens", "oauth1-request-derive/tests/ui/typeck.rs"]}
{"id": "C102", "title": "What is in the answers of the example server", "statement": "Every answer of the example server is either 200 with what the resource has to give (from /echo all received parameters, in order, as the URL Standard serializes forms; from /request_temp_credentials the temporary credentials with oauth_callback_confirmed, only if the callback is oob; from /request_token the token credentials) or 400, 401 or 404 with an empty body; 404 means exactly that there is no such resource; the answer to a request that is not accepted for the resource discloses nothing.", "quantifier": "all incoming requests, all versions of the external crates (Lib), all clock readings, builds with and without overflow checks", "why_tests_cant": "The set of requests is infinite; tests see the answers to a few. That no refused request gets a body is a statement about all paths through the handlers.", "anchors": ["examples/src/server/handler.rs: echo, post_request_temp_credentials, post_request_token, verify_and_then", "examples/src/server/main.rs: routing", "oauth-credentials/src/serde_imp.rs"]}
