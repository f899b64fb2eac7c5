#!/usr/bin/env python3
"""Writes /verif/properties.jsonl. One tuple per property."""
import json, os
S='oauth1-request/src/'
D='oauth1-request-derive/src/'
C='oauth-credentials/src/'
R='examples/src/'
X='examples/src/server/'
P=[]
def p(id,title,statement,quant,why,anchors):
    P.append(dict(id=id,title=title,statement=statement,quantifier=quant,why_tests_cant=why,anchors=anchors))

p('C01','Form/query values are RFC 3986 percent-encoded, however Display fragments its output',
 'For every parameter value, the bytes that `to_form`/`to_query` write after `key=` are exactly the RFC 3986 percent-encoding of the text the value displays (unreserved bytes verbatim, every other byte as %HH with upper-case hex), and this does not depend on how the value\'s Display splits the text into write_str calls.',
 'all values (all byte strings of any length) and all ways of fragmenting their formatted text',
 'infinitely many texts and fragmentations; a bug may only appear when a reserved byte sits at a fragment boundary',
 [S+'util/percent_encoding.rs: PercentEncode, percent_encode, RESERVED', S+'serializer/urlencode.rs: Urlencoder::serialize_parameter'])
p('C02','The signature base string carries every value percent-encoded exactly twice',
 'The text fed to the signing algorithm for a parameter value is percent-encode(percent-encode(text)); the hand-written bit map, 1280-byte table and run-splitting loop agree with applying the single encoding two times, for every text and every fragmentation; so the base string of a request holds exactly the protocol parameters sent and the parameters supplied, each encoded twice (once, if supplied encoded).',
 'all byte strings, all fragmentations, all parameter lists and derived requests',
 'the run-splitting loop has unboundedly many shapes; a table or boundary slip shows only for particular run layouts',
 [S+'util/percent_encoding.rs: DoublePercentEncode, double_encode_byte, should_percent_encode, get_bit, ENCODE_MAP', S+'serializer/auth.rs: Authorizer::serialize_parameter, serialize_parameter_encoded'])
p('C03','A form produced by to_form decodes back to exactly the request\'s pairs',
 'Splitting the string returned by `to_form(request)` on & and =, and percent-decoding, gives back precisely the list of (key, value text) pairs that the request serialized, same order and multiplicity, provided the keys are URI-safe; so two requests with different pairs never give the same form.',
 'all requests: any number of pairs, any values, URI-safe keys',
 'injectivity/round-trip over unbounded lists of unbounded strings',
 [S+'lib.rs: to_form', S+'serializer/urlencode.rs: Urlencoder'])
p('C04','No value can inject a delimiter into a header, form, query or base string',
 'Whatever the values of request parameters, callback, verifier, nonce, consumer key and token, their serialized representation contains only unreserved characters and % followed by two upper-case hex digits: never a quote, comma, ampersand, equals sign, space, control or non-ASCII byte.',
 'all byte strings as values',
 'adversarial strings are unbounded',
 [S+'util/percent_encoding.rs', S+'serializer/auth.rs: append_to_header'])
p('C05','The unchecked UTF-8 conversions only ever see ASCII',
 'Every byte slice converted with `str::from_utf8_unchecked` while percent-encoding is pure ASCII (hence valid UTF-8), every index into the encoding table and bit map is in bounds, and the debug_assert!s about it never fire; so encoding any value is memory-safe and panic-free.',
 'all byte strings and all fragmentations',
 'undefined behaviour is not reliably observable by tests, and inputs are unbounded',
 [S+'util/percent_encoding.rs: DoublePercentEncode::fmt, double_encode_byte, get_bit'])
p('C06','Base string layout: method, URI and parameters joined with exactly one delimiter',
 'For every sequence of serialize calls made on an authorizing serializer, what the signing algorithm is fed is `METHOD & encoded-URI &` followed by `key%3Dvalue` for each parameter that was serialized (request and protocol parameters alike, in call order), with `%26` exactly between consecutive parameters and nowhere else.',
 'all call sequences of any length, all methods, URIs, options, credentials',
 'delimiter bookkeeping is a state machine over unbounded call histories',
 [S+'serializer/auth.rs: sign_delimiter, append_to_header_encoded, serialize_parameter, make_sign', S+'signature_method/digest_common.rs: UpdateSign'])
p('C07','An RFC 5849 server verifying an authorized request computes the same HMAC-SHA1 signature',
 'Take any request given as a parameter list and authorize it: parsing the returned Authorization header as RFC 5849 section 3.5.1 says, collecting its protocol parameters (minus oauth_signature) with the request\'s own pairs, and computing the HMAC-SHA1 signature over the RFC 5849 section 3.4.1 signature base string (encode, sort by encoded name then encoded value, concatenate) yields exactly the oauth_signature in the header.',
 'all requests, methods, base string URIs, credentials, options, nonces, clocks',
 'interoperability must hold for every parameter list; tests pin a few vectors',
 [S+'serializer/auth.rs: Authorizer', S+'request/parameter_list.rs: cmp, ParameterList', S+'signature_method/hmac_sha1.rs', S+'lib.rs: Builder::authorize'])
p('C08','The order in which parameters are supplied to ParameterList never changes the output',
 'Two ParameterLists built from permutations of the same pairs serialize to the same bytes under every serializer, hence have the same signature, whatever unstable sorting algorithm is used.',
 'all lists, all permutations, all correct unstable sorts',
 'n! permutations for unbounded n; unstable sort outcome is unspecified for equal elements',
 [S+'request/parameter_list.rs: ParameterList::new, sort, cmp'])
p('C09','The Authorization header parses back to exactly the protocol parameters',
 'The value returned by `authorize` is `OAuth ` followed by comma-separated key="value" items; parsing it and percent-decoding gives exactly: callback (if set), consumer key, nonce, signature method, timestamp, token (if set), verifier (if set), version 1.0 (if requested), in this order, then the signature as the last item; each once; values equal to those configured; and request parameters never appear in it.',
 'all credentials, options, requests, nonces, timestamps',
 'all strings for all fields; the header is one line that must be unambiguous for all of them',
 [S+'serializer/auth.rs: append_to_header_encoded, serialize_oauth_*, end'])
p('C10','Signed protocol parameters are the same as those sent',
 'For every signature method with nonce and timestamp in use, the multiset of protocol parameters fed to the signature equals the one written to the header, form or query (same names, same values): the nonce or timestamp sent is the one signed, and a parameter is signed if and only if it is sent.',
 'all options, credentials, random nonces, clock readings, call sequences',
 'nonce and clock are nondeterministic; signed and sent copies go through different encoders',
 [S+'serializer/auth.rs: append_to_header!, serialize_oauth_nonce, serialize_oauth_timestamp'])
p('C11','Builder::to_form and to_query output the request parameters along with the protocol parameters',
 'The string returned by `Builder::to_form` (and the query appended by `Builder::to_query`) contains, besides the protocol parameters and the signature, every key-value pair of the request, as documented.',
 'all requests, credentials, options',
 'must hold for every request; the repo has no test of it',
 [S+'lib.rs: Builder::to_form, Builder::to_query', S+'serializer/auth.rs: Authorizer::serialize_parameter'])
p('C12','Builder::to_form/to_query layout: protocol parameters then signature, URI preserved',
 'The form string is an &-joined sequence of key=value items holding the protocol parameters in order with oauth_signature last and no stray separators; `Builder::to_query(uri)` returns uri, then one ?, then that same sequence; the result never starts with a separator and the URI is a prefix.',
 'all URIs, credentials, options, requests',
 'separator state machine over unbounded histories',
 [S+'serializer/auth.rs: query, form_with_buf', S+'serializer/urlencode.rs: append_delim'])
p('C13','Plain to_query appends exactly one query part, and none for an empty request',
 '`to_query(uri, request)` returns uri unchanged when the request has no pairs and otherwise uri + "?" + to_form(request); it never emits protocol parameters.',
 'all URIs and requests', 'unbounded inputs',
 [S+'lib.rs: to_query', S+'serializer/urlencode.rs: Urlencoder::query'])
p('C14','Misordered keys panic in debug builds, and only then',
 'With debug assertions and alloc, an authorizing serializer panics on a call sequence exactly when some emitted key (request or protocol) is byte-wise smaller than the key emitted just before it; in release builds the same sequence never panics for that reason; in neither case are equal adjacent keys rejected.',
 'all call sequences, all keys', 'histories of any length with interleaved protocol keys whose emission depends on options',
 [S+'serializer/auth.rs: check_dictionary_order'])
p('C15','A URI containing "?" is rejected in debug builds, however it is formatted',
 'Creating an authorizing serializer in a debug build panics if and only if the displayed URI contains a ? byte, no matter how Display fragments the URI; in a release build it does not panic for that reason and the URI is signed verbatim (percent-encoded).',
 'all URIs, all fragmentations', 'fragmentation is unbounded',
 [S+'serializer/auth.rs: make_sign'])
p('C16','Authorizing a well-formed request never panics',
 'For any ParameterList (any pairs, in any order) with displayable values, any credentials, options (a timestamp among them if the build has no clock), signature secrets and a query-free URI, `authorize`, `to_form` and `to_query` return normally, in debug and in release builds: the ordering assertion cannot fire, OAuthParameter::None is never serialized or advanced, buffers suffice.',
 'all parameter lists, credentials, options, random bytes, clock readings, build modes',
 'absence of panics over all inputs',
 [S+'request.rs: AssertSorted::serialize', S+'util/oauth_parameter.rs: next', S+'util.rs: OAuthParameter::serialize', S+'serializer/auth.rs: check_dictionary_order, gen_nonce'])
p('C17','Every request emits the eight protocol parameters exactly once and in order',
 'Whatever keys a request has (sorted or not, including keys starting with oauth_), serializing it calls each of the eight serialize_oauth_* methods exactly once, in the order callback, consumer key, nonce, signature method, timestamp, token, verifier, version, and emits every pair exactly once in order.',
 'all key lists of any length', 'the interleaving loop is driven by unbounded key lists',
 [S+'request.rs: AssertSorted::serialize, Request for (), Request for Option', S+'util/oauth_parameter.rs', D+'method_body.rs'])
p('C18','Protocol parameters are interleaved at their sorted position',
 'If the pairs are in ascending key order, the complete sequence of serialized keys (request keys and oauth_* keys together) is in ascending byte order, as RFC 5849 section 3.4.1.3.2 requires, also when request keys fall between two protocol keys.',
 'all ascending key lists', 'unbounded lists; keys can interleave with the eight names in arbitrarily many ways',
 [S+'request.rs: AssertSorted::serialize', S+'util/oauth_parameter.rs: partial_cmp'])
p('C19','A ParameterList is always sorted, through any history of operations',
 'After any sequence of construction (new, from_sorted, From, FromIterator, Default) and extend operations, iterating a ParameterList yields exactly the supplied pairs as a multiset, in ascending order of (key, displayed value).',
 'all operation histories, all pairs', 'unbounded histories',
 [S+'request/parameter_list.rs: ParameterList::{new,from_sorted,extend,from_iter,default,iter,into_inner}'])
p('C20','ParameterList::from_sorted accepts exactly the sorted lists and never reorders',
 'from_sorted(list) returns Some(list unchanged) if and only if all pairs i<j satisfy (key_i, text_i) <= (key_j, text_j); values compare by displayed text, not numerically.',
 'all lists', 'the check only looks at adjacent windows; correctness for all pairs needs transitivity over unbounded lists',
 [S+'request/parameter_list.rs: from_sorted, is_sorted_by, cmp'])
p('C21','#[derive(Request)] output does not depend on field declaration order',
 'Two structs with the same set of fields (names, attributes, values) in different declaration order serialize identically under every serializer, and the keys are emitted in ascending order interleaved with the protocol parameters exactly as the equivalent AssertSorted list would be.',
 'all struct definitions, all permutations of fields, all field values', 'macro inputs are unbounded',
 [D+'lib.rs: expand_derive_oauth1_authorize', D+'method_body.rs: MethodBody::to_tokens'])
p('C22','#[derive(Request)] field attributes do what they say',
 'For each field: skip never serializes it; an Option field (or option = true) is serialized iff Some, with the inner value; skip_if suppresses it exactly when the predicate is true of the (unwrapped) value; encoded selects serialize_parameter_encoded; fmt selects the formatter; rename selects the key; a non-skipped, non-suppressed field is serialized exactly once.',
 'all struct definitions, attribute combinations and field values', 'attribute combinations times values are unbounded',
 [D+'method_body.rs: MethodBody::to_tokens, is_option', D+'field.rs: Field, Name'])
p('C23','A derive that compiles has distinct, URI-safe parameter names',
 'If derive(Request) accepts a struct, no two parameters of the generated request share a name, and every key it emits consists of unreserved characters only; if it is rejected for duplicates, two fields really share a name.',
 'all struct definitions', 'unbounded numbers of fields and names; adjacent-only duplicate check relies on sorting',
 [D+'lib.rs: expand_derive_oauth1_authorize (sort, duplicate fold)', D+'meta.rs: UriSafe::from_expr', D+'field.rs: Field::new'])
p('C24','Attribute parsing rejects unknown, malformed and repeated attributes and is order-independent',
 'A field\'s #[oauth1(...)] attributes are accepted iff each item is a known name of the right kind and no name occurs twice across all of the field\'s attributes; the resulting configuration does not depend on the order of the items or on how they are grouped into attributes; attributes of other macros are ignored.',
 'all lists of attributes', 'unbounded lists, all permutations/groupings',
 [D+'meta.rs: def_meta!, add_meta_impl!, Meta::parse, FromExprExt', D+'field.rs: FieldMeta', D+'container.rs'])
p('C25','The streaming HMAC key equals the HMAC key of the whole signing key',
 'However the signing key text is split into writes, the HMAC computed by the HMAC-SHA1 signer is HMAC-SHA1 keyed with the complete concatenated key, for keys shorter than, equal to, and longer than the 64-byte block (where the key must first be hashed).',
 'all write sequences, all key lengths', 'boundary at 64 bytes with arbitrary fragmentation',
 [S+'signature_method/hmac_sha1.rs: SigningKey::{new,write,into_hmac}'])
p('C26','HMAC-SHA1 signature value',
 'With HMAC-SHA1 the emitted oauth_signature is percent-encode(base64(HMAC-SHA1(key, base string))) with key = percent-encode(client secret) & percent-encode(token secret), the part after & empty when no token is set; it decodes to exactly 20 bytes.',
 'all secrets, all base strings', 'unbounded inputs',
 [S+'signature_method/hmac_sha1.rs', S+'signature_method.rs: write_signing_key', S+'signature_method/digest_common.rs: Base64PercentEncodeDisplay'])
p('C27','PLAINTEXT signature is sent percent-encoded',
 'With PLAINTEXT, the oauth_signature item written to the header, form or query is the URL-encoded representation (as the Sign::Signature contract says) of percent-encode(client secret) & percent-encode(token secret), so that decoding the item returns the RFC 5849 section 3.4.4 signature and the form still splits into the right pairs.',
 'all secrets', 'adversarial secrets; interaction of separator and encoding',
 [S+'signature_method/plaintext.rs: PlaintextSign::end', S+'serializer/auth.rs: end'])
p('C28','RSA-SHA1 signs the base string with the key and ignores shared secrets',
 'With RSA-SHA1 the oauth_signature is percent-encode(base64(RSASSA-PKCS1-v1_5(SHA-1(base string)))) for owned and borrowed keys alike, whatever the secrets; the only panic is a failing RSA private-key operation.',
 'all keys, secrets, base strings', 'unbounded inputs',
 [S+'signature_method/rsa_sha1.rs'])
p('C29','Either behaves exactly like the signature method it holds',
 'Authorizing with Either::Left(l) gives the same output as authorizing with l, and likewise for Right, for every signature method including user-defined ones.',
 'all signature methods (including custom ones overriding any method), all requests', 'quantifies over all trait implementations',
 [S+'signature_method/either.rs'])
p('C30','Shared secrets influence nothing but the signature',
 'Changing the client secret or the token secret changes at most the value of oauth_signature: every other byte of the header, form or query is the same.',
 'all secrets, requests, options', 'noninterference relates pairs of executions',
 [S+'serializer/auth.rs: new_, end', S+'signature_method.rs: SignatureMethod::sign_with'])
p('C31','Debug output never reveals a shared secret',
 'The Debug rendering of Credentials, Token, Builder and Authorizer is the same whatever the shared secrets are.',
 'all credentials', 'noninterference over all secrets',
 [C+'lib.rs: Debug for Credentials', S+'lib.rs: Builder', S+'serializer/auth.rs: Authorizer', S+'signature_method/plaintext.rs: PlaintextSign'])
p('C32','Generated nonces keep all 72 bits of randomness and need no encoding',
 'A generated nonce consists of URL-safe base64 characters only (so encoding leaves it unchanged), has at most 12 characters, is produced without panic for any random bytes, and two nonces are equal only if all nine random bytes were equal.',
 'all 2^72 random inputs', '2^72 inputs; trimming of leading zeroes could merge values',
 [S+'serializer/auth.rs: gen_nonce, NONCE_LEN'])
p('C33','The timestamp sent is a positive decimal integer',
 'oauth_timestamp is the decimal representation (no sign, no leading zero) of a positive integer: the configured one if set, else the current Unix time in seconds.',
 'all configured timestamps and clock readings', 'clock readings cannot be controlled in tests',
 [S+'serializer/auth.rs: serialize_oauth_timestamp, get_current_timestamp', S+'serializer/auth.rs: Options::timestamp'])
p('C34','Builder setters: last call wins, None unsets, and signing never changes the builder',
 'After any sequence of setter calls, the parameters used are those of the last call for each option (absent if it was None or never set); setters of different options commute; authorizing any number of requests in between has no effect on later outputs with pinned nonce and timestamp.',
 'all histories of setter and authorize calls', 'unbounded histories',
 [S+'lib.rs: Builder::{new,with_token,token,callback,verifier,nonce,timestamp,version}', S+'util.rs: impl_setters', S+'serializer/auth.rs: Options'])
p('C35','All entry points agree',
 'get/put/post/... are authorize with the corresponding method name; into_* consume the builder but give the same result as their borrowing counterparts; the *_with_buf forms append the same text to the buffer; the free functions equal a Builder with both credentials and default options.',
 'all arguments', 'argument mix-ups only show for particular argument combinations',
 [S+'lib.rs: builder_authorize_shorthand, builder_to_form_shorthand, builder_to_query_shorthand, authorize_shorthand, authorize'])
p('C36','Writing to a caller-supplied buffer is all-or-panic',
 'For any fmt::Write buffer, the *_with_buf functions issue writes whose concatenation is exactly the string the String-returning form would return; if any write fails the call panics, so a truncated header is never returned.',
 'all writers (any state machine, failing at any point), all requests', 'all failure points of all writers',
 [S+'serializer/auth.rs: authorization_with_buf, form_with_buf', S+'serializer/urlencode.rs'])
p('C37','Recorder is a faithful oracle for Request implementations',
 'The Vec<Record> a request produces on a Recorder is exactly its sequence of serializer calls, and replaying these records on any other serializer gives the same result as serializing the request there; Record equality is exactly equality of kind, key and displayed value.',
 'all requests, all serializers', 'quantifies over all serializers',
 [S+'serializer/recorder.rs'])
p('C38','Credentials/Token accessors and maps keep the four strings in place',
 'new/from_parts/from_ref/as_ref/client/token/From never swap or alter identifiers and secrets; map applies the function to each contained string exactly once (identifier then secret, client then token), map_client and map_token leave the other pair untouched, and maps compose.',
 'all strings and all (stateful) functions', 'quantifies over closures with state',
 [C+'lib.rs: Credentials, Token'])
p('C39','Credentials deserialization accepts exactly well-formed responses',
 'Deserializing a map succeeds iff oauth_token and oauth_token_secret each occur exactly once with convertible values; other entries are ignored wherever they are; the result does not depend on entry order; duplicates and absences are errors naming the field; and serialize-then-deserialize is the identity.',
 'all entry lists of any length in any order', 'unbounded lists and permutations',
 [C+'serde_imp.rs: Deserialize/Serialize for Credentials, Field'])
p('C40','Plain form/query serialization ignores protocol calls',
 'The output of to_form/to_query is a function of the request pairs only: it does not depend on where or how many times protocol-parameter calls are made, and reads no clock and no randomness.',
 'all call sequences', 'unbounded call sequences',
 [S+'serializer/urlencode.rs', S+'serializer.rs: skip_serialize_oauth_parameters'])
p('C41','Forwarding Request implementations are transparent',
 '&R, &mut R and Some(R) serialize exactly as R; () and None serialize as an empty parameter list; a ParameterList serializes as the AssertSorted of its sorted pairs.',
 'all requests, all serializers', 'quantifies over all serializers and requests',
 [S+'request.rs: Request impls', S+'request/parameter_list.rs: Request for ParameterList'])
p('C42','Two requests with the same effective parameters are indistinguishable, and the only nondeterminism is nonce and timestamp',
 'The output of authorize is a deterministic function of its arguments, the nine random nonce bytes (only if no nonce is set and the method uses one) and one clock reading (only if no timestamp is set); with both pinned, the output is the same under any random source and clock, and exactly that much randomness is consumed.',
 'all random sources, clocks, arguments', 'nondeterministic inputs',
 [S+'serializer/auth.rs: serialize_oauth_nonce, serialize_oauth_timestamp'])
p('C43','The example server accepts what the client signs',
 'A request signed by the client with HMAC-SHA1 and the credentials the endpoint expects, sent within the time window, with parameters in header plus query or form, passes the example server\'s verification.',
 'all parameter lists, nonces, timestamps within the window', 'client and server compute base strings by different code; agreement must hold for all inputs',
 [X+'handler.rs: verify_and_then, collect_params, collect_oauth_params, create_base_string', X+'authorization.rs'])
p('C44','The example server accepts nothing that is not correctly signed',
 'If the example server runs the handler for a request, the request carried the expected consumer key and token, a timestamp not too old, and a signature matching the one computed from the shared secrets for the signature method named in it.',
 'all incoming requests', 'adversarial requests',
 [X+'handler.rs: verify_and_then::inner'])
p('C45','The example server never panics on a request',
 'No header, query or form content makes verification panic.',
 'all incoming requests', 'adversarial inputs',
 [X+'handler.rs: verify_and_then::inner, collect_auth_params', X+'authorization.rs'])
p('C46','A signature binds method, URI and every parameter',
 'Two authorized calls are fed the same signature base string only if HTTP method, URI text and the sequence of (key, value text) pairs are the same (for methods and keys made of unreserved characters): no re-partitioning of keys, values, URI or method yields the same base string.',
 'all pairs of requests', 'injectivity over unbounded inputs',
 [S+'serializer/auth.rs: make_sign, serialize_parameter', S+'signature_method/digest_common.rs'])
p('C47','The signing key determines the pair of secrets',
 'Two different (client secret, token secret) pairs never give the same signing key, except that an absent token counts as an empty token secret.',
 'all secrets', 'adversarial secrets containing & or %',
 [S+'signature_method.rs: write_signing_key'])
p('C48','The header parser of the example server inverts header construction',
 'Parsing key="value" lists with the example\'s iterator yields every item in order and stops at the first item that does not parse, reporting the unconsumed rest; a header produced by the client is consumed completely.',
 'all headers', 'unbounded lists',
 [X+'authorization.rs: Punctuated, auth_param, hash, quoted_string'])
p('C49','The example client completes the dance with the example server',
 'The example client obtains temporary credentials, exchanges them for token credentials and makes both echo requests without panicking, and prints every parameter it sent, whatever the random bytes and the time, as long as no request takes longer than the 30-second window.',
 'all random sources and clocks', 'nonces and timestamps differ in every run; client and server are separate implementations of signing',
 [R+'client/main.rs: main', R+'client/auth.rs', R+'client/request.rs: Request::send', X+'main.rs', X+'handler.rs'])
p('C50','A server that follows RFC 5849 accepts requests of any shape, in particular derived ones',
 'For a request of any shape whose encoded pairs come out ascending, the signed base string is the one RFC 5849 section 3.4.1 describes (and exactly then); such a server accepts the HMAC-SHA1 header whatever the order in which it receives the pairs. A struct with #[derive(Request)] and distinct unreserved keys always satisfies this, whatever its field values.',
 'all requests, all derived structs, all field values, all orders of arrival', 'quantifies over struct definitions and values; the server is a separate specification',
 [S+'serializer/auth.rs', D+'method_body.rs', D+'field.rs', S+'signature_method/hmac_sha1.rs'])
p('C51','RSA-SHA1 headers verify with the public key',
 'With the RSASSA-PKCS1-v1_5 private key operation of RFC 3447 and any valid key of at least 46 bytes, authorizing never panics because of the signature, and verification with the public key succeeds exactly if the base string computed by the server has the digest of the one signed; so an RFC 5849 server accepts the header of every request C50 covers.',
 'all valid RSA keys, all requests', 'number theory over all keys (Euler), not reachable by sampling keys',
 [S+'signature_method/rsa_sha1.rs', S+'serializer/auth.rs'])
p('C52','A signed request is answered at most once by the example server',
 'A request with a nonce and an HMAC-SHA1 signature that was answered once is not answered again (RFC 5849 section 3.3).',
 'all requests, all pairs of times', 'quantifies over all requests and times',
 [X+'handler.rs: verify_and_then', X+'main.rs'])
p('C53','What the example server accepts is what a client signed',
 'If a received signature that matches the text the server computes is one for a text some run of the client signed (nobody else can make signatures), then every accepted request (other than PLAINTEXT) has the method, URI and parameters of such a run, no more and no fewer; a signature moved to any other request is refused unless two HMACs collide.',
 'all requests, all histories of client runs', 'injectivity across two separate implementations, over unbounded inputs',
 [X+'handler.rs: create_base_string, verify_and_then::inner', S+'serializer/auth.rs'])
p('C54','Build configurations give the same output',
 'For every signature method, writer, request and URI, a build with debug assertions and with or without alloc returns exactly what the release build with the same clock returns, text or panic; except that it panics if the URI contains ? (debug) or a key is misordered (debug with alloc).',
 'all configurations, all requests, all user-defined signers and writers', 'tests run in one configuration',
 [S+'serializer/auth.rs: make_sign, check_dictionary_order', S+'util/percent_encoding.rs', S+'util/oauth_parameter.rs'])
p('C55','A ParameterList over any container is sorted',
 'For every container type A of elements P (whose as_ref and as_mut lend the same slice), after any history of new, From, FromIterator, from_sorted, default and extend the pairs are in ascending order, sorting loses and adds nothing, and the request is sent as the plain list of its pairs is.',
 'all containers and element types, all histories', 'quantifies over user-defined containers',
 [S+'request/parameter_list.rs: ParameterList<K, V, A, P>'])
p('C56','The URI signed is the base string URI of RFC 5849',
 'For every http or https URI without query and fragment, the base string has the base string URI of RFC 5849 section 3.4.1.2 (scheme and host in lower case, no default port, the path as requested), so that a server that follows the RFC accepts the header.',
 'all http and https URIs', 'unbounded grammar; the server is a separate specification',
 [S+'serializer/auth.rs: make_sign', S+'lib.rs: Builder::authorize'])
p('C57','The code generated for an accepted struct refers to its fields and parameters',
 'If derive(Request) accepts a struct, every field access in the generated method is an access to the field whose attributes led to it, the type parameter of the method differs from those of the struct, and the trait is found: the names in the generated code resolve.',
 'all struct definitions the macro accepts', 'quantifies over programs; a test compiles one struct',
 [D+'method_body.rs: MethodBody::to_tokens', D+'field.rs: Field::new', D+'lib.rs: expand_derive_oauth1_authorize'])
p('C58','The derived impl is for exactly the instantiations with displayable type arguments',
 'The impl generated for a generic struct has the struct\'s own parameters as arguments, in order, keeps all bounds and the where clause, and applies exactly to those instantiations of the struct whose type arguments implement Display; whenever the macro returns on a struct with named fields it generates an impl, also with errors.',
 'all generic parameter lists and instantiations', 'quantifies over programs',
 [D+'lib.rs: add_trait_bounds, expand_derive_oauth1_authorize'])
p('C59','The macro reports all errors at once and panics only without a crate name',
 'For a struct with named fields the macro returns unless the crate cannot be named by an identifier and the struct does not name it; the errors it returns are exactly those of each ill-formed or repeated attribute item, each duplicate name, and a failed lookup, none hiding another, and well-formed items next to bad ones still take effect.',
 'all attribute lists, struct definitions and outcomes of the crate lookup', 'combinations of errors are unbounded',
 [D+'meta.rs: def_meta, new, add_meta', D+'ctxt.rs', D+'lib.rs: expand_derive_oauth1_authorize'])
p('C60','A request sent as documented passes an RFC 5849 server, from the bytes of the HTTP message on',
 'Sign a request to a URI in normal form; send the Authorization header that authorize returns together with the form that to_form returns as the body, or to the URI that to_query returns. A server that parses header, query and form body (with the form decoding of the URL Standard) and follows RFC 5849 accepts the message.',
 'all requests with unreserved names whose encoded pairs ascend (all parameter lists whose values keep their order, all derived requests), all values, credentials, options, normal http(s) URIs and methods; HMAC-SHA1 and RSA-SHA1', 'tests stop at the strings the crate returns and never run a server on them',
 [S+'lib.rs: Builder::authorize, to_form, to_query', S+'serializer/urlencode.rs', S+'serializer/auth.rs'])
p('C61','The output of Builder::to_form or to_query, sent as it is, passes an RFC 5849 server',
 'The form returned by Builder::to_form, sent as the body, or the URI returned by Builder::to_query, requested, is accepted by a server that follows RFC 5849.',
 'all parameter lists, credentials, options, normal URIs and methods', 'tests compare the output with itself and send it to no server',
 [S+'lib.rs: Builder::to_form, to_query', S+'serializer/auth.rs: serialize_parameter'])
p('C62','No protocol parameter more than once in what is sent',
'A request sent with the header of authorize and the form of to_form as its body, or to the URI of to_query, contains none of the nine OAuth protocol parameters more than once, as RFC 5849 section 3.1 demands; the same for the output of Builder::to_form or Builder::to_query sent alone.',
'All builders with HMAC-SHA1 or RSA-SHA1, requests (derived ones among them), option settings, methods, URIs without a query, environments.',
'The repository never looks at header and body together, and its requests in tests have no parameter with an oauth_ name except one derive test that only records calls.',
[S+'serializer/auth.rs: serialize_parameter, append_to_header_encoded', S+'request/parameter_list.rs: ParameterList::new', D+'lib.rs: duplicate check'])

p('C63','Variables of the derived code never capture a name from an attribute',
'The tokens generated by derive(Request) (blocks, let bindings with their hygiene, the helper value, and the paths given in fmt and skip_if), run under the scoping rules of Rust, call the function in scope where the struct is defined, also when it is called tmp, value, helper, fmt or serializer, apply it to the field it was given for, and make exactly the serializer calls that the fields and attributes describe.',
'All accepted structs, all names of functions, all contexts of the tokens of the struct other than that of the expansion, all values of the fields.',
'A test compiles one struct with one choice of names; scoping mistakes show only for particular combinations of names, attributes and options.',
[D+'method_body.rs: MethodBody::to_tokens', D+'method_body/helper.rs: FmtHelper, SkipIfHelper'])
p('C64','The derived code compiles exactly when the types are as the attributes say',
'The method generated for an accepted struct type-checks if and only if every field that is not skipped has a type that suits its attributes: an Option if it is treated as one, a (content) type that implements Display or is accepted by the fmt function, and is accepted by the skip_if predicate.',
'All accepted structs, all typings of their fields and of the functions they mention.',
'The ui tests compile one struct with fourteen kinds of error and compare messages; they do not show that there are no others.',
[D+'method_body.rs: MethodBody::to_tokens', D+'method_body/helper.rs: FmtHelper, SkipIfHelper', 'oauth1-request-derive/tests/ui/typeck.rs'])

p('C65','Credentials are read from the bytes of a response exactly if it has one token and one secret',
'Reading Credentials from the body of a response to a temporary credentials or token request succeeds if and only if the pairs of the body, by the form decoding of the URL Standard, have one oauth_token and one oauth_token_secret, and gives their values; credentials written with Serialize among other parameters are read back unchanged; behind serde(flatten) the same credentials are read.',
'All bodies, all credentials, all other parameters, all positions.',
'The documentation has one response; unbounded bodies, encodings and orders.',
[C+'serde_imp.rs: Deserialize/Serialize for Credentials, FIELDS', 'examples/src/client/auth.rs', X+'handler.rs: post_request_temp_credentials, post_request_token'])
p('C66','Credentials survive every data format',
'Credentials that were written by Serialize in a format that restores strings are read back by Deserialize, whether the format stores a struct as a map of names and values or as the sequence of its values.',
'All credentials, all formats.',
'Tests use two formats with field names.',
[C+'serde_imp.rs: Deserialize/Serialize for Credentials'])

p('C67','A ParameterList is sorted even after a caught panic',
'After any history of constructors and extend calls, including extend calls that unwind because the iterator or the Display of a value panics (the panic being caught), the pairs of a ParameterList are in ascending order, as its documentation guarantees.',
'All containers, all histories, all iterators and points at which they panic.',
'Tests never let an iterator panic inside extend.',
[S+'request/parameter_list.rs: Extend for ParameterList, sort'])
p('C68','The names in the derived item refer to what is meant by them',
'Whatever items are in scope where an accepted struct is, and whatever the struct, its generic parameters, bounds and attributes are called, every type, trait and module name in the item generated by the derive macro refers to what is meant: names taken from the struct to what they refer to in the struct, names of the macro to what the macro declares or to the standard library.',
'All accepted structs, all surroundings, all names.',
'Tests compile a handful of structs in ordinary modules.',
[D+'lib.rs: expand_derive_oauth1_authorize', D+'method_body.rs: MethodBody::to_tokens', D+'method_body/helper.rs: FmtHelper, SkipIfHelper'])
p('C69','Generated nonces collide as rarely as the comment on NONCE_LEN says',
'If all values of the random bytes are equally likely, the probability that among n nonces generated in succession two are equal is 1 - (2^72 - 1)/2^72 * ... * (2^72 - n + 1)/2^72; at one million nonces a second, the expected time until two nonces of the same second coincide is between 299 and 300 years.',
'All numbers of nonces, all outputs of the random generator.',
'The event has probability 1e-10 per second; no test can observe it.',
[S+'serializer/auth.rs: NONCE_LEN, gen_nonce, serialize_oauth_nonce'])

p('C70','The answer to a badly signed request does not depend on the expected identifiers',
'To a request without a signature that matches the secrets, the example server answers the same whatever identifiers of client and token and whatever verifier it expects, so that they cannot be guessed by sending badly signed requests.',
'All requests, libraries, build profiles, clocks, handlers, all pairs of expectations with the same secrets.',
'A test sends one request to one server; the claim compares the answers of servers with different expectations.',
[X+'handler.rs: verify_and_then'])
p('C71','Authorization headers are read by the documented grammar',
'The example server takes from an Authorization header the parameters that the grammar in its documentation, auth-scheme [ 1*SP #auth-param ], gives it, and none from a header with another scheme.',
'All header values, all libraries.',
'Unbounded header values; the server has no tests of its parser.',
[X+'authorization.rs: Punctuated, auth_scheme, auth_param, hash', X+'handler.rs: collect_auth_params'])
p('C72','The text the server verifies is the RFC 5849 base string of what it received',
'The text over which the example server computes the HMAC is the signature base string of RFC 5849 section 3.4.1 for the method, the target and the parameters of header, form and query it received.',
'All requests and libraries.',
'The server has no tests against another implementation; the differences show only for realm and for particular pairs of values.',
[X+'handler.rs: create_base_string, collect_params'])
p('C73','PLAINTEXT requests are accepted by a server that follows RFC 5849',
'Sign a request with PLAINTEXT and send it, as a header beside the plain form or query, or as a signed form or query: a server that follows RFC 5849 finds in oauth_signature the text of section 3.4.4 (the encoded secrets and &) and accepts the message.',
'All requests, secrets, URIs in normal form, worlds, and all other content of the message.',
'Unbounded secrets and requests; no test looks at the output of PLAINTEXT (one calls it with empty secrets, one expects a panic before the end).',
[S+'signature_method/plaintext.rs: PlaintextSign::end', S+'serializer/auth.rs: end'])
p('C74','The impl generated along with errors gives no errors of its own',
'When the derive macro rejects a struct that has named fields, it also generates an impl of Request with an empty method, so that code using the struct gives no further errors; whatever the struct and its surroundings are called, that impl resolves its names and declares no parameter twice.',
'All rejected structs, all surroundings, all names.',
'The ui tests compile one rejected struct, without generics.',
[D+'lib.rs: expand_derive_oauth1_authorize'])
p('C75','cfg_type_param_hack! leaves one item with the parameters of the build',
'Whatever features are enabled, exactly one item is left of the expansion of cfg_type_param_hack!: the item it was given, with the type parameters whose #[cfg] holds, in order. The macro expands whenever the only attributes of parameters are #[cfg].',
'All items, parameter lists, predicates and builds.',
'Each test run has one set of features; the expansion doubles with every #[cfg].',
[S+'util.rs: cfg_type_param_hack'])
p('C76','doc_auto_cfg! documents the #[cfg] of each item and changes nothing else',
'doc_auto_cfg! keeps the items it is given, in order, with their attributes in order, and adds for each #[cfg(p)] a #[doc(cfg(p))] to the same item; so each item is kept in the same builds as before. It expands exactly if the input does not end in an attribute.',
'All sequences of items and attributes, all builds.',
'Attributes for documentation have no effect that a test could see.',
[S+'util.rs: doc_auto_cfg, doc_coerce_expr'])
p('C77','options! gives every field a setter that compiles',
'options! generates for each field of the struct one setter by its name, which sets that field and no other; it type-checks whatever type the field has.',
'All lists of fields.',
'There is one use of the macro, and it has no field for the third rule.',
[S+'util.rs: options, impl_setters'])

p('C78','Every combination of features compiles, without clashes, and features only add',
 "In every build that Cargo makes of any selection of features, for any target, with or without debug assertions and unit tests: whatever crate, dependency feature or item a compiled item (listed in the model: those that are conditional or refer to something conditional) refers to is there; a struct expression names exactly the fields that are there; no two compiled items have the same name; and enabling more features takes no item away but two imports.",
 'all selections of features of oauth1-request and its dependencies, targets, build modes',
 'CI builds three selections of features; there are thousands.',
 ['oauth1-request/Cargo.toml: [dependencies], [features]','oauth1-request/src/lib.rs: cfg attributes','oauth1-request/src/serializer/auth.rs: Authorizer, new_, get_current_timestamp, get_rng','oauth1-request/src/signature_method.rs: cfg attributes','oauth-credentials/src/lib.rs: cfg attributes'])
p('C79','The examples of the documentation work wherever they are compiled',
 "An example of the documentation that is not marked `ignore` in a build refers only to items that are there in the build, and does not sign without a timestamp in a build without a clock.",
 'all examples, all selections of features, targets',
 'The examples run in the builds of CI only.',
 ['oauth1-request/src/lib.rs: l.19-115','oauth1-request/src/serializer/recorder.rs: l.21-52','oauth-credentials/src/lib.rs: l.147-304','README.md: l.20-66'])

p('C80','Headers, forms and queries are well-formed where they are sent',
 "Whatever the credentials, options, method, URI, request, random bytes and clock: a header made with HMAC-SHA1, RSA-SHA1 or PLAINTEXT is credentials by the grammar of RFC 7235 (scheme OAuth, parameters with quoted values), made of visible ASCII characters and inner spaces only, so every HTTP implementation takes it (no CR, LF or NUL can be injected); a signed form and the query appended to a URI are queries by the grammar of RFC 3986, and so are plain forms and queries if the keys are.",
 'all inputs, all signature methods of the crate (any hash function, any RSA key operation)',
 'Tests compare a few outputs; hostile credentials (CR LF, quotes, NUL, non-ASCII) are not among them.',
 [S+'serializer/auth.rs: append_to_header_encoded, end',S+'util.rs: PercentEncode',S+'signature_method/plaintext.rs: end',S+'serializer/urlencode.rs'])

p('C81','The size of outputs, and buffers of fixed capacity',
 "The length of a header is 24 plus, for each protocol parameter set, its name, its encoded value (three bytes for each byte not unreserved) and 4, plus the signature; of a form, 16 plus name, encoded value and 2 for each, plus the signature; a query adds one byte and the form to the URI. Request parameters, method and host add nothing. The encoded HMAC-SHA1 signature has 28 to 84 bytes, the PLAINTEXT signature as many as the encoded secrets and 1. With a buffer of fixed capacity that refuses what does not fit, authorize_with_buf, to_form_with_buf and to_query return exactly if the string version's output fits behind what the buffer holds, and append it; otherwise they panic.",
 'all inputs, buffers and capacities',
 'Tests write to growing strings only; no test uses a buffer that can be full.',
 [S+'serializer/auth.rs: append_to_header_encoded, end',S+'lib.rs: authorize_with_buf, to_form_with_buf, to_query',S+'util.rs: PercentEncode'])

p('C82','The hash function is SHA-1',
 "The function that stands for the sha1 crate in the model (and so in every statement about HMAC-SHA1 and RSA-SHA1 signatures) is SHA-1 as specified by FIPS 180-4: padding, message schedule, round functions and constants, for messages of any length.",
 'all messages',
 'Test vectors are a few short messages; an error in the padding of some lengths would not show.',
 [S+'signature_method/hmac_sha1.rs: HmacSha1Sign',S+'signature_method/rsa_sha1.rs'])

p('C83','The example server answers 400 and 401 as RFC 5849 says','To a request with missing, unsupported or duplicated protocol parameters the example server answers 400, to one with wrong credentials, a wrong signature or an old timestamp 401, to both kinds at once one of these; only other requests reach the handler (RFC 5849, 3.2).','all incoming requests, all expected credentials, all times','There are no tests of the example server; the answer depends on the order of sixteen checks',['examples/src/server/handler.rs: verify_and_then, inner, collect_oauth_params'])

p('C84','The example server takes a body for a form exactly if it says so','The parameters with which the example server runs a handler are those of the header, of the body if its content type is that of a form (RFC 7231: in upper or lower case, with or without parameters such as charset), and of the query.','all incoming requests, all content types','There are no tests of the example server; its client sends the content type in one way only',['examples/src/server/handler.rs: verify_and_then'])
p('C85','A struct written by a macro_rules! macro derives as the same struct written out','Whether the types of the fields and the values of the attributes are written out or come through variables of a macro_rules! macro (and so are enclosed in an invisible group) makes no difference to what #[derive(Request)] does: the same code, the same errors.','all structs with named fields, all ways of enclosing their types and attribute values in groups','One test has a type that comes through a variable, none an attribute value',['oauth1-request-derive/src/method_body.rs: is_option','oauth1-request-derive/src/meta.rs: FromExprExt','oauth1-request-derive/tests/pull_3.rs'])
p('C86','The attributes of the derive macro can be used as documented','A struct that uses #[derive(Request)] as its documentation says is accepted: fields with #[oauth1(encoded)], fmt = path, option = bool, rename = "name", skip, skip_if = path, and the struct with #[oauth1(crate = "name")], in which case the generated code finds the library under that name.','all structs with named fields and documented attributes, all names','The tests only use a path for the crate; the documented form is in none of them',['oauth1-request/src/lib.rs: Request (documentation of the derive macro)','oauth1-request-derive/src/container.rs: ContainerMeta','oauth1-request-derive/src/meta.rs: FromExprExt for ExprPath'])
p('C87','The URI returned by to_query has the request as its query','For every URI without a query, to_query(uri, request) is the same URI with the request as its query: reading the returned URI by RFC 3986, what is before the query and the fragment are those of uri, and the query decodes to the pairs of the request. (The documentation warns of URIs that have a query.)','all URIs without a query, all requests with URI-safe keys','The tests use two URIs, neither with a fragment',['oauth1-request/src/lib.rs: to_query','oauth1-request/src/serializer/urlencode.rs: Urlencoder::query, append_delim'])
p('C88','The derive macro returns whatever tokens its attributes consist of','For every struct whose attributes name the crate, #[derive(Request)] returns code or errors, whatever tokens are written in its #[oauth1(..)] attributes, including the invisible groups that enclose the variables of macro_rules! macros: parsing them does not panic.','all token trees in the attributes of a struct and its fields, all parsers of paths and expressions that consume tokens, versions of syn whose Group parser enters invisible groups and those whose does not','The ui tests have no attribute written by a macro, and no token stream with invisible groups',['oauth1-request-derive/src/meta.rs: Meta::parse','oauth1-request-derive/src/lib.rs: expand_derive_oauth1_authorize'])
p('C89','The errors of the derive macro name what is wrong and point at it','Each error of #[derive(Request)] says what is wrong and is placed there: an unknown or repeated attribute at its name, with the name in the text; a missing or superfluous value at the item, joined with its value where spans can be joined; a value of the wrong kind at the value; a name that is not URI-safe at its literal; a second field of a name at the later declaration (the literal of its first valid rename, or its identifier), with the name in the text; a failed crate lookup at the call; an item without named fields at the item. The errors are those of the fields in order, then the duplicate parameters by name, then those of the struct; nothing else is reported, and one error hides no other.','all structs and attributes, all token parsers and their errors, all span implementations (with and without join), all outcomes of the crate lookup','The ui test shows each error once, on one compiler on which spans cannot be joined; it has one pair of duplicate fields, the later of which is renamed',['oauth1-request-derive/src/meta.rs: add_meta, Meta::span, FromExprExt','oauth1-request-derive/src/lib.rs: expand_derive_oauth1_authorize','oauth1-request-derive/src/field.rs: Name::span','oauth1-request-derive/tests/ui/attrs.stderr'])
p('C90','The signature covers the bytes of the parameters','The example server works with the parameters of the Authorization header, form and query read as UTF-8, where what is not UTF-8 is replaced as Unicode recommends (each maximal subpart by U+FFFD); text of any kind arrives unchanged. Two requests for which it computes the same base string have the same method, path and parameters, byte for byte, signatures apart; so what it accepts is byte for byte what a client signed.','all requests, all byte strings (valid UTF-8 or not), all histories of client runs','Tests send a few valid texts; the claim is about all byte strings, and the failure needs bytes that no client of this crate produces',['examples/src/server/handler.rs: collect_auth_params, collect_params, create_base_string'])
p('C91','Any method and any names may be given','A server that follows RFC 5849 accepts the header returned for a request with any HTTP method (any token) and any parameter names, and a form made from the pairs is read back as these pairs.','all methods, all lists of names and values of any bytes, all URIs, keys and environments','Tests sign GET and POST with alphanumeric names; the claim is about all methods and names, and the exact set for which it holds',['oauth1-request/src/serializer/auth.rs: make_sign','oauth1-request/src/signature_method/hmac_sha1.rs: Sign for HmacSha1Sign','oauth1-request/src/serializer.rs: Serializer::serialize_parameter','oauth1-request/src/serializer/urlencode.rs: Urlencoder'])
p('C92','A signing algorithm is told the base string by the documented calls','For every request and every implementor of Sign, whichever of its methods it overrides: what is called before end is request_method, uri, and for each parameter its own method (consumer_key, nonce, signature_method, ... for protocol parameters, parameter for the others) with the encoded value, with delimiter between, each exactly once and in order. A signature method that implements only the required methods, by the pieces of text they are documented with, signs the signature base string.','all requests, all implementors of Sign and SignatureMethod, all methods, URIs, options, credentials and environments','The calls are made on a type parameter; tests sign with the methods of the crate, which do not tell the provided methods from parameter',['oauth1-request/src/signature_method.rs: Sign, provide!','oauth1-request/src/serializer/auth.rs: append_to_header!, make_sign, serialize_parameter'])
p('C93','A signature method of one\'s own is named as it names itself','For every signature method, also one with a name of its own (RFC 5849 section 3.4 lets servers define them), the header has its name as the percent-encoded value of oauth_signature_method, and the signature is the one of the base string which has it percent-encoded twice, like every other value.','all names, all functions of the secrets and the base string, all requests, builders and environments','The methods of the crate have three fixed names; the claim is about all names',['oauth1-request/src/signature_method.rs: Sign::get_signature_method_name, Sign::signature_method','oauth1-request/src/serializer/auth.rs: serialize_oauth_signature_method'])
p('C94','An ordered map or set is a request if its order is that of its text','AssertSorted over a BTreeMap, after any history of collecting, inserting, extending and removing, sends each key once with the value given last; all maps of a key type are in the order the serializers need exactly if Ord of the keys is the order of their text, and then the request is sent as any ParameterList of the same pairs is and its signature is accepted by a server that follows RFC 5849; a set of (name, value) pairs is in order exactly if the values are ordered as they display, so numbers are not (the debug assertion does not notice, the server rejects). With the pairs of any iterator authorizing panics exactly if debug assertions are compiled in and a name is followed by a smaller one, and the base string is that of RFC 5849 exactly if the pairs come in its order.','all key and value types with a lawful Ord, all histories of map operations, all lists of pairs, builders and environments','The documentation shows one map of two strings; the claim is about the order of every key type and every history',['oauth1-request/src/request.rs: AssertSorted','oauth1-request/src/request.rs: AssertSorted::new','oauth1-request/src/serializer/auth.rs: check_dictionary_order'])

p('C95',"The macro's drop bomb never goes off and never turns a panic into an abort",
  "The context that collects the errors of the derive macro panics when it is dropped without its errors having been taken. The macro takes them on every path on which it creates the context, so this panic never happens; and where the macro panics for another reason while the context is there, dropping it does not panic again, which would abort the compiler.",
  "all structs and other items, all attributes, all parsers, all results of the crate lookup, all builds",
  "one has to cover every way through the macro, including its panics, with a context alive at each point",
  ["oauth1-request-derive/src/ctxt.rs: Ctxt, take_error, Drop","oauth1-request-derive/src/lib.rs: expand_derive_oauth1_authorize"])

p('C96',"The server signs the base string URI of RFC 5849, whatever scheme and authority it is set up with",
  "create_base_string leaves out the default port of the scheme. For every http or https scheme and authority that the constants of the example server may be set to, and every path, the URI in the text that it verifies is the base string URI of RFC 5849 section 3.4.1.2: scheme and host in lower case, the port only if it is not the default.",
  "all schemes, user information, hosts (names and addresses in brackets), ports and paths",
  "the repository only has one authority; where a port begins in an authority with brackets or a password is a matter of all texts",
  ["examples/src/server/handler.rs: create_base_string, SCHEME, AUTHORITY"])
p('C97','PLAINTEXT works with any buffer that keeps the signing key','Plaintext::with_buf writes the signing key of RFC 5849 section 3.4.4, in the same fragments, to a default value of any buffer type. Signing panics exactly if the buffer refuses a fragment. Otherwise header, form and query are those of PLAINTEXT with what the buffer displays in place of the signing key, so they are the same if and only if it displays the key; a buffer of fixed capacity works exactly if the key fits.','All buffer types (writers, default values, Display implementations), secrets, builders and requests.','A buffer type is code: tests can try String and a few others.',['oauth1-request/src/signature_method/plaintext.rs: with_buf, sign_with, PlaintextSign','oauth1-request/src/signature_method.rs: write_signing_key'])
p('C98','A form or query in a caller\'s buffer is complete or the call panics, whatever the values do','If serializing a request with Urlencoder::form_with_buf or Urlencoder::query returns, all of the text that the String version gives has been written to the buffer, also if a value of the request does not stop at a failed write. This holds exactly if no value returns Ok after a write it was told had failed; on writers that never fail (String, the digests behind signatures) every value behaves as one that stops.','All requests (as sequences of calls), all behaviours of Display implementations (any reaction to the result of each write), all buffers (any function from state and text to a result and a state).','A Display implementation and a buffer are code; which write fails, and what happens after it, is chosen by them.',['oauth1-request/src/serializer/urlencode.rs: append_delim, serialize_parameter, serialize_parameter_encoded','oauth1-request/src/util/percent_encoding.rs: Display for PercentEncode, Display for DoublePercentEncode','oauth1-request/src/signature_method/digest_common.rs: parameter, UpdateWrite'])
p('C99','With the js feature the timestamp is the whole seconds, in spite of floating-point division','(Date::now() / 1000.0) as u64 is the number of whole seconds since the epoch for every time value ECMAScript permits, and 0 before the epoch: the rounding of the division never carries a time into the next second. Later times never give earlier timestamps.','All integers from -8.64e15 to 8.64e15 (and all that f64 holds exactly, up to 2^53), every rounding to nearest.','1.7e16 time values, and a clock that tests cannot set; the bound matters (C99_beyond).',['oauth1-request/src/serializer/auth.rs: get_current_timestamp'])
p('C100','The path given as `crate` is one that can be imported','If the derive macro accepts a struct with #[oauth1(crate = path)], the item `use path as _oauth1_request;` in its output is a use declaration of Rust. Violated: the macro takes every path expression, but only simple paths can be imported; exact condition: no attributes, no type in front (<T as Trait>::x), no generic arguments, no Self.','All path expressions (attributes, qualified types, generic arguments with any tokens, any number of segments), all structs and attributes.','The compile tests of the repository use two paths; path expressions are an infinite language.',['oauth1-request-derive/src/lib.rs: expand_derive_oauth1_authorize (use #krate as _oauth1_request)','oauth1-request-derive/src/container.rs: ContainerMeta','oauth1-request-derive/src/meta.rs: FromExprExt for ExprPath'])
p('C101','The functions in fmt and skip_if may be any that could be called with a reference to the field','In the code of an accepted struct, the calls through the helper functions type-check exactly if the named function could be called by hand with a reference to the (content of the) field: &String where &str is asked for, &Box<Vec<T>> where &Vec<_> is. This depends on the order of the parameters of the helper: in the other order only functions for the type of the field itself fit. Generic functions are called for the type of the field itself.','All signatures (any parameter types, results, bounds), all types and chains of dereferencing, all accepted structs.','Type inference is over all types of all programs; the repository compiles one deref coercion and twelve failing cases.',['oauth1-request-derive/src/method_body/helper.rs: DeriveRequestAssertion::fmt, fmt_impls_fn, skip_if_impls_fn','oauth1-request-derive/src/method_body.rs: MethodBody::to_tokens','oauth1-request-derive/tests/ui/typeck.rs'])

p('C102', 'What is in the answers of the example server',
  'Every answer of the example server is either 200 with what the resource has to give (from /echo all received parameters, in order, as the URL Standard serializes forms; from /request_temp_credentials the temporary credentials with oauth_callback_confirmed, only if the callback is oob; from /request_token the token credentials) or 400, 401 or 404 with an empty body; 404 means exactly that there is no such resource; the answer to a request that is not accepted for the resource discloses nothing.',
  'all incoming requests, all versions of the external crates (Lib), all clock readings, builds with and without overflow checks',
  'The set of requests is infinite; tests see the answers to a few. That no refused request gets a body is a statement about all paths through the handlers.',
  ['examples/src/server/handler.rs: echo, post_request_temp_credentials, post_request_token, verify_and_then', 'examples/src/server/main.rs: routing', 'oauth-credentials/src/serde_imp.rs'])

out=os.path.join(os.path.dirname(os.path.abspath(__file__)),'..','properties.jsonl')
with open(out,'w') as f:
    for x in P: f.write(json.dumps(x)+'\n')
print(len(P))
