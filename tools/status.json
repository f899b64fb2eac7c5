{
 "C01": [
  "proved",
  "to_form for every list of pairs and every request; encoder equality for every value and fragmentation"
 ],
 "C02": [
  "proved",
  "every text, every fragmentation; the base strings of parameter lists and derived requests"
 ],
 "C03": [
  "proved",
  "keys made of unreserved characters, as the statement requires; C03_keys_not_encoded shows the requirement is needed"
 ],
 "C04": [
  "proved",
  "Single and double encoding of every value (C04_no_injection); whole headers, forms, queries and base strings (C04_outputs, C04_delimiters, C04_plain_form)."
 ],
 "C05": [
  "proved",
  "slices and assertions are explicit partial operations that never fail"
 ],
 "C06": [
  "proved",
  "every request, every signing algorithm with constant name and nonce/timestamp use; header, form and query"
 ],
 "C07": [
  "partial",
  "Violated: values of the same parameter are sorted before encoding (C07_violated). Exact condition on base strings (C07_base_string_iff); acceptance proved under it."
 ],
 "C08": [
  "proved",
  "every sorting algorithm meeting the contract"
 ],
 "C09": [
  "proved",
  "every request and signature method whose signature needs no quoting (all of the crate's except PLAINTEXT with '\"' are shown to meet it); see C27 for PLAINTEXT"
 ],
 "C10": [
  "proved",
  ""
 ],
 "C100": [
  "partial",
  "False of the code (C100_violated: crate = a::<u8>::b is accepted and gives a use item that is no use declaration). C100_iff is the exact condition on the path; C100_partial the claim under it; C100_any_path shows that the macro does not look at the path."
 ],
 "C101": [
  "proved",
  "For a model of type inference (arguments from left to right, coercion to the first type of the deref chain that fits, bounds last). C101_code combines it with C64_iff."
 ],
 "C102": [
  "proved",
  "Requests that make the server panic (C45) have no answer; the clock is not before the epoch (C44_no_clock for that)."
 ],
 "C11": [
  "partial",
  "C11_violated: request parameters are dropped from authorized forms and queries; C11_protocol_parameters_partial proves the part about protocol parameters and the signature"
 ],
 "C12": [
  "proved",
  "exact text of form and query"
 ],
 "C13": [
  "proved",
  ""
 ],
 "C14": [
  "proved",
  "every call sequence"
 ],
 "C15": [
  "proved",
  ""
 ],
 "C16": [
  "proved",
  "HMAC-SHA1, PLAINTEXT, and RSA-SHA1 with a key operation that does not fail; a build without a clock needs a timestamp in the options."
 ],
 "C17": [
  "proved",
  ""
 ],
 "C18": [
  "proved",
  ""
 ],
 "C19": [
  "proved",
  "every history of constructions and extensions"
 ],
 "C20": [
  "proved",
  ""
 ],
 "C21": [
  "proved",
  ""
 ],
 "C22": [
  "proved",
  ""
 ],
 "C23": [
  "partial",
  "False as stated: a lone field named \"\" is reported as a duplicate (C23_empty_name_reported), and identifiers outside ASCII become keys that are not URI-safe (C23_non_ascii_key). C23_partial proves the rest; C23_protocol_name shows that names of protocol parameters are not excluded. Exactly: C23_duplicates_exact (what is reported), C23_accepted_iff and, in terms of what is written, C23_accepted_written (what is accepted)."
 ],
 "C24": [
  "proved",
  ""
 ],
 "C25": [
  "proved",
  "any hash of at most 64 bytes output, any fragmentation of the key text"
 ],
 "C26": [
  "proved",
  "SHA-1 is modelled and computed, see Vectors.lean"
 ],
 "C27": [
  "partial",
  "C27_header_violated and C27_form_violated: the PLAINTEXT signature is not percent-encoded; C27_header_partial covers secrets of unreserved characters; C27_header_iff: these are the only ones"
 ],
 "C28": [
  "proved",
  "RSA key operations are parameters"
 ],
 "C29": [
  "partial",
  "C29_violated: an overridden consumer_key is not delegated; C29_either_partial covers every algorithm that does not override it; C29_either_exact says what Either does for every algorithm"
 ],
 "C30": [
  "proved",
  "every signature method with constant name and nonce/timestamp use, both runs succeeding (header, form, query); success itself is independent of the secrets for methods that sign every base string"
 ],
 "C31": [
  "partial",
  "Holds for Credentials, Token, Builder and for HMAC-SHA1 and RSA-SHA1 authorizers; violated by PLAINTEXT authorizers, whose Debug output determines the secrets (C31_plaintext_reveals_secrets, C31_violated)."
 ],
 "C32": [
  "proved",
  "generated nonce is a prefix-free URL-safe text, injective in the nine random bytes; the same text is signed and sent"
 ],
 "C33": [
  "partial",
  "C33_violated: timestamp 0 when the clock reads the first second of the epoch; C33_timestamp_partial proves the rest; C33_positive_iff says exactly when the timestamp is positive"
 ],
 "C34": [
  "proved",
  "every history of setter and authorize calls"
 ],
 "C35": [
  "proved",
  ""
 ],
 "C36": [
  "proved",
  "every writer (any state machine failing at any point), every signature method and request; also to_query and the public Urlencoder"
 ],
 "C37": [
  "proved",
  ""
 ],
 "C38": [
  "proved",
  "stateful closures are state monads; composition for stateless functions (with state the order of effects differs)"
 ],
 "C39": [
  "proved",
  "every format delivering a map, every entry list; formats that do not deliver a map are out of the model"
 ],
 "C40": [
  "proved",
  ""
 ],
 "C41": [
  "proved",
  ""
 ],
 "C42": [
  "proved",
  "every writer, signature method and request without repeated protocol calls; exact consumption; requests conveying the same parameters"
 ],
 "C43": [
  "proved",
  "For the parameters of any ParameterList or derived struct of strings with URI-safe keys; keys and secrets as Plain and Agreed state (the server uses secrets unencoded). C43_runs_iff is the exact condition for any client and any endpoint; C43_keys_iff and C43_reserved_secret: a secret with a reserved character, known to both sides, is refused."
 ],
 "C44": [
  "partial",
  "Every accepted request carries the expected identifiers, verifier and timestamp, and a matching HMAC unless it says PLAINTEXT. The full statement is false of the code: a PLAINTEXT signature is never compared, shown by C44_violated and C44_plaintext_accepts_anything. C44_accepted_iff and C44_refused say exactly which requests reach the handler."
 ],
 "C45": [
  "partial",
  "No panic if the timestamp plus the window fits in u64, the clock is after the epoch and the body arrives. Without the first the full statement is false in debug builds, shown by C45_violated. C45_panics_iff says exactly when it panics."
 ],
 "C46": [
  "proved",
  ""
 ],
 "C47": [
  "proved",
  ""
 ],
 "C48": [
  "proved",
  "Iterator semantics, when the text is consumed completely, and that headers of this crate are."
 ],
 "C49": [
  "proved",
  "The HTTP transport is assumed faithful (Http in Model/Client.lean); InTime states the clock conditions."
 ],
 "C50": [
  "proved",
  ""
 ],
 "C51": [
  "proved",
  "RFC 3447 stands for the rsa crate"
 ],
 "C52": [
  "partial",
  "violated, see C52_violated; proved: not answered after the time window"
 ],
 "C53": [
  "proved",
  ""
 ],
 "C54": [
  "proved",
  ""
 ],
 "C55": [
  "partial",
  "C55_violated: ParameterList::default keeps a container whose Default is not sorted; C55_in_order_partial proves the rest and C55_in_order_iff that this is the only exception"
 ],
 "C56": [
  "partial",
  "C56_violated: the URI is signed as given, so http://a.b (no slash), upper case hosts and default ports give another base string; C56_rfc_server_accepts_partial covers URIs in normal form, C56_base_string_iff shows these are the only ones, C56_any_names_iff the same for all methods and names, C56_query_wrong that a URI with a query is never signed as the RFC says"
 ],
 "C57": [
  "partial",
  "Violated: a field written r#keyword is accessed as self.keyword, which is not an identifier (C57_violated); a type parameter called _S clashes with that of the method (C57_method_parameter). C57_iff gives the exact condition under which all names resolve; C57_partial covers structs without raw field names and without names starting with an underscore; C57_right_field holds without restriction."
 ],
 "C58": [
  "proved",
  "For every item the macro expands, with bounds known by their text."
 ],
 "C59": [
  "proved",
  "The errors of a field are stated for attributes that syn can parse (an attribute that cannot be parsed is reported as one error). Token streams satisfy Lawful; C88 has the exact panic condition without it."
 ],
 "C60": [
  "proved",
  "HMAC-SHA1 for any understandable request, parameter lists and derived requests; RSA-SHA1 with RFC 3447 keys."
 ],
 "C61": [
  "partial",
  "False of the code (C61_violated): the request parameters are not in the output. C61_alone and C61_alone_rsa are exact; C61_partial, C61_partial_rsa: accepted if the request has none or if they are sent the other way."
 ],
 "C62": [
  "partial",
  "False of the code (C62_violated): a parameter list may contain oauth_nonce. C62_iff is exact, for every method whose signature is percent-encoded (C62_methods: HMAC-SHA1, RSA-SHA1), and C62_derived for derived requests; C62_partial: it holds if no parameter is named like a protocol parameter, and always for the signed form or query alone."
 ],
 "C63": [
  "proved",
  "Tokens of the method body with hygiene contexts and lexical environments; equal to the coarse rendering used by C21-C23, C50."
 ],
 "C64": [
  "partial",
  "False next to a constant or static called like a variable of the generated code, including the parameters f and t of its helper functions (C64_violated); C64_iff is the exact condition, C64_partial assumes no such constant."
 ],
 "C65": [
  "proved",
  "iff for arbitrary bodies (C65_iff), round trip among other parameters (C65_served), serde(flatten) (C65_flattened). Form decoding of serde_urlencoded is proved equal to the URL Standard specification, with the reading of UTF-8 written out (C90)."
 ],
 "C66": [
  "partial",
  "False of formats that store a struct as a sequence (bincode, postcard, JSON arrays): the visitor has no visit_seq, so what Serialize writes Deserialize always refuses (C66_violated). C66_partial: formats with field names. C66_iff: exactly those."
 ],
 "C67": [
  "partial",
  "False: extend hands the iterator to the container and sorts afterwards, so an iterator that panics leaves the list out of order (C67_violated, C67_iff for Vec). C67_partial: in order unless the last call was an extend that unwound; C67_recovers: a completed extend repairs it; C67_contents: nothing is lost."
 ],
 "C68": [
  "partial",
  "Violated: a struct called Copy with a fmt attribute captures the Copy of the helper functions (C68_violated), and _S in an attribute path is captured by the parameter of the method (C68_captured). C68_iff gives the exact condition; C68_partial covers structs without underscored names where Copy, Fn, Sized and bool are those of the standard library."
 ],
 "C69": [
  "proved",
  "C69_count and C69_chance give the exact number and probability for every n, C69_bounds closed bounds, C69_years the figure of the comment; C69_series and C69_collide show that the nonces in the headers of successive requests are those of the successive draws."
 ],
 "C70": [
  "partial",
  "Violated by a PLAINTEXT request with a wrong signature (C70_violated): the answer tells whether the identifiers are the expected ones. C70_partial: every request that does not name PLAINTEXT. C70_iff: the exact condition."
 ],
 "C71": [
  "partial",
  "Violated by two spaces after the scheme (C71_violated). C71_iff gives the exact condition for every header; C71_partial: one space and no empty value (or a library that takes them). C71_scheme_case: the scheme is compared with regard to case."
 ],
 "C72": [
  "partial",
  "Violated by realm in the header (C72_violated) and by values that change order when encoded (C72_violated_order). C72_iff gives the exact condition; C72_partial: requests that meet it."
 ],
 "C73": [
  "partial",
  "False of the code (C73_violated): exact condition for headers (C73_header_iff); signed forms and queries are never accepted (C73_form_rejected, C73_query_rejected). C73_partial: unreserved secrets."
 ],
 "C74": [
  "partial",
  "False of the code (C74_violated): a rejected struct with a type parameter S gives E0403 besides the reported errors. Exact condition (C74_iff); C74_partial: no parameter called S."
 ],
 "C75": [
  "proved",
  ""
 ],
 "C76": [
  "proved",
  ""
 ],
 "C77": [
  "partial",
  "False of the code (C77_violated): the third rule of impl_setters! does not type-check. Exact condition (C77_iff); C77_partial: bool and Option fields, as in auth::Options. C77_setters holds for all fields."
 ],
 "C78": [
  "proved",
  "the items that are conditional or refer to something conditional, of oauth1-request and oauth-credentials; of the dependencies only which crates and features are there"
 ],
 "C79": [
  "partial",
  "False: C79_violated. C79_iff says for each example when it works; eight work wherever they are compiled, the example of README.md nowhere."
 ],
 "C80": [
  "proved",
  "all inputs; user-defined signature methods if their signature texts are encoded (Sends)"
 ],
 "C81": [
  "proved",
  "Exact lengths for requests that serialize in the standard order; capacity for every request"
 ],
 "C82": [
  "proved",
  "Equivalence with a relational specification, for all messages"
 ],
 "C83": [
  "partial",
  "False of the code: a missing consumer key, token or verifier is answered 401 (C83_violated), parameters given twice and other versions of the protocol are let through (C83_violated_handled). C83_refused_iff and C83_handled_iff are exact; C83_partial: the rest."
 ],
 "C84": [
  "partial",
  "False of the code (C84_violated, C84_violated_refused): the content type is compared as text, so a form whose type has a charset or capital letters is passed over. C84_iff: the exact condition; C84_partial: forms whose type is written in the one way."
 ],
 "C85": [
  "partial",
  "False of the code (C85_violated): an attribute value that came through a variable is refused. C85_iff: a struct is accepted exactly if it has no such value and is accepted when written out; C85_partial: types make no difference."
 ],
 "C86": [
  "partial",
  "False of the code (C86_violated): crate = \"name\" is refused for every struct (C86_refused). C86_iff: a struct that follows the documentation is accepted exactly if it does not use that attribute and the library is found; C86_partial: the documented attributes of fields are accepted."
 ],
 "C87": [
  "partial",
  "False of the code (C87_violated): a URI with a fragment gets the request into the fragment (C87_lost). C87_iff: it holds exactly if there is no fragment or no parameter; C87_parts: what happens to every URI."
 ],
 "C88": [
  "partial",
  "False of the code (C88_violated): an invisible group with parentheses after a path makes Meta::parse unwrap an error. Exact conditions: C88_iff, C88_panics_iff; C88_partial where it holds."
 ],
 "C89": [
  "proved",
  "Paths in the texts lose all spaces, also those inside generic arguments (spec: pathText). Places and texts of errors of syn itself are passed on unchanged (ReportsAt.unread)."
 ],
 "C90": [
  "partial",
  "false of the code: bytes that are not UTF-8 are signed as U+FFFD (C90_violated, C90_altered_accepted). C90_iff is exact: equal base strings mean equal texts; C90_partial and C90_accepted_was_signed give equal bytes where no U+FFFD is signed"
 ],
 "C91": [
  "partial",
  "false of the code: methods and names are signed as given (C91_violated, C91_violated_custom_method, C91_violated_name). C91_base_string_iff (every method, all names) and C91_form_iff are exact; C91_partial is the claim for methods and names that need no encoding, C91_otherwise says what happens to the others"
 ],
 "C92": [
  "proved",
  "For every implementor of Sign; the calls are compared with the list in Spec/Said.lean, with the text of each argument"
 ],
 "C93": [
  "partial",
  "Does not hold of names with reserved characters (C93_violated); C93_iff says exactly of which names it holds, C93_partial that it holds of them"
 ],
 "C94": [
  "proved",
  "every lawful Ord; BTreeMap and BTreeSet by the contract of std"
 ],
 "C95": [
  "proved",
  "unwinding as in Rust: a panic during a panic aborts"
 ],
 "C96": [
  "partial",
  "C96_violated: an authority with capital letters is signed as it is. C96_uri_iff and C96_base_string_iff are exact; C96_partial where it holds, C96_example for the server as it is."
 ],
 "C97": [
  "proved",
  "Every buffer type (writer, default value, Display). C97_signing: fragments and panics; C97_output, C97_iff: outputs; C97_keeps, C97_capacity: buffers that keep what they accept."
 ],
 "C98": [
  "partial",
  "False for values that return Ok after a failed write (C98_violated); exact condition C98_iff."
 ],
 "C99": [
  "proved",
  "Every rounding to nearest of IEEE 754; trusted: f64 is binary64 and Date.now() gives integral time values."
 ]
}