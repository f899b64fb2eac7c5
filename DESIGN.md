# Formal model of oauth1-request-rs: design

Source: `/repo` (tesaguri/oauth1-request-rs at the pinned commit). Properties: `properties.jsonl`
(written by `tools/gen_properties.py`). Status per property: `MANIFEST.json`.

## 1. Trusted base

* Lean 4.33.0's kernel and core library (Mathlib only in `Proofs/Rsa`: primes, Fermat's little theorem, Lucas' primality test; and in `Spec/Collision`, `Properties/Collision`: counting, products). No axioms of our own, no `sorry`,
  no `native_decide`/`bv_decide`. Every property theorem depends on at most `propext`,
  `Classical.choice` and `Quot.sound` (`tools/axioms.sh` prints them).
* That the model below is a faithful transcription of the Rust text. Each model definition cites the
  file and lines it transcribes and says what it simplifies. `Verif/Vectors*.lean` replay test vectors
  of the repository (headers, HMAC-SHA1 and RSA-SHA1 signatures, forms, the derive crate's `pass` and
  `ui` tests with their error lists) on the model: these are tests of the model, not proofs.
* Semantics of Rust `core`/`alloc`/`std` and of the external crates, where the model states them as
  contracts and the theorems take them as parameters or hypotheses:
  * `percent-encoding`: the chunk iterator of `PercentEncode`, its 256-entry table, and `percent_decode`;
  * `digest`/`hmac`/`sha1`: `update` appends, `finalize` hashes the concatenation; the `Debug` text of
    a digest state is a constant (`Model/Debug`);
  * `Debug for str` is a parameter; only injectivity is ever assumed of it, and only where stated;
  * `fmt-cmp`: compares the displayed bytes;
  * `syn`: the order and content of parsed meta items (`Derive.Lawful` where a theorem needs it); how its cursor treats
    invisible groups (`Model/SynCursor.lean`, both for versions whose `Group` parser enters them and for those whose does not);
    `skip_if` paths are total functions without side effects;
  * `nom` 6: `escaped_transform` on an empty quoted string is uncertain from the text of the crate's
    interface, so the model carries a Boolean `emptyOk` and theorems quantify over it;
  * `base64::decode_config_slice`: panics iff the decoded text does not fit the 21-byte buffer of the server;
  * `http`/`hyper`/`serde_urlencoded`/`form_urlencoded`: the record `Server.Lib` and the `Http` transport of
    `Model/Client`. Their laws are fields of `Lib`, inhabited by a concrete instance;
  * `str::from_utf8` and `String::from_utf8_lossy`: written out in `Model/Utf8` and proved to be what RFC 3629 and Unicode
    (substitution of maximal subparts) say (C90).

## 2. What is modelled

| Rust | Lean | 
|---|---|
| `&str`/`String` | `Bytes = List UInt8` (all byte strings, a superset of UTF-8; string order is byte order) |
| `impl Display` value | `Display`: the finite sequence of `write_str` fragments plus a flag "returns `fmt::Error` after them" |
| `impl fmt::Write` | `Writer W`: state type `W`, `writeStr : W → Bytes → Option W` (`none` = `Err`) |
| panics (`unwrap`, `assert!`, `panic!`, out-of-bounds slices) | explicit values of `Panic` in `Except Panic` |
| RNG and clock | `World`: arbitrary byte stream and arbitrary stream of clock readings with cursors; `M = StateT World (Except Panic)` |
| `cfg(debug_assertions)`, features `alloc`, `std`/`js` | `Cfg` record, theorems quantify over it |
| traits `Serializer`, `Sign`, `SignatureMethod` | records of operations with Rust's default methods as default fields, so user-defined impls that override defaults are included |
| trait `Request` | record with one polymorphic `serialize` |
| `sort_unstable_by` | any function that permutes its input into sorted order (contract only) |
| `BTreeMap`, `BTreeSet` | the list of entries `iter` yields, changed by `insert`, `remove`, `extend` and `from_iter` as std documents (contract only; the tree is left out) |

Modules (`lean/Verif/Model`):

| module | Rust |
|---|---|
| `Basic`, `Fmt` | bytes, displays, writers, panics, world; `Fmt`: `core::fmt` with the results of writes |
| `PercentEncoding` | `oauth1-request/src/util/percent_encoding.rs`, the external `percent-encoding` iterator |
| `OAuthParameter`, `Serializer`, `Recorder`, `Urlencode` | `oauth1-request/src/serializer.rs`, `serializer/{recorder,urlencode}.rs`, `util/oauth_parameter.rs` |
| `Base64`, `Sha1`, `SignatureMethod` | `oauth1-request/src/signature_method.rs`, `signature_method/*.rs` (trait, PLAINTEXT, HMAC-SHA1, RSA-SHA1, Either) |
| `Auth`, `JsClock` | `oauth1-request/src/serializer/auth.rs`; `JsClock`: its floating-point arithmetic |
| `Request`, `ParameterList`, `Container`, `Ordered` | `oauth1-request/src/request.rs`, `request/parameter_list.rs` (`Container`: any `A` and `P`; `Ordered`: `AssertSorted` over ordered maps and sets) |
| `Builder` | `oauth1-request/src/lib.rs` |
| `Credentials`, `Serde`, `Debug` | `oauth-credentials/src/*.rs`, and the `Debug` impls of every public type |
| `Derive`, `DeriveItem`, `DeriveCode`, `DeriveSpans`, `SynCursor`, `CtxtDrop`, `UsePath`, `HelperTypes` | `oauth1-request-derive/src/*.rs`; `CtxtDrop`: the owner of the errors; `DeriveSpans`: the errors with places and texts; `SynCursor`: the token cursor of `syn`; `UsePath`: the tokens of the path in `crate = path`; `HelperTypes`: type inference for the helper functions |
| `Authorization`, `Server`, `Client`, `Utf8` | `examples/src/server/{authorization,handler,main}.rs`, `examples/src/client/*.rs`; the standard library's reading of UTF-8 |

`lean/Verif/Spec`: the specifications, written from RFC 3986, RFC 5849, RFC 4648, RFC 2104, RFC 3447 and the API
docs, not using model helpers (exceptions: data types, `cmpBytes`, and the base64 encoder in `World.nonce`, which C32
checks by decoding). Statements of property theorems use definitions of `Model`, `Spec` and their own file only.
`lean/Verif/Proofs`: lemmas. `lean/Verif/Properties`: the property
theorems and, beside each, a concrete non-trivial instance.

## 3. What is not modelled

* Memory, lifetimes, allocation failure, `Vec` capacity, performance, `Clone` beyond "a copy is equal".
* A `Display` impl that prints different text each time, or, except in C98, swallows a writer's error (it violates the
  contract of `std::fmt`); iterators with side effects, other than a panic in `extend` (C67). Sorting is taken not
  to panic elsewhere: a value whose `Display` fails is first noticed when it is serialized.
* `syn`/`quote`/`proc_macro` parsing: the derive model starts from parsed attribute items and fields and
  ends at a statement AST with an execution semantics and the header of the `impl` (C57, C58). The statements are
  also modelled token by token, with hygiene, scoping and typing rules for the fragment of Rust they use
  (`Model/DeriveCode`, C63, C64), and with the names of types and traits in the whole item (`Model/DeriveNames`, C68;
  what a path, bound or type of the struct looks up is a parameter there); that these rules are those of `rustc` is trusted. Spans of the generated code (beyond their hygiene)
  are out.
* The random generator (`get_rng`, `rand`): its bytes are arbitrary, and in C69 all strings of bytes are equally likely.
* `digest`/`sha1`/`hmac`: `update` appends to the message and `finalize` hashes the concatenation. Hash
  functions are a parameter `H`; SHA-1 is also implemented, and proved to be that of FIPS 180-4 (`Spec/Sha1`, C82).
  RSA signing is an arbitrary partial function of key and digest; C51 also instantiates it with RFC 3447
  (`Spec/Rsa`, on numbers). That the `rsa` crate computes this function is trusted there.
* `base64`, `percent-encoding`, `fmt-cmp`: modelled from their documented behaviour (alphabet, padding;
  chunk iterator; comparison of displayed bytes).
* `rand`: an arbitrary byte stream. Its statistical quality is not expressible here.
* serde: the visitor is modelled over what a format delivers to it (map entries, a sequence, something else);
  formats themselves are not, except `serde_urlencoded`.
* The examples: hyper, tokio and TLS are not modelled. The server's verification function, its parsers,
  parameter collection and routing are, and so is the client example that performs the three-legged dance
  against the server.
* `oauth1-request-test` and `oauth-credentials-test` are empty crates for doc tests.
* `unsafe` pointer cast in `AsRef<RsaSha1> for RsaPrivateKey` (layout of `repr(transparent)`).

## 4. Properties, approach, and known violations

| id | modelled / proved by |
|---|---|
| C01 | fragment-wise encoder = RFC 3986 encoder of the concatenation; byte table by exhaustive kernel computation lifted to all bytes, run loop by induction |
| C02 | run-splitting loop = encode twice, by strong induction on the fragment; bit map and table exhaustively; the base string of a whole request through a signature method that returns it (`echo`) |
| C03 | parser of forms inverts serializer for unreserved keys; counterexample for other keys |
| C04 | encoded alphabet lemma; whole headers, forms, queries and base strings: which characters occur, and how many of each delimiter (`Properties/Injection`) |
| C05 | every fragment passed to the unchecked conversion is ASCII, table slices in bounds: explicit partial operations proved never to fail |
| C06 | refinement of the authorizer to a spec'd list of items, induction over call sequences, all Sign impls; `C06_digest_bytes`: the bytes HMAC and RSA digest |
| C07 | spec verifier (header parser, RFC base string with sorting of encoded pairs, HMAC). Violated by same-key values whose raw order differs from the encoded order; proved when raw order and encoded order agree (`_partial`) + negation witness |
| C08 | sorted permutations agree up to text; serialization depends on text only |
| C09 | header parser inverts header |
| C10 | item list carries both texts; signed = encode(sent) |
| C11 | **violated**: request parameters are dropped. Negation proved; `_partial`: protocol parameters are all there |
| C12, C13 | closed forms |
| C14, C15 | iff characterisations |
| C16 | no-panic theorem over ParameterList; a build without a clock needs a timestamp in the options |
| C17, C18 | trace of the interleaving loop, induction with arbitrary cursor |
| C19, C20 | history invariant; adjacent check ⇔ pairwise sorted |
| C21–C24 | derive model; C23 partial (non-ASCII identifiers, see below). What may be written in an attribute and which structs are accepted are stated as relations on tokens (`Spec/DeriveGrammar`, `C24_arguments`, `C23_accepted_written`) |
| C25, C26 | buffer/digest state machine = RFC 2104 for every write sequence |
| C27 | **violated**: signature written raw. Witness + `_partial` for what holds |
| C28 | RSA model |
| C29 | **violated** for signature methods that override `consumer_key`; proved otherwise (`_partial`) + witness |
| C30 | two-run theorem |
| C31 | Builder/Credentials/Token proved; **violated** for Authorizer with PLAINTEXT (witness), `_partial` |
| C32 | base64 injectivity and length |
| C33 | **violated** when the clock reads the first second of the epoch; `_partial` |
| C34, C35, C36, C37, C38, C39, C40, C41, C42 | invariants/refinements over histories |
| C43, C48 | server model accepts client output: header parser inverts the writer, base strings agree, time window; `C43_runs_iff`: exactly when, for any client and endpoint |
| C49 | client and server composed; the dance ends in the printed text, or panics when a request is late |
| C44 | **violated** for PLAINTEXT (mismatch only logged); `_partial` for HMAC-SHA1. For the whole server, with the credentials of each resource: `C44_service`, `C44_service_answers`, `C44_not_found`; without a clock no handler runs (`C44_no_clock`) |
| C45 | **violated** (`t + 30` overflows in debug builds); `_partial` |
| C46, C47 | injectivity by unambiguous parsing; the secrets can be told from PLAINTEXT output (`C47_plaintext_output`) and from the HMAC state (`C47_hmac_state`); `C46_authorize` on outputs, with a signature method whose signature shows the text |
| C50 | base string of any canonical call sequence = RFC base string iff encoded pairs ascend; keys of a derived struct are sorted and distinct, so its pairs ascend |
| C51 | RFC 3447 sign/verify are inverse (Fermat, CRT) + C28; key existence witnessed by a proved 384-bit key |
| C52 | **violated**: the server keeps no nonces. Witness; exact answer as a function of time (`C52_same_answer_until_limit`); `_partial`: not after the window |
| C53 | both base strings parsed back (C46) + C44; unforgeability is a hypothesis about the strings at hand |
| C54 | simulation up to the field that only some builds have |
| C55 | container record with arbitrary operations; **violated**: `default` does not sort. Exact condition and transfer to `Built` lists |
| C56 | components of a URI are determined by its text, so text = base string URI iff in normal form; **violated** otherwise (witness `http://a.b`). With any method and names: `C56_any_names_iff`. The documented warning: with a query, the signed text is never the base string, whatever the server collects (`C56_query_wrong`, `C56_uri_part`) |
| C57 | syntactic mentions of fields in the generated statements against Rust's rule for (raw) identifiers; **violated** for `r#keyword` fields. Exact condition |
| C58 | header of the `impl`: each declaration (`C58_declares`), and a satisfaction relation for bounds |
| C59 | exact panic condition; error list = ill-formed and repeated items (relation `Reports`, shown functional), duplicates, lookup |
| C60 | server from the HTTP message on (`Spec/Wire`: URL Standard form decoding, `Uri` components, header parser): strict and lenient form parsers agree on forms without `+`; C13, C50, C51, C56 composed |
| C61 | **violated** because of C11. Exact: accepted alone iff two base strings have the same MAC (HMAC-SHA1) or digest (RSA-SHA1), which are equal iff the request has no parameters; `_partial`: with the request's own parameters sent the other way |
| C62 | **violated**: a request parameter may be named like a protocol parameter. Exact: `C62_iff`, `C62_derived` (for HMAC-SHA1 and RSA-SHA1, `C62_methods`); `_partial`: no such name; the signed form or query alone always complies |
| C63 | environment semantics of the tokens: with contexts of the struct ≠ that of the expansion, every lookup finds the intended binding; the token semantics equals the coarse one (`C63_request`), so C21–C23 and C50 apply |
| C64 | typing function on the tokens, exact condition (`C64_iff`); **violated** when a constant or static in scope is called as a variable of the method (`serializer`, `helper`, `tmp`, `value`, `fmt`) or of a helper function (`f`, `t`) |
| C65 | iff on the bytes of a response, through the form decoding of the URL Standard (`C65_iff`); round trip (`C65_served`); `serde(flatten)` (`C65_flattened`) |
| C66 | **violated** by formats that store structs as sequences (no `visit_seq`); exact (`C66_iff`); `_partial`: formats with field names |
| C67 | **violated**: `extend` sorts only if the iterator ends. Exact for `Vec` (`C67_iff`); `_partial`: unless the last call unwound; a completed `extend` repairs the order (`C67_recovers`) |
| C68 | scopes of the type namespace (`Model/DeriveNames`), name by name. **Violated** by a struct called `Copy`; exact condition (`C68_iff`); `_partial`: no underscored names, and `Copy`, `Fn`, `Sized`, `bool` are the standard ones |
| C69 | counting: the nonce is an injective function of nine bytes, so the draws without collision are embeddings (`C69_count`); bounds on the product by induction; `C69_series`, `C69_collide` tie the draws to the headers of successive requests |
| C70 | two runs of the handler with different expectations (`Properties/ServerRfc`). **Violated** by a `PLAINTEXT` request with a wrong signature (because of finding C44); `_partial`: all other signature methods; exact condition (`C70_iff`, `Properties/Status`) |
| C71 | the documented grammar as a spec (`DocHeader`), against the parser through C48. **Violated** by two spaces after the scheme; exact condition (`C71_iff`); `C71_scheme_case`: `oauth` is passed over |
| C72 | `rfcBase` of `collectParams` against the text of the server. **Violated** by `realm` in the header and by values that change order when encoded; exact condition (`C72_iff`) |
| C73 | whole messages (`Spec/Wire`) with the check of section 3.4.4 (`Spec/Plaintext`). **Violated**: headers are accepted exactly if both secrets are unreserved (`C73_header_iff`); signed forms and queries never are (`C73_form_rejected`, `C73_query_rejected`), whatever else the message holds |
| C74 | the names of the fallback `impl` (lib.rs l.125-140) with the scopes of `Spec/DeriveNames`. **Violated** by a struct with a type parameter `S` (E0403, as the fallback is `fn serialize<S>`); exact condition `C74_iff` |
| C75 | `cfg_type_param_hack!`, rule by rule (`Model/Macros`), against the parameters kept where `#[cfg]` may stand before a parameter (`Spec/Macros`), in every build |
| C76 | `doc_auto_cfg!`/`doc_coerce_expr!`, rule by rule; same items, same attributes apart from the added ones, same presence in every build; fails exactly on input ending in an attribute |
| C77 | `options!`/`impl_setters!`, rule by rule. **Violated** by the third rule of `impl_setters!` (util.rs l.141-146), which takes `impl Into<Option<T>>` and assigns it without `.into()` to a field of type `T`; exact condition `C77_iff`; `auth::Options` has no such field |
| C78 | Builds: `Model/Features` lists the features of both `Cargo.toml`s and every item that is conditional or refers to something conditional, with its `#[cfg]` and references; `Spec/Features` says which builds Cargo makes and when a reference is met. Proved for all builds by a sound checker (`Proofs/Features.implies`: all values of the atoms concerned) run in the kernel. Not looked at: whether the dependencies compile (on wasm32-unknown-unknown `getrandom` needs its feature `js`, which the feature `js` of this crate does not enable), types, unit tests other than those of serializer.rs. Also shown: `Builder::to_form_with_buf` is `alloc`-only although nothing in it needs `alloc` |
| C79 | The examples of the documentation, with the condition under which each is compiled, the items they use and whether they sign without a timestamp. **Violated**; `C79_iff` says for each example in which builds it works; `C79_clock` ties the clock to the model of signing |
| C80 | Headers, forms and queries against the grammars of RFC 7235 (`Spec/Authorization`, shared with the example server) and RFC 3986 (`Spec/Sendable`), for all inputs and the signature methods of the crate (a value of `Either` behaves like its alternative, C29) |
| C81 | Lengths by formula (`Spec/Size`), and `capacityWriter`, a writer with room for `n` bytes that refuses whole writes; from the layouts of C09 and C12 and the writer theorem C36 |
| C82 | SHA-1 as a relation (`Spec/Sha1`: padding, any schedule that satisfies the recurrence, rounds on `BitVec 32`), equivalent to the function of the model. Trusted remains that the crate `sha1` computes it |
| C83 | RFC 5849 (3.2) as two sets of reasons (`BadRequest`, `Unauthorized`). **Violated**; `C83_refused_iff`, `C83_handled_iff` give the status code of every request by an ordered table of causes (`refusals`), `C83_partial` the part of the RFC that holds |
| C84 | media types as a grammar (`Spec/MediaType`, RFC 7231). **Violated**: the server compares the header as text; exact condition (`C84_iff`); `C84_violated_refused`: a form that was signed is refused for its `charset` |
| C85 | structs up to the groups around types and attribute values (`Spec/DeriveMacro`). **Violated** for values: `rename = $name` is refused; exact condition (`C85_iff`); types make no difference (`C85_partial`) |
| C86 | the attributes as documented (`Spec/DeriveDocs`). **Violated** for `crate = "name"`, which is always refused (`C86_refused`); holds for all documented attributes of fields (`C86_partial`), exact condition (`C86_iff`), and nothing undocumented is accepted on fields (`C86_only_documented`) |
| C87 | C03, C13 and the place of query and fragment in a URI (`Spec/UriParts`). **Violated** by URIs with a fragment, which swallows the request (`C87_lost`); exact condition (`C87_iff`), all other cases (`C87_parts`), `Builder::to_query` (`C87_signed`) |
| C88 | `syn`'s cursor on token trees (`Model/SynCursor`), without the part of `Lawful` that says that an announced group can be parsed. **Violated** by an invisible group with parentheses after a path; exact conditions (`C88_iff`, `C88_panics_iff`); otherwise the macro behaves as with a `Lawful` parser (`C88_otherwise`, `C88_lenient`) |
| C89 | The macro again with the spans and texts of its errors (`Model/DeriveSpans`); without them it is the macro of the other theorems (`C89_same`). Errors about a field (`C89_field`), the struct's attributes (`C89_container`), second fields of a name, at the later declaration (`C89_duplicates`, `C89_perm`), all together (`C89_errors`); determined by the entries (`C89_unique`), and these by the attributes (`EntriesOf` is stated without the macro's parser; `C89_entries_unique`). The examples are tests/ui/attrs.rs with attrs.stderr |
| C90 | The bytes of a request and the texts the server makes of them (`C90_received`, `C90_text`, `C90_substituted`); equal base strings mean equal texts (`C90_iff`) and, where no U+FFFD is signed, equal bytes (`C90_partial`, `C90_accepted_was_signed`). Violated: `C90_violated`, `C90_altered_accepted` |
| C91 | For every method and all names: the signed base string is the one of the RFC if and only if the method is upper case and, like the names, needs no encoding, encoding keeps the order, and no value comes after that of the protocol parameter with its name (`C91_base_string_iff`, by counting lengths); then the server accepts (`C91_partial`), otherwise only if two different base strings have the same MAC (`C91_otherwise`). A form is read back if and only if no name contains `&`, `=` or `%` (`C91_form_iff`). Violated: `C91_violated` (`get`), `C91_violated_custom_method` (`LIST!`), `C91_violated_name` (`a[]`). |
| C92 | The documented calls as a small separate list (`Spec/Said.lean`: `documented`, `Call.said?`). `C92_calls`: for every implementor of `Sign` the state that is asked for its signature is the one after these calls; `C92_recorded`: an algorithm that writes down each call has written down exactly these (the example of the documentation is evaluated beside it). `C92_required`, `C92_own`: implementing the five required methods by their documented text is enough to sign the base string |
| C93 | **violated**: the name is written as it is, in the header and in the base string (`C93_written`, any name). Exact: `C93_iff`, right if and only if the name is made of unreserved characters; `C93_partial`. Negation: `C93_violated` with the name `urn:x`; `C93_urn` shows what is returned |
| C94 | the entries after any history (`C94_entries`), the order of all maps of a key type (`C94_in_order_iff`: right if and only if `Ord` of the keys is the order of their text; strings: `C94_strings`) and of all sets of pairs (`C94_set_in_order_iff`); such a map is sent as any `ParameterList` of its pairs (`C94_as_list`) and accepted (`C94_accepted`, without the exception of C07, as no name occurs twice). Any iterator: `C94_any_pairs` (panics exactly if), `C94_base_string_iff` (RFC 5849's base string exactly if). Numbers: `C94_numbers_as_values`, `C94_numbers_as_keys` |
| C95 | the owner of the errors as a resource (`Model/CtxtDrop`: scope end, unwinding, abort); the macro ends as without it (`C95_same`), so never by the bomb and never by an abort (`C95_never`); the bomb itself: `C95_bomb`, `C95_forgotten` |
| C96 | the constants of the server as variables (`createBaseStringAt`). **Violated** by a host with capital letters; exact condition `C96_uri_iff` (lower case, no user information, no empty port; default ports are left out as they should), with method and parameters `C96_base_string_iff`; the server as it is: `C96_example` |
| C97 | PLAINTEXT with any buffer type: when it signs, and exactly when its output is that of `PLAINTEXT` (`Proofs/Simulate`: runs with two signing algorithms whose states stay related) |
| C98 | formatting that is told the result of each write (`Model/Fmt`): C36 for forms and queries without assuming that values stop at a failed write. **Violated** by a value that returns `Ok` after one (`C98_violated`); exact condition (`C98_iff`); no difference on `String` and digests (`C98_unfailing`, `C98_signed`); the values of all other properties are covered (`C98_covers`) |
| C99 | `f64` division as IEEE 754 rounding of rationals (`Model/JsClock`, proved nearest: `C99_division`, ties to even: `C99_ties`; the cast: `C99_cast`); any nearest number has the same whole part up to 2^53 ms (`C99_whole`), so for all ECMAScript time values (`C99_timestamp`); the integer arithmetic in `Model/Auth` is the same (`C99_code`) |
| C100 | the path of `crate = path` token by token (`Model/UsePath`) and the grammar of `use` declarations of the Rust reference (`Spec/UseTree`). **Violated** by `crate = a::<u8>::b` (`C100_violated`); exact condition `C100_iff`; what is imported is what the path names (`C100_names`); the item has the path as written (`C100_verbatim`); the macro does not look at the path (`C100_any_path`) |
| C101 | the bits `fmtOk`, `predOk`, `unOption` of C64 computed from signatures and the order of arguments (`Model/HelperTypes`: type variables, coercion by dereferencing); exact conditions (`C101_fmt`, `C101_skip_if`, `C101_option`, `C101_code`); the order matters (`C101_order`). That `rustc` infers types like this is trusted |
| C102 | the three resources with their bodies (`Spec/Reply`) and the text of forms (URL Standard, `Spec/FormText`); 200 with that body or 400, 401, 404 with none (`C102_answers`), 404 exactly without a resource (`C102_not_found_iff`), nothing for requests that are not accepted (`C102_nothing_disclosed`) |

`Properties/Exact` sharpens the violated claims C23, C27, C29, C33, C44 and C45 to equivalences.

Theorem names start with the property's id. `_partial` theorems state what holds where the property itself is
violated; the negation is proved beside it (`_violated`).

## 5. Findings

Things the proofs showed about the code at the pinned commit. The first group makes a listed property false.

1. **C11** `Builder::to_form`/`to_query` (an `Authorizer` over an `Urlencoder`) drop the request's own parameters:
   `serialize_parameter` hands them to the signer only. The output is the protocol parameters and the
   signature, which does not verify without the caller adding the parameters back (**C61**, `C61_alone`).
2. **C07** `ParameterList` orders values of one key by raw bytes, RFC 5849 3.4.1.3.2 by encoded bytes.
   They differ e.g. for `"z"` and `"{"` (encoded `%7B`), exactly when two values under one key compare differently before and
   after encoding (`C07_base_string_iff`). The example server also sorts before encoding, so the two examples agree
   with each other and both disagree with the RFC.
3. **C27** the PLAINTEXT signature is the signing key, written without another encoding: its `&` is not escaped
   in a form, and the `%` of an encoded secret is not escaped in a header.
4. **C29** `Either` does not forward `consumer_key`, so a user-defined signer overriding it behaves
   differently inside `Either`. The crate's own signers are not affected (`C29_crate_methods`).
5. **C31** the derived `Debug` of `PlaintextSign` (and so of an `Authorizer` using it) prints the signing key.
6. **C33** timestamp 0 is sent in the first second of the epoch (and, with the `js` feature, before it).
7. **C23** the derive accepts fields named like protocol parameters and non-ASCII identifiers (keys are never
   encoded); reports a lone `rename = ""` as a duplicate; counts skipped fields as duplicates.
8. **C44** the example server only logs a PLAINTEXT mismatch; any PLAINTEXT signature is accepted.
9. **C45** `t + 30` in the example server overflows for a timestamp near 2^64 and panics in debug builds. A
   clock before the epoch and an aborted body panic too.
10. **C52** the example server has no record of nonces: a signed request is answered again, as often as wanted, until
    30 seconds after its timestamp; and the timestamp may lie in the future.
11. **C55** `Default for ParameterList` takes `A::default()` unsorted and unchecked. No container of `std` has an
    unsorted default; a user-defined one may, and then `authorize` panics (debug) or signs the wrong text.
12. **C56** the URI is signed as given: `http://a.b` (requested as `/`), upper-case hosts, `:80`, user information and
    fragments give a base string other than that of RFC 5849. The documentation only warns of the query.
13. **C57** `Field::new` strips `r#` and uses the result both as key and as field name: for a field `r#type` the macro
    generates `self.type`, which does not compile (`rename` does not help). Every keyword field that is not skipped
    has this problem. A type parameter called `_S` clashes with that of the generated method.
14. **C62** nothing rejects a request parameter named like a protocol parameter (in a `ParameterList`, or a derived
    field `oauth_nonce`): it is signed and sent next to the real one, which RFC 5849 3.1 forbids.
15. **C64** identifier patterns are not hygienic with respect to constants: next to `const tmp: u8 = 0;` (or a static or
    unit struct `value`, `helper`, `fmt`, `serializer`, `f`, `t`) the generated `let tmp = …` is no binding and does not compile.
16. **C66** `Deserialize for Credentials` has no `visit_seq`: in formats that store structs without field names
    (`bincode`, `postcard`) every `Credentials` can be written and none can be read.
17. **C67** `ParameterList::extend` is not exception safe: if the iterator (or a `Display` during the sort) panics and the
    panic is caught, the list stays out of order until the next `extend`.
18. **C68** the helper functions of the generated method use `Copy`, `Fn`, `Sized` and `bool` unqualified, at call site: with a
    `fmt` attribute a struct called `Copy` (or next to any item `Copy`, `Fn` or `Sized`, or with a type parameter of that
    name) does not compile, although the macro accepts it; likewise `bool` with `skip_if`. In the other direction, `_S::f`
    in an attribute refers to the type parameter of the generated method.
19. **C70** because the `PLAINTEXT` branch of the example server compares the identifiers but not the signature (finding on C44), the
    answer to a badly signed request tells whether the identifiers are right.
20. **C71** the header parser of the example server skips one space after the scheme where its grammar allows any number, and compares
    the scheme with regard to case, against RFC 5849 section 3.5.1.
21. **C72** the example server signs `realm` and sorts parameters before it encodes them, both against RFC 5849 section 3.4.1.3.
22. **C73** consequence of the finding on C27 for whole messages: a server that follows RFC 5849 rejects every form and query signed with
    `PLAINTEXT`, and every header if a secret has a reserved character.
23. **C74** the `impl` generated along with errors declares its method as `fn serialize<S>` (lib.rs l.132; `_S` in the ordinary
    one), so a rejected struct with a type parameter `S` gives an additional error E0403.
24. **C77** the third rule of `impl_setters!` assigns an `impl Into<Option<T>>` to a field of type `T` as it is; no use of the macro
    reaches it.
25. **C79** the first example of lib.rs is compiled with `derive` and `hmac-sha1`, but needs `alloc` (`oauth::post`, `to_form`, `to_query`) and a clock;
    with `--no-default-features --features=derive,hmac-sha1` `cargo test` fails to compile it, with `alloc` in addition it panics for want of a clock, as does the
    example of `Builder` (lib.rs l.103). The example of `Recorder` needs `derive`, those of `oauth-credentials` its feature `alloc`, and are compiled without.
    The example of README.md passes `oauth::HmacSha1`, a struct with a private field, as a value: it compiles in no build (lib.rs has `HMAC_SHA1`)
26. **C83** the example server answers 401 where a consumer key, token or verifier is missing (RFC 5849: 400), and lets through
   requests with protocol parameters given twice (the least value counts) or with an `oauth_version` other than `1.0`.
27. **C84** the example server compares `Content-Type` with `application/x-www-form-urlencoded` as text: with a `charset` (or capital
    letters) the form is passed over, so the request is refused if its form was signed, and an unsigned form goes unnoticed.
28. **C85** `is_option` looks through the group around a type that came through a variable of `macro_rules!`, the functions
    `from_expr` of meta.rs do not: `#[oauth1(rename = $name)]`, `fmt = $f` or `skip_if = $p` with `$name:literal`, `$f:expr`, `$p:path`
    give "expected string literal" or "expected path". (That `syn` hands over an `Expr::Group` then is trusted.)
29. **C86** The documentation of the derive macro (lib.rs l.199) has `#[oauth1(crate = "name")]`; container.rs takes an `ExprPath`, so
    that the documented form is refused with "expected path", and only `crate = name` works.
30. **C87** `to_query` puts `?` and the pairs behind the URI, even if that has a fragment: `https://a.b/c#d` becomes
    `https://a.b/c#d?k=v`, of which nothing but `/c` is sent. The documentation only warns of a query.
31. **C88** `Meta::parse` (meta.rs l.195-196) takes `peek(Paren)` as a promise that `parse::<Group>()` succeeds. `peek` looks into
    invisible groups, `parse` (in current versions of `syn` 2) does not: `#[oauth1(skip $x)]` in a `macro_rules!` macro, with
    `$x:expr` being `(1)`, panics instead of reporting `expected meta word`. Theorems with the hypothesis `Lawful` are about
    token streams where this does not happen (`C88_otherwise`).
32. **C90** The server decodes names and values with `decode_utf8_lossy` (handler.rs l.369-373; `form_urlencoded` does the same), so
    that bytes which are not UTF-8 enter the base string as U+FFFD: `a=%FF` has the signature of `a=%EF%BF%BD`, and is accepted with it.
33. **C91** The method and the names are signed as given: neither is percent-encoded and the method is not upper-cased, which RFC 5849
    section 3.4.1.1 and 3.4.1.3.2 ask for. `get`, `LIST!` and a parameter `a[]` get a signature that a server of the RFC rejects.
    For names this is documented (serializer.rs l.105), for methods it is not.
34. **C93** `get_signature_method_name` is written into the header, form or query and, by the provided `Sign::signature_method`, into the
    base string without percent-encoding (signature_method.rs l.175-177, auth.rs l.331-335).
    The documentation asks for an encoded form of `Signature` only. A method of one's own with a name such as `urn:x` sends and signs
    `urn:x` where RFC 5849 has `urn%3Ax` and `urn%253Ax`; `&` in a name adds a parameter to a form (`C93_form_violated`). Wrong for every
    name with a reserved character (`C93_iff`), right for the names of RFC 5849.
35. **C96** `create_base_string` removes the default port of `AUTHORITY` but leaves its case, user information and an empty port (`host:`) as they
    are. The constants of the example are not affected (`C96_example`).
36. **C98** `Urlencoder` unwraps what `write!` returns, so it notices a full buffer only if the value being written reports it. With a value whose
    `fmt` is `let _ = f.write_str("secret"); Ok(())` and a buffer of 6 bytes, the form `a=secret&b=2` comes out as `a=&b=2`, without a panic.
37. **C100** `#[oauth1(crate = a::<u8>::b)]`, `crate = <T as Trait>::x`, `crate = Self` and `crate = #[a] b` are accepted, as every path expression is; the
    generated `use a::<u8>::b as _oauth1_request;` does not parse. The error then is about generated code, instead of a message of the macro.

Not violations of a listed property, but visible as hypotheses or as separate theorems:

* Keys are never percent-encoded (`C03_keys_not_encoded`) and the method is not upper-cased: hypotheses of the RFC theorem of C07
  (`Plain`) and of theorems about parsing. C91 is about the others.
* The derived `impl` asks for `Display` of every type parameter, also of those only skipped fields use (C58).
* A request parameter with the key of a protocol parameter is put before it, whatever its value (a condition in `C91_base_string_iff`).
* The nonce is the empty string when all nine random bytes are zero.
* The server's HMAC key uses un-encoded secrets (equal to the encoded ones for the secrets of the example).
  `C43_keys_iff` is the exact condition, `C43_reserved_secret` a token secret with which every request is refused.
* If `nom`'s `escaped_transform` fails on empty input, the server rejects every header with an empty value
  (`C48_empty_value_rejected`).
* The example client ignores the status and unwraps the parsed body: it panics on any rejection (`C49_late_panics`).
