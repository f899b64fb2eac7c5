import Verif.Model.Basic

/-
Which items exist in which build: the features of oauth1-request/Cargo.toml and oauth-credentials/Cargo.toml,
the `#[cfg]` attributes of the items of both crates, and the examples in the documentation.

An item is listed if it has a `#[cfg]`, or refers to a crate that is not always there, or to an item with a
`#[cfg]`; references to other items are not listed. Of the unit tests only those in serializer.rs are
listed, which have `#[cfg]`s of their own.
-/

namespace OAuth.Build

/-- The features of `oauth1-request`: oauth1-request/Cargo.toml l.61-74, and one for each optional
dependency (l.31-52). -/
inductive Feature
  | alloc | derive | hmacSha1 | rsaSha106 | rsaSha109 | js | serde | std | test
  | digest | either | hmac | jsSys | requestDerive | rsa06 | rsa09 | sha1
  deriving DecidableEq, Repr

/-- The features of the dependencies that are not enabled in every build. -/
inductive DepFeature
  | credentialsAlloc | credentialsSerde | credentialsStd | randStd | randStdRng | sha1Oid
  deriving DecidableEq, Repr

/-- What a `#[cfg]` can ask for, except that features of the dependencies are seen by these only. -/
inductive Atom
  | feature (f : Feature)
  | dep (d : DepFeature)
  | debugAssertions
  /-- `all(target_arch = "wasm32", target_os = "unknown")` -/
  | wasm
  /-- `cfg(test)`: the unit tests are compiled. -/
  | tests
  deriving DecidableEq, Repr

/-- oauth1-request/Cargo.toml l.61-74 `[features]`, except `default`; oauth-credentials/Cargo.toml
`[features]`. A feature `dependency/feature` also enables the dependency if it is optional. -/
def enables : Atom → List Atom
  | .feature .alloc => [.dep .credentialsAlloc]
  | .feature .derive => [.feature .requestDerive]
  | .feature .hmacSha1 => [.feature .digest, .feature .hmac, .feature .sha1]
  | .feature .rsaSha106 => [.feature .digest, .feature .rsa06, .feature .sha1]
  | .feature .rsaSha109 => [.feature .digest, .feature .rsa09, .feature .sha1, .dep .sha1Oid]
  | .feature .js => [.feature .jsSys]
  | .feature .serde => [.dep .credentialsSerde]
  | .feature .std => [.feature .alloc, .dep .credentialsStd, .dep .randStd, .dep .randStdRng]
  | .dep .credentialsStd => [.dep .credentialsAlloc]
  | _ => []

/-- oauth1-request/Cargo.toml l.62. -/
def defaultFeatures : List Feature := [.derive, .hmacSha1, .std]

/-- A build: what holds in it. -/
abbrev Build := Atom → Bool

/-- The argument of a `#[cfg]`; `tt` if there is none. -/
inductive Pred
  | tt
  | atom (a : Atom)
  | not (p : Pred)
  | and (p q : Pred)
  | or (p q : Pred)
  deriving DecidableEq, Repr

/-- Whether a predicate holds. -/
def Pred.eval (b : Build) : Pred → Bool
  | .tt => true
  | .atom a => b a
  | .not p => !p.eval b
  | .and p q => p.eval b && q.eval b
  | .or p q => p.eval b || q.eval b

/-- `feature = "…"` -/
def feat (f : Feature) : Pred := .atom (.feature f)

/-- Crates that are not part of the language: the dependencies, and the standard library. -/
inductive Crate
  | base64 | cfgIf | fmtCmp | oauthCredentials | percentEncoding | rand
  | requestDerive | either | digest | hmac | sha1 | rsa06 | rsa09 | jsSys
  | serde
  deriving DecidableEq, Repr

/-- Names of items. Those that exist under the same name in several places have a prefix. -/
inductive Name
  /- oauth1-request/src/lib.rs -/
  | alloc | std | deriveRequest | Credentials | Token | HmacSha1 | RsaSha1 | Rsa09Sha1 | HMAC_SHA1
  | PLAINTEXT | Plaintext | String | Builder | Builder_authorizeShorthands | Builder_to_formShorthands
  | Builder_to_queryShorthands | Builder_authorize | Builder_to_form | Builder_to_query
  | Builder_authorize_with_buf | Builder_to_form_with_buf | Builder_into_authorization
  | Builder_into_form | Builder_into_query | Builder_into_authorization_with_buf
  | Builder_into_form_with_buf | authorizeShorthands | authorize | to_form | to_query
  /- request/parameter_list.rs, request.rs -/
  | ParameterList | parameterCmp | AssertSorted
  /- serializer.rs, serializer/ -/
  | serializer_recorder | serializer_Recorder | recorder_alloc | recorder_Recorder | recorder_Record
  | Authorizer | Authorizer_prev_key | Authorizer_authorization | Authorizer_form | Authorizer_query
  | Authorizer_authorization_with_buf | Authorizer_form_with_buf | Authorizer_new_
  | Authorizer_check_dictionary_order | get_current_timestamp | get_rng | gen_nonce
  | Urlencoder | Urlencoder_form | Urlencoder_query | Urlencoder_form_with_buf
  | tests_std | tests_HmacSha1 | tests_Credentials | tests_CK | tests_NONCE | tests_AssertImpl
  | tests_serialize | tests_panic_on_misordering
  /- signature_method.rs, signature_method/ -/
  | signature_method_hmac_sha1 | signature_method_rsa_sha1_06 | signature_method_rsa_sha1_09
  | signature_method_digest_common | signature_method_either | signature_method_HmacSha1
  | signature_method_HMAC_SHA1 | signature_method_PLAINTEXT | signature_method_RsaSha1
  | signature_method_Rsa09Sha1
  | plaintext_PLAINTEXT | plaintext_Plaintext | plaintext_PlaintextSign | Plaintext_new
  | rsa_sha1_06_alloc | rsa_sha1_09_alloc
  /- oauth-credentials/src/lib.rs -/
  | credentials_alloc | credentials_std | credentials_String | credentials_Credentials
  | credentials_Token | credentials_serde_imp
  /- never declared: a value called `HmacSha1` -/
  | HmacSha1Value
  deriving DecidableEq, Repr

/-- What an item needs. -/
inductive Need
  | krate (c : Crate)
  /-- `rand::thread_rng` exists with the features `std` and `std_rng` of `rand`. -/
  | threadRng
  /-- `Sha1: AssociatedOid` with the feature `oid` of `sha1`. -/
  | sha1Oid
  | item (n : Name)
  /-- There is no such item: e.g. a field that an expression does not mention. -/
  | absent (n : Name)
  /-- The defaults of the type parameters of `Credentials` and `Token`. -/
  | defaultString
  deriving DecidableEq, Repr

/-- An item: its name, its `#[cfg]`, and its references, each with the `#[cfg]` it has inside the item. -/
structure Decl where
  name : Name
  cfg : Pred
  uses : List (Pred × Need)
  deriving DecidableEq, Repr

/-- References without a `#[cfg]`. -/
def plain (ns : List Need) : List (Pred × Need) := ns.map ((.tt, ·))

/-- `all(feature = "alloc", debug_assertions)` -/
def allocDebug : Pred := .and (feat .alloc) (.atom .debugAssertions)

/-- `all(feature = "js", target_arch = "wasm32", target_os = "unknown")` -/
def jsWasm : Pred := .and (feat .js) (.atom .wasm)

/-- oauth1-request/src/lib.rs. -/
def libDecls : List Decl := [
  -- l.120: without `no_std`, `std` is there
  ⟨.std, feat .std, []⟩,
  -- l.122-123
  ⟨.alloc, feat .alloc, []⟩,
  -- l.132-210
  ⟨.deriveRequest, feat .derive, plain [.krate .requestDerive]⟩,
  -- l.211-212
  ⟨.Credentials, .tt, plain [.krate .oauthCredentials, .item .credentials_Credentials]⟩,
  ⟨.Token, .tt, plain [.krate .oauthCredentials, .item .credentials_Token]⟩,
  -- l.214-228
  ⟨.HmacSha1, feat .hmacSha1, plain [.item .signature_method_HmacSha1]⟩,
  ⟨.Plaintext, .tt, plain [.item .plaintext_Plaintext]⟩,
  ⟨.RsaSha1, feat .rsaSha106, plain [.item .signature_method_RsaSha1]⟩,
  ⟨.Rsa09Sha1, feat .rsaSha109, plain [.item .signature_method_Rsa09Sha1]⟩,
  ⟨.HMAC_SHA1, feat .hmacSha1, plain [.item .signature_method_HMAC_SHA1]⟩,
  ⟨.PLAINTEXT, feat .alloc, plain [.item .signature_method_PLAINTEXT]⟩,
  -- l.230-231
  ⟨.String, feat .alloc, plain [.item .alloc]⟩,
  -- l.240-255
  ⟨.Builder, .tt, [(feat .alloc, .item .String), (.tt, .item .Credentials)]⟩,
  -- l.257-273
  ⟨.Builder_authorizeShorthands, feat .alloc, plain [.item .String, .item .Builder_authorize]⟩,
  -- l.275-292
  ⟨.Builder_to_formShorthands, feat .alloc, plain [.item .String, .item .Builder_to_form]⟩,
  -- l.294-314
  ⟨.Builder_to_queryShorthands, .tt, plain [.item .Builder_to_query]⟩,
  -- l.410-431
  ⟨.Builder_authorize, feat .alloc, plain [.item .String, .item .Authorizer_authorization]⟩,
  -- l.433-454
  ⟨.Builder_to_form, feat .alloc, plain [.item .String, .item .Authorizer_form]⟩,
  -- l.457-477
  ⟨.Builder_to_query, .tt, plain [.item .Authorizer_query]⟩,
  -- l.479-499
  ⟨.Builder_authorize_with_buf, .tt, plain [.item .Authorizer_authorization_with_buf]⟩,
  -- l.502-523
  ⟨.Builder_to_form_with_buf, feat .alloc, plain [.item .Authorizer_form_with_buf]⟩,
  -- l.525-549
  ⟨.Builder_into_authorization, feat .alloc, plain [.item .String, .item .Authorizer_authorization]⟩,
  -- l.551-574
  ⟨.Builder_into_form, feat .alloc, plain [.item .String, .item .Authorizer_form]⟩,
  -- l.577-600
  ⟨.Builder_into_query, .tt, plain [.item .Authorizer_query]⟩,
  -- l.602-628
  ⟨.Builder_into_authorization_with_buf, .tt, plain [.item .Authorizer_authorization_with_buf]⟩,
  -- l.630-650
  ⟨.Builder_into_form_with_buf, .tt, plain [.item .Authorizer_form_with_buf]⟩,
  -- l.653-688
  ⟨.authorizeShorthands, feat .alloc, plain [.item .String, .item .authorize]⟩,
  -- l.691-726
  ⟨.authorize, feat .alloc,
    plain [.item .String, .item .Builder_into_authorization, .item .Token]⟩,
  -- l.728-735
  ⟨.to_form, feat .alloc, plain [.item .String, .item .Urlencoder_form]⟩,
  -- l.737-747
  ⟨.to_query, feat .alloc, plain [.item .String, .item .Urlencoder_query]⟩]

/-- oauth1-request/src/request.rs and request/parameter_list.rs. -/
def requestDecls : List Decl := [
  -- request.rs l.61-64
  ⟨.AssertSorted, .tt, []⟩,
  -- parameter_list.rs l.31-40
  ⟨.ParameterList, .tt, [(feat .alloc, .item .alloc)]⟩,
  -- parameter_list.rs l.236-244
  ⟨.parameterCmp, .tt, plain [.krate .fmtCmp]⟩]

/-- oauth1-request/src/serializer.rs and serializer/. -/
def serializerDecls : List Decl := [
  -- serializer.rs l.3-8, 10-15
  ⟨.serializer_recorder, feat .test, []⟩,
  ⟨.serializer_Recorder, feat .test, plain [.item .serializer_recorder, .item .recorder_Recorder]⟩,
  -- recorder.rs l.3, 5-7, 53-80, 168-205; in the module `serializer::recorder`
  ⟨.recorder_alloc, feat .test, []⟩,
  ⟨.recorder_Recorder, feat .test, plain [.item .recorder_alloc]⟩,
  ⟨.recorder_Record, feat .test, plain [.item .recorder_alloc, .krate .fmtCmp]⟩,
  -- auth.rs l.16-38
  ⟨.Authorizer, .tt, [(feat .alloc, .item .alloc)]⟩,
  ⟨.Authorizer_prev_key, allocDebug, plain [.item .alloc]⟩,
  -- auth.rs l.70-121
  ⟨.Authorizer_authorization, feat .alloc,
    plain [.item .alloc, .item .Authorizer_authorization_with_buf]⟩,
  ⟨.Authorizer_form, feat .alloc, plain [.item .alloc, .item .Authorizer_form_with_buf]⟩,
  -- auth.rs l.123-178
  ⟨.Authorizer_query, .tt, plain [.item .Urlencoder_query, .item .Authorizer_new_]⟩,
  ⟨.Authorizer_authorization_with_buf, .tt, plain [.item .Authorizer_new_]⟩,
  ⟨.Authorizer_form_with_buf, .tt, plain [.item .Urlencoder_form_with_buf, .item .Authorizer_new_]⟩,
  -- auth.rs l.180-209: both struct expressions have to name all fields
  ⟨.Authorizer_new_, .tt, [(.tt, .krate .cfgIf), (allocDebug, .item .Authorizer_prev_key),
    (allocDebug, .item .alloc), (.not allocDebug, .absent .Authorizer_prev_key)]⟩,
  -- auth.rs l.261-276
  ⟨.Authorizer_check_dictionary_order, .tt, [(allocDebug, .item .Authorizer_prev_key)]⟩,
  -- auth.rs l.384-404
  ⟨.get_current_timestamp, .tt, [(.tt, .krate .cfgIf), (jsWasm, .krate .jsSys),
    (.and (.not jsWasm) (feat .std), .item .std)]⟩,
  -- auth.rs l.406-414
  ⟨.get_rng, .tt, [(.tt, .krate .cfgIf), (.tt, .krate .rand), (feat .std, .threadRng)]⟩,
  -- auth.rs l.427-441
  ⟨.gen_nonce, .tt, plain [.krate .rand, .krate .base64]⟩,
  -- urlencode.rs l.9-19
  ⟨.Urlencoder, .tt, [(feat .alloc, .item .alloc)]⟩,
  -- urlencode.rs l.29-40
  ⟨.Urlencoder_form, feat .alloc, plain [.item .alloc]⟩,
  -- urlencode.rs l.42-67
  ⟨.Urlencoder_query, .tt, []⟩,
  ⟨.Urlencoder_form_with_buf, .tt, []⟩,
  -- serializer.rs l.190-239
  ⟨.tests_std, .and (.atom .tests) (.not (feat .std)), []⟩,
  ⟨.tests_HmacSha1, .and (.atom .tests) (feat .hmacSha1), plain [.item .signature_method_HmacSha1]⟩,
  ⟨.tests_Credentials, .and (.atom .tests) (.or (feat .alloc) (feat .hmacSha1)),
    plain [.item .Credentials]⟩,
  ⟨.tests_CK, .and (.atom .tests) (.or (feat .alloc) (feat .hmacSha1)), []⟩,
  ⟨.tests_NONCE, .and (.atom .tests) (feat .hmacSha1), []⟩,
  ⟨.tests_AssertImpl, .atom .tests, [(feat .hmacSha1, .item .tests_HmacSha1),
    (.not (feat .std), .item .tests_std), (feat .std, .item .std)]⟩,
  -- serializer.rs l.269-383
  ⟨.tests_serialize, .and (.atom .tests) (feat .hmacSha1),
    plain [.item .tests_Credentials, .item .tests_CK, .item .tests_NONCE, .item .HMAC_SHA1]⟩,
  -- serializer.rs l.385-408
  ⟨.tests_panic_on_misordering, .and (.atom .tests) allocDebug,
    plain [.item .tests_Credentials, .item .tests_CK]⟩]

/-- signature_method.rs l.19-23 -/
def anyDigest : Pred := .or (feat .hmacSha1) (.or (feat .rsaSha106) (feat .rsaSha109))

/-- oauth1-request/src/signature_method.rs and signature_method/. -/
def signatureDecls : List Decl := [
  -- signature_method.rs l.9-17 and hmac_sha1.rs l.9-16
  ⟨.signature_method_hmac_sha1, feat .hmacSha1, plain [.krate .digest, .krate .hmac, .krate .sha1,
    .item .signature_method_digest_common]⟩,
  -- rsa_sha1_06.rs, rsa_sha1_09.rs, rsa_sha1.rs l.3-15
  ⟨.signature_method_rsa_sha1_06, feat .rsaSha106, plain [.krate .rsa06, .krate .digest, .krate .sha1,
    .item .rsa_sha1_06_alloc, .item .signature_method_digest_common]⟩,
  ⟨.rsa_sha1_06_alloc, feat .rsaSha106, []⟩,
  ⟨.signature_method_rsa_sha1_09, feat .rsaSha109, plain [.krate .rsa09, .krate .digest, .krate .sha1,
    .sha1Oid, .item .rsa_sha1_09_alloc, .item .signature_method_digest_common]⟩,
  ⟨.rsa_sha1_09_alloc, feat .rsaSha109, []⟩,
  -- signature_method.rs l.19-24, digest_common.rs l.3-6
  ⟨.signature_method_digest_common, anyDigest, plain [.krate .base64, .krate .digest]⟩,
  -- signature_method.rs l.25-26, either.rs l.1
  ⟨.signature_method_either, feat .either, plain [.krate .either]⟩,
  -- signature_method.rs l.28-41
  ⟨.signature_method_HmacSha1, feat .hmacSha1, plain [.item .signature_method_hmac_sha1]⟩,
  ⟨.signature_method_HMAC_SHA1, feat .hmacSha1, plain [.item .signature_method_hmac_sha1]⟩,
  ⟨.signature_method_PLAINTEXT, feat .alloc, plain [.item .plaintext_PLAINTEXT]⟩,
  ⟨.signature_method_RsaSha1, feat .rsaSha106, plain [.item .signature_method_rsa_sha1_06]⟩,
  ⟨.signature_method_Rsa09Sha1, feat .rsaSha109, plain [.item .signature_method_rsa_sha1_09]⟩,
  -- plaintext.rs l.10-27
  ⟨.plaintext_Plaintext, .tt, [(feat .alloc, .item .alloc)]⟩,
  ⟨.plaintext_PlaintextSign, .tt, [(feat .alloc, .item .alloc)]⟩,
  -- plaintext.rs l.29-31
  ⟨.plaintext_PLAINTEXT, feat .alloc, plain [.item .Plaintext_new]⟩,
  -- plaintext.rs l.33-43
  ⟨.Plaintext_new, feat .alloc, plain [.item .alloc]⟩]

/-- The features of `oauth-credentials`, as its own `#[cfg]`s see them. -/
def cred (d : DepFeature) : Pred := .atom (.dep d)

/-- oauth-credentials/src/lib.rs. -/
def credentialsDecls : List Decl := [
  -- l.22-23
  ⟨.credentials_alloc, .and (.not (cred .credentialsStd)) (cred .credentialsAlloc), []⟩,
  -- l.24-25 `extern crate core as std`, and the `std` of a crate without `no_std` (l.20)
  ⟨.credentials_std, .not (cred .credentialsStd), []⟩,
  ⟨.credentials_std, cred .credentialsStd, []⟩,
  -- l.32-33, and the prelude of `std`
  ⟨.credentials_String, .and (.not (cred .credentialsStd)) (cred .credentialsAlloc),
    plain [.item .credentials_alloc]⟩,
  ⟨.credentials_String, cred .credentialsStd, []⟩,
  -- l.27-28, serde_imp.rs l.1-9
  ⟨.credentials_serde_imp, cred .credentialsSerde,
    plain [.krate .serde, .item .credentials_std, .item .credentials_Credentials]⟩,
  -- l.53-60, 86-93
  ⟨.credentials_Credentials, cred .credentialsAlloc, plain [.item .credentials_String]⟩,
  ⟨.credentials_Credentials, .not (cred .credentialsAlloc), []⟩,
  -- l.97-104, 108-115
  ⟨.credentials_Token, cred .credentialsAlloc, plain [.item .credentials_String]⟩,
  ⟨.credentials_Token, .not (cred .credentialsAlloc), []⟩]

/-- All of it. -/
def decls : List Decl :=
  libDecls ++ requestDecls ++ serializerDecls ++ signatureDecls ++ credentialsDecls

/-- The configuration the rest of the model takes, in a build. serializer/auth.rs l.384-404: `js_sys` if
`js` on wasm32-unknown-unknown, else `SystemTime` if `std`, else a panic. On wasm32-unknown-unknown
`SystemTime::now` panics (see the comment there), which is the same as no clock. -/
def cfgOf (b : Build) : Cfg :=
  { debug := b .debugAssertions
    alloc := b (.feature .alloc)
    clock :=
      if jsWasm.eval b then .js
      else if b (.feature .std) then (if b .wasm then .none else .std)
      else .none }

/-! ### The examples in the documentation -/

/-- An example in the documentation: when it is compiled and run (not marked `ignore`, on an item that is
there), the conditional items it needs, and whether it signs a request without setting a timestamp. -/
structure Example where
  run : Pred
  uses : List Need
  signsNow : Bool
  deriving DecidableEq, Repr

/-- lib.rs l.19-76 -/
def docCrate : Example :=
  { run := .and (feat .derive) (feat .hmacSha1)
    uses := [.item .deriveRequest, .item .Token, .item .authorizeShorthands, .item .HMAC_SHA1,
      .item .Builder, .item .Builder_authorizeShorthands, .item .to_form, .item .to_query]
    signsNow := true }

/-- lib.rs l.83-99 -/
def docList : Example :=
  { run := feat .alloc, uses := [.item .ParameterList, .item .to_form], signsNow := false }

/-- lib.rs l.103-115 -/
def docBuilder : Example :=
  { run := .and (feat .alloc) (feat .hmacSha1)
    uses := [.item .Credentials, .item .Builder, .item .HmacSha1, .item .Builder_authorizeShorthands]
    signsNow := true }

/-- lib.rs l.140-160, on an item with `#[cfg(feature = "derive")]`. -/
def docDerive : Example :=
  { run := .and (feat .derive) (feat .alloc)
    uses := [.item .deriveRequest, .item .to_form], signsNow := false }

/-- request/parameter_list.rs l.18-30 -/
def docParameterList : Example :=
  { run := feat .alloc, uses := [.item .ParameterList, .item .to_form], signsNow := false }

/-- request.rs l.43-60 -/
def docAssertSorted : Example :=
  { run := feat .alloc, uses := [.item .AssertSorted, .item .to_form], signsNow := false }

/-- serializer.rs l.51-98 -/
def docSerializer : Example :=
  { run := .and (feat .alloc) (feat .hmacSha1)
    uses := [.item .Credentials, .item .Authorizer_authorization, .item .HMAC_SHA1], signsNow := false }

/-- signature_method.rs l.109-131 -/
def docSign : Example :=
  { run := feat .alloc, uses := [.item .signature_method_PLAINTEXT], signsNow := false }

/-- serializer/recorder.rs l.21-52, in a module with `#[cfg(feature = "test")]`. -/
def docRecorder : Example :=
  { run := feat .test
    uses := [.item .recorder_Record, .item .recorder_Recorder, .item .deriveRequest], signsNow := false }

/-- serializer/recorder.rs l.154-161, likewise. -/
def docRecord : Example :=
  { run := feat .test, uses := [.item .recorder_Record, .item .recorder_Recorder], signsNow := false }

/-- oauth-credentials/src/lib.rs l.147-158, 237-248, 265-276, 294-304: `Credentials` and `Token` without
arguments. -/
def docCredentials : Example :=
  { run := .tt, uses := [.item .credentials_Credentials, .item .credentials_Token, .defaultString]
    signsNow := false }

/-- oauth-credentials/src/serde_imp.rs l.28-44, 57-89: `Credentials` without arguments. -/
def docSerde : Example :=
  { run := cred .credentialsSerde
    uses := [.item .credentials_serde_imp, .item .credentials_Credentials, .defaultString]
    signsNow := false }

/-- oauth-credentials/src/serde_imp.rs l.149-179, 192-222: `Credentials<&str>`. -/
def docSerialize : Example :=
  { run := cred .credentialsSerde
    uses := [.item .credentials_serde_imp, .item .credentials_Credentials]
    signsNow := false }

/-- README.md l.20-66, for the default features. It is that of lib.rs but for `oauth::HmacSha1` as the
value of an argument. -/
def docReadme : Example :=
  { run := .and (feat .derive) (.and (feat .hmacSha1) (feat .std))
    uses := [.item .deriveRequest, .item .Token, .item .authorizeShorthands, .item .HmacSha1Value,
      .item .to_form, .item .to_query]
    signsNow := true }

/-- All of them. -/
def examples : List Example :=
  [docCrate, docList, docBuilder, docDerive, docParameterList, docAssertSorted,
    docSerializer, docSign, docRecorder, docRecord, docCredentials, docSerde,
    docSerialize, docReadme]

end OAuth.Build
