import Verif.Vectors
import Verif.Properties.Derive

/-
The tests of oauth1-request-derive, replayed on the model. These are tests of the model, not proofs.
-/

namespace OAuth.Vectors

open Spec Derive

/-- An attribute item `a::b`, `name(..)`. -/
def pathItem (segments : List Bytes) (kind : MetaKind) : Meta :=
  ⟨⟨false, segments.map fun s => (s, false)⟩, kind⟩

def attr (ms : List Meta) : Attribute (List Tok) := oauth1Attr (listToks ms)

def plainTy : Ty := .path false [(b!"T", .none)]
def qualifiedOption : Ty :=
  .path false [(b!"std", .none), (b!"option", .none), (b!"Option", .angleBracketed 1)]
def unqualifiedOption : Ty := .path false [(b!"Option", .angleBracketed 1)]

def field (name : Bytes) (ms : List (List Meta) := []) (ty : Ty := plainTy) : SynField (List Tok) :=
  ⟨ms.map attr, name, ty⟩

def expanded (attrs : List (Attribute (List Tok))) (fs : List (SynField (List Tok))) :
    Option Expansion :=
  (expand cfg tokSyn .manifestDirNotSet (fun _ => true) ⟨attrs, some fs⟩).toOption

def errorsOf (attrs : List (Attribute (List Tok))) (fs : List (SynField (List Tok))) :
    Option (List Err × Bool) :=
  match expanded attrs fs with
  | some (.errors es fallback) => some (es, fallback)
  | _ => none

/-! ### tests/ui -/

/-- tests/ui/attrs.rs l.1-36: the errors of each struct, as in attrs.stderr. -/
example : errorsOf [attr [word b!"unknown"]] [] = some ([.unknown], true) := by decide +kernel
example : errorsOf [attr [pathItem [b!"unknown", b!"path"] .path]] [] = some ([.unknown], true) := by
  decide +kernel
example : errorsOf [attr [nameValue b!"unknown" (.litStr [])]] [] = some ([.unknown], true) := by
  decide +kernel
example : errorsOf [attr [pathItem [b!"unknown", b!"path"] (.nameValue (.litStr []))]] [] =
    some ([.unknown], true) := by decide +kernel
example : errorsOf [attr [pathItem [b!"unknown", b!"path"] .list]] [] = some ([.unknown], true) := by
  decide +kernel
example : errorsOf [attr [word b!"crate"]] [] = some ([.expectedNameValue], true) := by decide +kernel
example : errorsOf [attr [pathItem [b!"crate"] .list]] [] = some ([.expectedNameValue], true) := by
  decide +kernel
example : errorsOf [attr [nameValue b!"crate" (.path b!"oauth1_request")],
      attr [nameValue b!"crate" (.path b!"oauth1_request")]] [] =
    some ([.duplicateAttribute b!"crate"], true) := by decide +kernel
example : errorsOf [attr [nameValue b!"crate" (.path b!"oauth1_request"),
      nameValue b!"crate" (.path b!"oauth1_request")]] [] =
    some ([.duplicateAttribute b!"crate"], true) := by decide +kernel

/-- tests/ui/attrs.rs l.38-99. -/
def attrsFields : List (SynField (List Tok)) :=
  [field b!"non_str_lit" [[nameValue b!"rename" .other]],
   field b!"expected_word_unexpected_name_value" [[nameValue b!"skip" (.litStr [])]],
   field b!"expected_word_unexpected_list" [[pathItem [b!"skip"] .list]],
   field b!"expected_name_value_unexpected_word" [[word b!"skip_if"]],
   field b!"expected_name_value_unexpected_list" [[pathItem [b!"skip_if"] .list]],
   field b!"unknown_word" [[word b!"unknown"]],
   field b!"unknown_path_word" [[pathItem [b!"unknown", b!"path"] .path]],
   field b!"unknown_name_value" [[nameValue b!"unknown" (.litStr [])]],
   field b!"unknown_path_name" [[pathItem [b!"unknown", b!"path"] (.nameValue (.litStr []))]],
   field b!"unknown_list" [[pathItem [b!"unknown"] .list]],
   field b!"unknown_path_list_name" [[pathItem [b!"unknown", b!"path"] .list]],
   field b!"duplicate_word" [[word b!"skip", word b!"skip"]],
   field b!"duplicate_word_2" [[word b!"encoded"], [word b!"encoded"]],
   field b!"duplicate_name_value"
     [[nameValue b!"rename" (.litStr b!"a"), nameValue b!"rename" (.litStr b!"b")]],
   field b!"duplicate_name_value_2"
     [[nameValue b!"rename" (.litStr b!"c")], [nameValue b!"rename" (.litStr b!"d")]],
   field b!"invalid_boolean" [[nameValue b!"option" (.path b!"FALSE")]],
   field b!"invalid_path" [[nameValue b!"fmt" .other]],
   field b!"duplicate",
   field b!"duplicate_renamed" [[nameValue b!"rename" (.litStr b!"duplicate")]],
   field b!"uri_unsafe" [[nameValue b!"rename" (.litStr b!"?")]]]

/-- tests/ui/attrs.stderr l.55-167, in order. -/
example : errorsOf [] attrsFields = some ([.expectedStr, .expectedWord, .expectedWord,
    .expectedNameValue, .expectedNameValue, .unknown, .unknown, .unknown, .unknown, .unknown, .unknown,
    .duplicateAttribute b!"skip", .duplicateAttribute b!"encoded", .duplicateAttribute b!"rename",
    .duplicateAttribute b!"rename", .expectedBool, .expectedPath, .notUriSafe,
    .duplicateParameter b!"duplicate"], true) := by decide +kernel

def rawField (name : Bytes) (args : Option (List Tok)) : SynField (List Tok) :=
  ⟨[⟨⟨false, [(b!"oauth1", false)]⟩, args⟩], name, plainTy⟩

def pathTok (name : Bytes) : Tok := .path ⟨false, [(name, false)]⟩

/-- tests/ui/parse.rs: each of the eleven fields gives one error of the parser. -/
example : errorsOf [] [
    rawField b!"meta_word" none,
    rawField b!"meta_name_value" none,
    rawField b!"meta_list_lit" (some [.expr (.litStr [])]),
    rawField b!"redundant_word" (some [pathTok b!"word", pathTok b!"word"]),
    rawField b!"redundant_words" (some [pathTok b!"word", pathTok b!"word", pathTok b!"word"]),
    rawField b!"redundant_value" (some [pathTok b!"name", .eq, pathTok b!"value", pathTok b!"value"]),
    rawField b!"redundant_values"
      (some [pathTok b!"name", .eq, pathTok b!"value", pathTok b!"value", pathTok b!"value"]),
    rawField b!"missing_value" (some [pathTok b!"name", .eq]),
    rawField b!"empty_head" (some [.comma, pathTok b!"meta"]),
    rawField b!"empty_mid" (some [pathTok b!"meta", .comma, .comma, pathTok b!"meta"]),
    rawField b!"empty_tail" (some [pathTok b!"meta", .comma, .comma])] =
    some (List.replicate 11 .syn, true) := by decide +kernel

/-- tests/ui/fallback_impl.rs: there is an `impl` in spite of the error. -/
example : errorsOf [] [field b!"_field" [[word b!"unknown"]]] = some ([.unknown], true) := by
  decide +kernel

/-! ### tests/pass.rs -/

/-- The functions named in tests/pass.rs. -/
def scope : Scope Val where
  display | .str s => .ofBytes s | .opt _ => ⟨[], .err⟩
  asRef | .opt (some s) => some (.str s) | _ => none
  fmt p v :=
    if p = b!"crate::common::fmt_ignore" then .ofBytes []
    else match v with
      | .str s => .ofBytes s
      | .opt (some s) => .ofBytes s
      | .opt none => .ofBytes []
  pred p v :=
    if p = b!"crate::common::always" || p = b!"<dyn std::any::Any>::is::<&'static str>" then true
    else match v with
      | .str s => s.isEmpty
      | .opt o => o.isNone

/-- tests/common.rs l.61-64: what the derived request records. -/
def recorded (fs : List (SynField (List Tok))) (self : Bytes → Val) : Option Recorder.State :=
  match expanded [] fs with
  | some (.impl _ body) =>
    (((Derive.request scope self body).serialize Recorder.serializer Recorder.new) World.example
      ).toOption.map (·.1)
  | _ => none

/-- tests/pass.rs l.12-22 `OneBeforeOAuth`. -/
example : recorded [field b!"foo"] (fun _ => .str b!"0") =
    some ([.parameter b!"foo" b!"0"] ++ Recorder.oauthParameters) := by decide +kernel

/-- tests/pass.rs l.24-36 `MultipleBeforeOAuth`. -/
example : recorded [field b!"foo", field b!"bar"]
      (fun i => if i = b!"foo" then .str b!"0" else .str b!"false") =
    some ([.parameter b!"bar" b!"false", .parameter b!"foo" b!"0"] ++ Recorder.oauthParameters) := by
  decide +kernel

/-- tests/pass.rs l.38-64 `OneBeforeAndAfterOAuth` and `OneBeforeAndAfterOAuthRev`. -/
example : ∀ fs ∈ [[field b!"baz", field b!"qux"], [field b!"qux", field b!"baz"]],
    recorded fs (fun i => if i = b!"baz" then .str [0] else .str b!"0") =
      some ([.parameter b!"baz" [0]] ++ Recorder.oauthParameters ++ [.parameter b!"qux" b!"0"]) := by
  decide +kernel

/-- tests/pass.rs l.66-83 `OAuthPrefix`. -/
example : recorded [field b!"oauth_prefix"] (fun _ => .str b!"0") =
    some [.callback, .consumerKey, .nonce, .parameter b!"oauth_prefix" b!"0", .signatureMethod,
      .timestamp, .token, .verifier, .version] := by decide +kernel

/-- tests/pass.rs l.85-95 `OneAfterOAuth`. -/
example : recorded [field b!"qux"] (fun _ => .str b!"0") =
    some (Recorder.oauthParameters ++ [.parameter b!"qux" b!"0"]) := by decide +kernel

/-- tests/pass.rs l.97-109 `MultipleAfterOAuth`. -/
example : recorded [field b!"qux", field b!"quux"]
      (fun i => if i = b!"quux" then .str b!"quux" else .str b!"0") =
    some (Recorder.oauthParameters ++ [.parameter b!"quux" b!"quux", .parameter b!"qux" b!"0"]) := by
  decide +kernel

/-- tests/pass.rs l.111-118 `Empty`. -/
example : recorded [] (fun _ => .str []) = some Recorder.oauthParameters := by decide +kernel

/-- tests/pass.rs l.186-240 `FieldAttrs`. -/
def fieldAttrs : List (SynField (List Tok)) :=
  [field b!"percent_encoded" [[word b!"encoded"]],
   field b!"flag" [[nameValue b!"rename" (.litStr b!"FLAG")]],
   field b!"_marker" [[], [word b!"skip"]] .other,
   field b!"some" [[nameValue b!"skip_if" (.path b!"std::option::Option::is_none"),
     nameValue b!"fmt" (.path b!"super::fmt_option_str")]] qualifiedOption,
   field b!"some_2" [[nameValue b!"option" (.litBool true)]] qualifiedOption,
   field b!"none" [[nameValue b!"option" (.litBool true)]] qualifiedOption,
   field b!"option_fmt" [[nameValue b!"option" (.litBool true),
     nameValue b!"fmt" (.path b!"crate::common::fmt_ignore")]] qualifiedOption,
   field b!"option_false" [[nameValue b!"option" (.litBool false),
     nameValue b!"fmt" (.path b!"crate::common::fmt_ignore")]] unqualifiedOption,
   field b!"trait_item" [[nameValue b!"skip_if" (.path b!"<dyn std::any::Any>::is::<&'static str>")],
     [nameValue b!"fmt" (.path b!"std::fmt::Debug::fmt")]],
   field b!"qualified_path" [[nameValue b!"skip_if" (.path b!"<[u8]>::is_empty")],
     [nameValue b!"fmt" (.path b!"std::fmt::Debug::fmt")]] .other,
   field b!"ty_param" [[nameValue b!"skip_if" (.path b!"crate::common::always"),
     nameValue b!"fmt" (.path b!"crate::common::fmt_ignore")]],
   field b!"deref_arg" [[nameValue b!"skip_if" (.path b!"str::is_empty")],
     [nameValue b!"fmt" (.path b!"crate::common::fmt_str")]] .other]

/-- The values of its fields; `option_false: Option<()>` is not the `Option` of the prelude there. -/
def fieldAttrsSelf (i : Bytes) : Val :=
  if i = b!"percent_encoded" then .str b!"%20"
  else if i = b!"flag" then .str b!"false"
  else if i = b!"some" || i = b!"some_2" then .opt (some b!"option")
  else if i = b!"none" then .opt none
  else if i = b!"option_fmt" then .opt (some b!"option_fmt")
  else .str []

example : recorded fieldAttrs fieldAttrsSelf =
    some ([.parameter b!"FLAG" b!"false"] ++ Recorder.oauthParameters ++
      [.parameter b!"option_false" [], .parameter b!"option_fmt" [],
       .parameterEncoded b!"percent_encoded" b!"%20", .parameter b!"some" b!"option",
       .parameter b!"some_2" b!"option"]) := by decide +kernel

/-- tests/pass.rs l.303-309 `WeirdAttrs`: a foreign attribute with a path, and a trailing comma. -/
example : expanded [] [⟨[⟨⟨false, [(b!"rustfmt", false), (b!"skip", false)]⟩, none⟩,
      oauth1Attr [pathTok b!"skip", .comma]], b!"_trailing_comma", .other⟩] = expanded [] [] ∧
    (expanded [] []).isSome = true := by decide +kernel

/-- tests/pass.rs l.180-184 `Crate`. -/
example : (match expanded [attr [nameValue b!"crate" (.path b!"oauth")]] [] with
    | some (.impl i _) => some i
    | _ => none) = some (.use b!"oauth") := by decide +kernel

end OAuth.Vectors
