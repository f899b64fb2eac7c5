import Verif.Model.Serializer

/-
serializer/recorder.rs: the recording serializer.
-/

namespace OAuth

/-- serializer/recorder.rs l.60-81 `Record<K, V>`; `V` is a displayable value, `K` a string. -/
inductive Record (V : Type)
  | parameter (k : Bytes) (v : V)
  | parameterEncoded (k : Bytes) (v : V)
  | callback | consumerKey | nonce | signatureMethod | timestamp | token | verifier | version
  deriving DecidableEq, Repr

/-- `Display::to_string` (alloc): panics if `fmt` returns an error. -/
def Display.toStringM (d : Display) : Except Panic Bytes :=
  match d.outcome with
  | .ok => .ok d.text
  | .err => .error .fmtUnwrap
  | .panic p => .error p

namespace Recorder

/-- serializer/recorder.rs l.54-56: `Recorder { history }`. -/
abbrev State := List (Record Bytes)

/-- serializer/recorder.rs l.85-87 `new`. -/
def new : State := []

/-- serializer/recorder.rs l.95-149 `Serializer for Recorder`. -/
def serializer : Serializer State State where
  parameter h k v := do
    let t ← v.toStringM
    pure (h ++ [.parameter k t])
  parameterEncoded h k v := do
    let t ← v.toStringM
    pure (h ++ [.parameterEncoded k t])
  callback h := pure (h ++ [.callback])
  consumerKey h := pure (h ++ [.consumerKey])
  nonce h := pure (h ++ [.nonce])
  signatureMethod h := pure (h ++ [.signatureMethod])
  timestamp h := pure (h ++ [.timestamp])
  token h := pure (h ++ [.token])
  verifier h := pure (h ++ [.verifier])
  version h := pure (h ++ [.version])
  «end» h := pure h

/-- serializer/recorder.rs l.162-171 `OAUTH_PARAMETERS`. -/
def oauthParameters : List (Record Bytes) :=
  [.callback, .consumerKey, .nonce, .signatureMethod, .timestamp, .token, .verifier, .version]

end Recorder

/-- External crate `fmt-cmp`: `cmp(a, b)` compares the displayed texts bytewise. -/
def fmtCmp (a b : Display) : Ordering := cmpBytes a.text b.text

/-- serializer/recorder.rs l.174-199 `PartialEq for Record`. -/
def Record.eq (a b : Record Display) : Bool :=
  match a, b with
  | .parameter k1 v1, .parameter k2 v2 => k1 == k2 && fmtCmp v1 v2 == .eq
  | .parameterEncoded k1 v1, .parameterEncoded k2 v2 => k1 == k2 && fmtCmp v1 v2 == .eq
  | .callback, .callback => true
  | .consumerKey, .consumerKey => true
  | .nonce, .nonce => true
  | .signatureMethod, .signatureMethod => true
  | .timestamp, .timestamp => true
  | .token, .token => true
  | .verifier, .verifier => true
  | .version, .version => true
  | _, _ => false

end OAuth
