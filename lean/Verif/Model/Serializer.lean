import Verif.Model.OAuthParameter

/-
serializer.rs: the `Serializer` trait, and util.rs `OAuthParameter::serialize`.
-/

namespace OAuth

/-- serializer.rs l.99-169 trait `Serializer`: `σ` is the implementing type, `ω` its `Output`. -/
structure Serializer (σ ω : Type) where
  parameter : σ → Bytes → Display → M σ
  parameterEncoded : σ → Bytes → Display → M σ
  callback : σ → M σ
  consumerKey : σ → M σ
  nonce : σ → M σ
  signatureMethod : σ → M σ
  timestamp : σ → M σ
  token : σ → M σ
  verifier : σ → M σ
  version : σ → M σ
  «end» : σ → M ω

variable {σ ω : Type}

/-- serializer.rs l.177-188 `SerializerExt::serialize_oauth_parameters`. -/
def Serializer.oauthParameters (S : Serializer σ ω) (s : σ) : M σ := do
  let s ← S.callback s
  let s ← S.consumerKey s
  let s ← S.nonce s
  let s ← S.signatureMethod s
  let s ← S.timestamp s
  let s ← S.token s
  let s ← S.verifier s
  S.version s

/-- util.rs l.152-166 `OAuthParameter::serialize`. -/
def OAuthParameter.serialize (p : OAuthParameter) (S : Serializer σ ω) (s : σ) : M σ :=
  match p with
  | .callback => S.callback s
  | .consumerKey => S.consumerKey s
  | .nonce => S.nonce s
  | .signatureMethod => S.signatureMethod s
  | .timestamp => S.timestamp s
  | .token => S.token s
  | .verifier => S.verifier s
  | .version => S.version s
  | .none => panicM .serializeNone

end OAuth
