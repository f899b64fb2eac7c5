import Verif.Model.Basic

/-
util/oauth_parameter.rs: the enumeration that drives the interleaving of `oauth_*` parameters.
-/

namespace OAuth

/-- util/oauth_parameter.rs l.4-14. -/
inductive OAuthParameter
  | callback | consumerKey | nonce | signatureMethod | timestamp | token | verifier | version | none
  deriving DecidableEq, Repr

namespace OAuthParameter

/-- util/oauth_parameter.rs l.17-32 `next`; the `None` arm fails a `debug_assert!`. -/
def next (cfg : Cfg) : OAuthParameter → Except Panic OAuthParameter
  | callback => .ok consumerKey
  | consumerKey => .ok nonce
  | nonce => .ok signatureMethod
  | signatureMethod => .ok timestamp
  | timestamp => .ok token
  | token => .ok verifier
  | verifier => .ok version
  | version => .ok none
  | none => if cfg.debug then .error .nextNone else .ok callback

/-- util/oauth_parameter.rs l.34-46 `as_str`. -/
def asStr : OAuthParameter → Option Bytes
  | callback => some b!"oauth_callback"
  | consumerKey => some b!"oauth_consumer_key"
  | nonce => some b!"oauth_nonce"
  | signatureMethod => some b!"oauth_signature_method"
  | timestamp => some b!"oauth_timestamp"
  | token => some b!"oauth_token"
  | verifier => some b!"oauth_verifier"
  | version => some b!"oauth_version"
  | none => Option.none

/-- util/oauth_parameter.rs l.49-53 `Default`. -/
def default : OAuthParameter := callback

/-- util/oauth_parameter.rs l.64-71 `PartialOrd<str>::partial_cmp` (always `Some`). -/
def cmpStr (p : OAuthParameter) (s : Bytes) : Ordering :=
  match p.asStr with
  | some t => cmpBytes t s
  | Option.none => .gt

/-- `*self < *s`, derived from `partial_cmp`. -/
def ltStr (p : OAuthParameter) (s : Bytes) : Bool := p.cmpStr s == .lt

end OAuthParameter
end OAuth
