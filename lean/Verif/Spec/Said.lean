import Verif.Spec.Auth

/-
Specification: the calls of `Sign` methods by which an algorithm is given a signature base string, as the
documentation of the trait shows them (signature_method.rs l.84-131), with the text of each argument.
-/

namespace OAuth.Spec

/-- A call of a feeding method of the `Sign` trait, with the text of its argument. -/
inductive Said
  | requestMethod (m : Bytes)
  | uri (t : Bytes)
  | parameter (k t : Bytes)
  | delimiter
  | callback (t : Bytes)
  | consumerKey (t : Bytes)
  | nonce (t : Bytes)
  | signatureMethod
  | timestamp (t : Nat)
  | token (t : Bytes)
  | verifier (t : Bytes)
  | version
  deriving DecidableEq

/-- The text of the argument of a call, however many fragments it is displayed in. -/
def SignCall.said : SignCall → Said
  | .requestMethod m => .requestMethod m
  | .uri d => .uri d.text
  | .parameter k d => .parameter k d.text
  | .delimiter => .delimiter
  | .callback d => .callback d.text
  | .consumerKey d => .consumerKey d.text
  | .nonce d => .nonce d.text
  | .signatureMethod => .signatureMethod
  | .timestamp t => .timestamp t
  | .token d => .token d.text
  | .verifier d => .verifier d.text
  | .version => .version

/-- The call for one parameter: a protocol parameter has a method of its own; values are encoded twice
(once if they come encoded). `n` and `t` are the nonce and the time to be used if none is configured. -/
def Call.said? (e : Env) (n : Bytes) (t : Nat) : Call → Option Said
  | .parameter k v => some (.parameter k (encode (encode v.text)))
  | .parameterEncoded k v => some (.parameter k (encode v.text))
  | .oauth .callback => e.options.callback.map fun v => .callback (encode (encode v))
  | .oauth .consumerKey => some (.consumerKey (encode (encode e.consumerKey)))
  | .oauth .nonce =>
    if e.useNonce then some (.nonce (encode (encode (e.options.nonce.getD n)))) else none
  | .oauth .signatureMethod => some .signatureMethod
  | .oauth .timestamp =>
    if e.useTimestamp then some (.timestamp ((e.options.timestamp.map (·.val)).getD t)) else none
  | .oauth .token => e.token.map fun v => .token (encode (encode v))
  | .oauth .verifier => e.options.verifier.map fun v => .verifier (encode (encode v))
  | .oauth .version => if e.options.version then some .version else none

/-- The documented series of calls: the method, the URI, and the parameters with `delimiter` between. -/
def documented (method uri : Bytes) (params : List Said) : List Said :=
  .requestMethod method :: .uri (encode uri) :: params.intersperse .delimiter

/-! ### The name of the algorithm -/

/-- The (key, text) pair a call adds to what is sent if the name of the algorithm is written as it is, and
not percent-encoded. -/
def Call.written? (e : Env) (n : Bytes) (t : Nat) : Call → Option (Bytes × Bytes)
  | .oauth .signatureMethod => some (b!"oauth_signature_method", e.name)
  | c => c.sent? e n t

/-- The same of the signature base string. -/
def Call.fed? (e : Env) (n : Bytes) (t : Nat) : Call → Option (Bytes × Bytes)
  | .oauth .signatureMethod => some (b!"oauth_signature_method", e.name)
  | c => c.signed? e n t

end OAuth.Spec
