import Verif.Model.Request

/-
Specification vocabulary: a request as the sequence of calls it makes on a serializer.
-/

namespace OAuth.Spec

/-- The eight protocol parameters (RFC 5849 section 3.1), in byte order of their names. -/
inductive Proto
  | callback | consumerKey | nonce | signatureMethod | timestamp | token | verifier | version
  deriving DecidableEq, Repr

/-- All of them, in order. -/
def allProto : List Proto :=
  [.callback, .consumerKey, .nonce, .signatureMethod, .timestamp, .token, .verifier, .version]

/-- Their names on the wire. -/
def Proto.name : Proto → Bytes
  | .callback => b!"oauth_callback"
  | .consumerKey => b!"oauth_consumer_key"
  | .nonce => b!"oauth_nonce"
  | .signatureMethod => b!"oauth_signature_method"
  | .timestamp => b!"oauth_timestamp"
  | .token => b!"oauth_token"
  | .verifier => b!"oauth_verifier"
  | .version => b!"oauth_version"

/-- A call of one of the `serialize_*` methods. -/
inductive Call
  | parameter (k : Bytes) (v : Display)
  | parameterEncoded (k : Bytes) (v : Display)
  | oauth (p : Proto)
  deriving DecidableEq, Repr

/-- The effect of a call on a serializer. -/
def Call.run {σ ω : Type} (S : Serializer σ ω) : Call → σ → M σ
  | .parameter k v, s => S.parameter s k v
  | .parameterEncoded k v, s => S.parameterEncoded s k v
  | .oauth .callback, s => S.callback s
  | .oauth .consumerKey, s => S.consumerKey s
  | .oauth .nonce, s => S.nonce s
  | .oauth .signatureMethod, s => S.signatureMethod s
  | .oauth .timestamp, s => S.timestamp s
  | .oauth .token, s => S.token s
  | .oauth .verifier, s => S.verifier s
  | .oauth .version, s => S.version s

/-- The effect of a sequence of calls. -/
def runCalls {σ ω : Type} (S : Serializer σ ω) : List Call → σ → M σ
  | [], s => pure s
  | c :: cs, s => do
    let s ← c.run S s
    runCalls S cs s

/-- `r` makes exactly the calls `cs` on every serializer, and then `end`. -/
def IsTrace (r : Request) (cs : List Call) : Prop :=
  ∀ (σ ω : Type) (S : Serializer σ ω) (s : σ),
    r.serialize S s = (do let s ← runCalls S cs s; S.end s)

/-- The request whose trace is `cs`: the most general well-behaved implementor of the trait. -/
def requestOf (cs : List Call) : Request := ⟨fun S s => do
  let s ← runCalls S cs s
  S.end s⟩

/-- The key a call emits (if the parameter is emitted at all). -/
def Call.key : Call → Bytes
  | .parameter k _ => k
  | .parameterEncoded k _ => k
  | .oauth p => p.name

/-- The protocol parameter a call is about. -/
def Call.proto? : Call → Option Proto
  | .oauth p => some p
  | _ => none

/-- The request pair a call is about, if its value is to be encoded. -/
def Call.pair? : Call → Option (Bytes × Display)
  | .parameter k v => some (k, v)
  | _ => none

/-- The value handed over in a call, if any. -/
def Call.value? : Call → Option Display
  | .parameter _ v => some v
  | .parameterEncoded _ v => some v
  | .oauth _ => none

/-- Every value handed over formats without error. -/
def Call.ok (c : Call) : Prop := ∀ v, c.value? = some v → v.outcome = .ok

end OAuth.Spec
