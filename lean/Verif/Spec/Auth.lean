import Verif.Model.Builder
import Verif.Spec.Calls
import Verif.Spec.PercentEncoding
import Verif.Spec.SignCalls

/-
Specification of what an authorizing serializer emits: the protocol parameters of RFC 5849 section 3.1
with their values, and the text each call contributes to the signature base string (section 3.4.1).
-/

namespace OAuth.Spec

/-- What an authorizer is configured with, and the constants of its signing algorithm. -/
structure Env where
  consumerKey : Bytes
  token : Option Bytes
  options : Options
  name : Bytes
  useNonce : Bool
  useTimestamp : Bool

/-- The value of a protocol parameter; `none` if it is not to be sent. `n` and `t` are the nonce and
the time to be used if none is configured. -/
def Env.value (e : Env) (n : Bytes) (t : Nat) : Proto → Option Bytes
  | .callback => e.options.callback
  | .consumerKey => some e.consumerKey
  | .nonce => if e.useNonce then some (e.options.nonce.getD n) else none
  | .signatureMethod => some e.name
  | .timestamp =>
    if e.useTimestamp then some (decimal ((e.options.timestamp.map (·.val)).getD t)) else none
  | .token => e.token
  | .verifier => e.options.verifier
  | .version => if e.options.version then some b!"1.0" else none

/-- The (key, encoded value) pair a call adds to the header or form that is sent. -/
def Call.sent? (e : Env) (n : Bytes) (t : Nat) : Call → Option (Bytes × Bytes)
  | .oauth p => (e.value n t p).map fun v => (p.name, encode v)
  | _ => none

/-- The key and the text of its value that a call adds to the signature base string: the value
encoded once for the normalized parameter string and once more as part of the base string. -/
def Call.signed? (e : Env) (n : Bytes) (t : Nat) : Call → Option (Bytes × Bytes)
  | .parameter k v => some (k, encode (encode v.text))
  | .parameterEncoded k v => some (k, encode v.text)
  | .oauth p => (e.value n t p).map fun v => (p.name, encode (encode v))

/-- Whether a protocol parameter is sent. -/
def Env.sends (e : Env) : Proto → Bool
  | .callback => e.options.callback.isSome
  | .consumerKey => true
  | .nonce => e.useNonce
  | .signatureMethod => true
  | .timestamp => e.useTimestamp
  | .token => e.token.isSome
  | .verifier => e.options.verifier.isSome
  | .version => e.options.version

/-- The key a call emits, if it emits any. -/
def Call.emitted (e : Env) : Call → Option Bytes
  | .parameter k _ => some k
  | .parameterEncoded k _ => some k
  | .oauth p => if e.sends p then some p.name else none

/-- A parameter in the base string: `key%3Dvalue`. -/
def signedItem (kv : Bytes × Bytes) : Bytes := kv.1 ++ b!"%3D" ++ kv.2

/-- The base string of a method, a URI text and parameters. -/
def baseString (method uri : Bytes) (params : List (Bytes × Bytes)) : Bytes :=
  method ++ b!"&" ++ encode uri ++ b!"&" ++ join b!"%26" (params.map signedItem)

/-- The header: items `key="value",`. -/
def headerItem (kv : Bytes × Bytes) : Bytes := kv.1 ++ b!"=\"" ++ kv.2 ++ b!"\","

/-- A form item: `key=value`. -/
def formItem (kv : Bytes × Bytes) : Bytes := kv.1 ++ b!"=" ++ kv.2

end OAuth.Spec

namespace OAuth

open Spec

/-- What the authorizer of a builder is configured with. -/
def Builder.env {S : Type} (b : Builder S) (name : Bytes) (useNonce useTimestamp : Bool) : Env where
  consumerKey := b.client.identifier
  token := b.token.map (·.identifier)
  options := b.options
  name := name
  useNonce := useNonce
  useTimestamp := useTimestamp

end OAuth
