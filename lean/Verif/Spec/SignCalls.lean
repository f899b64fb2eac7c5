import Verif.Model.SignatureMethod
import Verif.Spec.PercentEncoding

/-
Specification vocabulary: what a signing algorithm is fed, as a sequence of `Sign` trait calls, and
the piece of signature base string each call stands for (documentation of trait `Sign`,
signature_method.rs l.84-131 and l.140-153).
-/

namespace OAuth.Spec

/-- A call of a feeding method of the `Sign` trait. -/
inductive SignCall
  | requestMethod (m : Bytes)
  | uri (d : Display)
  | parameter (k : Bytes) (d : Display)
  | delimiter
  | callback (d : Display)
  | consumerKey (d : Display)
  | nonce (d : Display)
  | signatureMethod
  | timestamp (t : Nat)
  | token (d : Display)
  | verifier (d : Display)
  | version
  deriving DecidableEq

/-- The effect of a call. -/
def SignCall.run {S : Type} (sg : Sign S) : SignCall → S → Except Panic S
  | .requestMethod m, s => sg.requestMethod s m
  | .uri d, s => sg.uri s d
  | .parameter k d, s => sg.parameter s k d
  | .delimiter, s => sg.delimiter s
  | .callback d, s => sg.callback s d
  | .consumerKey d, s => sg.consumerKey s d
  | .nonce d, s => sg.nonce s d
  | .signatureMethod, s => sg.signatureMethod s
  | .timestamp t, s => sg.timestamp s t
  | .token d, s => sg.token s d
  | .verifier d, s => sg.verifier s d
  | .version, s => sg.version s

/-- The effect of a sequence of calls. -/
def runSign {S : Type} (sg : Sign S) : List SignCall → S → Except Panic S
  | [], s => .ok s
  | c :: cs, s => do
    let s ← c.run sg s
    runSign sg cs s

/-- The piece of signature base string a call represents; `name` is the signature method's name. -/
def SignCall.render (name : Bytes) : SignCall → Bytes
  | .requestMethod m => m ++ b!"&"
  | .uri d => d.text ++ b!"&"
  | .parameter k d => k ++ b!"%3D" ++ d.text
  | .delimiter => b!"%26"
  | .callback d => b!"oauth_callback%3D" ++ d.text
  | .consumerKey d => b!"oauth_consumer_key%3D" ++ d.text
  | .nonce d => b!"oauth_nonce%3D" ++ d.text
  | .signatureMethod => b!"oauth_signature_method%3D" ++ name
  | .timestamp t => b!"oauth_timestamp%3D" ++ decimal t
  | .token d => b!"oauth_token%3D" ++ d.text
  | .verifier d => b!"oauth_verifier%3D" ++ d.text
  | .version => b!"oauth_version%3D1.0"

/-- How formatting the argument of a call ends. -/
def SignCall.outcome : SignCall → Outcome
  | .uri d => d.outcome
  | .parameter _ d => d.outcome
  | .callback d => d.outcome
  | .consumerKey d => d.outcome
  | .nonce d => d.outcome
  | .token d => d.outcome
  | .verifier d => d.outcome
  | _ => .ok

end OAuth.Spec
