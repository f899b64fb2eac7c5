import Verif.Spec.Wire

/-
Specification: what a server that follows RFC 5849 compares with `oauth_signature` under PLAINTEXT.
-/

namespace OAuth.Spec

/-- Section 3.4.4: the signature is the encoded client secret, `&` and the encoded token secret (which
is empty if there is none). The base string is not used. -/
def plaintextCheck (clientSecret : Bytes) (tokenSecret : Option Bytes) (_base sig : Bytes) : Bool :=
  sig == encode clientSecret ++ b!"&" ++ encode (tokenSecret.getD [])

end OAuth.Spec
