import Verif.Model.Basic
import Verif.Spec.PercentEncoding

/-
Specification: HMAC (RFC 2104) with a 64-byte block, and the OAuth signing key (RFC 5849
section 3.4.2).
-/

namespace OAuth.Spec

/-- RFC 2104 section 2: the key padded with zeroes to the block size; a longer key is hashed first. -/
def hmacBlockKey (H : Bytes → Bytes) (key : Bytes) : Bytes :=
  let k := if 64 < key.length then H key else key
  k ++ List.replicate (64 - k.length) 0

/-- RFC 2104 section 2: `H(K XOR opad, H(K XOR ipad, text))`. -/
def hmac (H : Bytes → Bytes) (key msg : Bytes) : Bytes :=
  let k := hmacBlockKey H key
  let xor (pad : UInt8) : Bytes := List.zipWith (· ^^^ ·) k (List.replicate k.length pad)
  H (xor 0x5C ++ H (xor 0x36 ++ msg))

/-- RFC 5849 section 3.4.2: the encoded client secret, `&`, and the encoded token secret, "even when
either secret is empty". -/
def signingKey (clientSecret : Bytes) (tokenSecret : Option Bytes) : Bytes :=
  encode clientSecret ++ b!"&" ++ encode (tokenSecret.getD [])

end OAuth.Spec
