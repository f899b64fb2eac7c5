import Verif.Spec.Base64
import Verif.Spec.Hmac
import Verif.Spec.Order
import Verif.Spec.Parse

/-
Specification: how a server verifies an HMAC-SHA1 signature (RFC 5849 sections 3.2, 3.4.1 and 3.4.2),
from the text of the RFC and independently of how the crate makes one.
-/

namespace OAuth.Spec

instance (a b : Bytes × Bytes) : Decidable (pairLe a b) :=
  inferInstanceAs (Decidable (a.1 < b.1 ∨ (a.1 = b.1 ∧ a.2 ≤ b.2)))

/-- Inserts before the first pair that is not smaller. -/
def insertPair (p : Bytes × Bytes) : List (Bytes × Bytes) → List (Bytes × Bytes)
  | [] => [p]
  | q :: l => if pairLe p q then p :: q :: l else q :: insertPair p l

/-- Sorts pairs by name and then by value. -/
def sortPairs (l : List (Bytes × Bytes)) : List (Bytes × Bytes) := l.foldr insertPair []

/-- Section 3.4.1.3.2: encode names and values, sort by encoded name and then by encoded value, join
name and value with `=` and the pairs with `&`. -/
def normalizedParams (ps : List (Bytes × Bytes)) : Bytes :=
  join b!"&" ((sortPairs (ps.map fun p => (encode p.1, encode p.2))).map fun p => p.1 ++ b!"=" ++ p.2)

/-- ASCII upper case. -/
def upper (s : Bytes) : Bytes := s.map fun b => if 0x61 ≤ b && b ≤ 0x7A then b - 0x20 else b

/-- Section 3.4.1.1: the upper-case method, the base string URI (given) and the parameters, each
encoded, joined with `&`. -/
def rfcBase (method uri : Bytes) (ps : List (Bytes × Bytes)) : Bytes :=
  encode (upper method) ++ b!"&" ++ encode uri ++ b!"&" ++ encode (normalizedParams ps)

/-- Section 3.4.1.3.1: parameters of the `Authorization` header except `realm`, and those of the query
and body, except `oauth_signature` everywhere. -/
def collectParams (header own : List (Bytes × Bytes)) : List (Bytes × Bytes) :=
  ((header.filter fun p => p.1 != b!"realm") ++ own).filter fun p => p.1 != b!"oauth_signature"

/-- The value of a parameter that occurs exactly once. -/
def single (name : Bytes) (ps : List (Bytes × Bytes)) : Option Bytes :=
  match ps.filter (fun p => p.1 == name) with
  | [p] => some p.2
  | _ => none

/-- Section 3.2: the signature in the header is that recomputed from what was received. `own` are the
parameters in query and body, in the order they were received; `H` is the hash function. -/
def rfcVerify (H : Bytes → Bytes) (clientSecret : Bytes) (tokenSecret : Option Bytes)
    (method uri header : Bytes) (own : List (Bytes × Bytes)) : Bool :=
  match parseHeader header with
  | none => false
  | some ps => match single b!"oauth_signature" ps with
    | none => false
    | some sig => base64DecodePad base64Alphabet sig ==
        some (hmac H (signingKey clientSecret tokenSecret) (rfcBase method uri (collectParams ps own)))

/-- The same for any signature method: `check` compares the signature received with the base string. -/
def rfcVerifyBy (check : Bytes → Bytes → Bool) (method uri header : Bytes)
    (own : List (Bytes × Bytes)) : Bool :=
  match parseHeader header with
  | none => false
  | some ps => match single b!"oauth_signature" ps with
    | none => false
    | some sig => check (rfcBase method uri (collectParams ps own)) sig

/-- Section 3.4.3: the base64 text is decoded, and the result is a signature of the digest of the base
string according to the client's public key. -/
def rsaCheck (H : Bytes → Bytes) (verify : Bytes → Bytes → Bool) (base sig : Bytes) : Bool :=
  match base64DecodePad base64Alphabet sig with
  | none => false
  | some s => verify (H base) s

/-- The name of the parameter needs no encoding, and a value that was encoded by the caller is the
encoding (section 3.6) of some value. -/
def Call.canonical : Call → Prop
  | .parameter k _ => ∀ b ∈ k, unreserved b = true
  | .parameterEncoded k v => (∀ b ∈ k, unreserved b = true) ∧ ∃ d, v.text = encode d
  | .oauth _ => True

/-- The request parameter that a recipient of the request itself (query or body) gets from a call. -/
def Call.own? : Call → Option (Bytes × Bytes)
  | .parameter k v => some (k, v.text)
  | .parameterEncoded k v => (decode v.text).map fun d => (k, d)
  | .oauth _ => none

end OAuth.Spec
