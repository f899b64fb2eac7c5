import Verif.Spec.Form
import Verif.Spec.Rfc5849
import Verif.Spec.Uri

/-
Specification: an RFC 5849 server that starts from the HTTP request as received: method, URI (with its
query), `Authorization` header and form body.
-/

namespace OAuth.Spec

/-- URL Standard, "percent-decode": an escape that is malformed stands for itself. -/
def percentDecode : Bytes → Bytes
  | [] => []
  | 0x25 :: h :: l :: rest =>
    match hexVal h, hexVal l with
    | some a, some b => UInt8.ofNat (a * 16 + b) :: percentDecode rest
    | _, _ => 0x25 :: percentDecode (h :: l :: rest)
  | b :: rest => b :: percentDecode rest

/-- `+` stands for a space in forms. -/
def plusToSpace (s : Bytes) : Bytes := s.map fun b => if b = 0x2B then 0x20 else b

/-- URL Standard, "application/x-www-form-urlencoded parsing" (the HTML 4 form format that RFC 5849
section 3.4.1.3.1 refers to): pieces between `&`, empty ones left out, name and value separated by the
first `=`. -/
def urlencoded (s : Bytes) : List (Bytes × Bytes) :=
  ((splitAll 0x26 s).filter fun item => item != []).map fun item =>
    let (k, v) := (splitFirst 0x3D item).getD (item, [])
    (percentDecode (plusToSpace k), percentDecode (plusToSpace v))

/-- What a server gets. `body` is the body if its type is `application/x-www-form-urlencoded`. -/
structure Message where
  method : Bytes
  uri : Uri
  authorization : Option Bytes := none
  body : Option Bytes := none

/-- Section 3.4.1.3.1: all parameters of the message except `realm`. -/
def Message.params (m : Message) : Option (List (Bytes × Bytes)) :=
  let rest := urlencoded (m.uri.query.getD []) ++ urlencoded (m.body.getD [])
  match m.authorization with
  | none => some rest
  | some h => (parseHeader h).map fun ps => (ps.filter fun p => p.1 != b!"realm") ++ rest

/-- Section 3.2: there is one `oauth_signature`, and it fits the base string of the message. -/
def Message.accepted (check : Bytes → Bytes → Bool) (m : Message) : Bool :=
  match m.params with
  | none => false
  | some ps => match single b!"oauth_signature" ps with
    | none => false
    | some sig =>
      check (rfcBase m.method m.uri.baseUri (ps.filter fun p => p.1 != b!"oauth_signature")) sig

/-- Sections 2.1, 2.2 and 3.1: the protocol parameters. -/
def protocolNames : List Bytes :=
  [b!"oauth_callback", b!"oauth_consumer_key", b!"oauth_nonce", b!"oauth_signature",
    b!"oauth_signature_method", b!"oauth_timestamp", b!"oauth_token", b!"oauth_verifier",
    b!"oauth_version"]

/-- Section 3.1: "Each parameter MUST NOT appear more than once per request". -/
def Message.protocolOnce (m : Message) : Bool :=
  match m.params with
  | none => false
  | some ps => protocolNames.all fun n => (ps.map (·.1)).count n ≤ 1

/-- Section 3.4.2. -/
def hmacCheck (H : Bytes → Bytes) (clientSecret : Bytes) (tokenSecret : Option Bytes)
    (base sig : Bytes) : Bool :=
  base64DecodePad base64Alphabet sig == some (hmac H (signingKey clientSecret tokenSecret) base)

end OAuth.Spec
