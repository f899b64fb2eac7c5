import Verif.Model.Authorization
import Verif.Model.Base64
import Verif.Model.Credentials
import Verif.Model.ParameterList
import Verif.Model.PercentEncoding
import Verif.Model.Serde
import Verif.Model.Sha1
import Verif.Model.Utf8

/-
examples/src/server/handler.rs and main.rs: the example server, with the parts of the external crates
`percent-encoding`, `form_urlencoded` and `serde_urlencoded` it uses. Logging is omitted.
-/

namespace OAuth.Server

/-- External code the model leaves open, with what is assumed of it. -/
structure Lib where
  /-- whether `nom::bytes::complete::escaped_transform` accepts empty text -/
  emptyOk : Bool
  /-- `base64::decode_config(s, STANDARD)` -/
  base64Decode : Bytes → Option Bytes
  base64Decode_encode : ∀ s, base64Decode (base64Standard s) = some s
  base64Decode_length : ∀ s d, base64Decode s = some d → d.length ≤ (s.length + 3) / 4 * 3
  /-- `<[T]>::sort_unstable` -/
  sort : SortFn
  /-- `<[T]>::binary_search_by_key` on the keys, after `unwrap_or_else(|i| i)` -/
  search : List Bytes → Bytes → Nat
  search_le : ∀ (ks : List Bytes) (k : Bytes), search ks k ≤ ks.length
  /-- std: in a sorted slice, the index of any equal element if there is one, -/
  search_found : ∀ (ks : List Bytes) (k : Bytes), ks.Pairwise (fun a b => bytesLe a b = true) → k ∈ ks →
    ks[search ks k]? = some k
  /-- and otherwise the index at which it could be inserted. -/
  search_missing : ∀ (ks : List Bytes) (k : Bytes), ks.Pairwise (fun a b => bytesLe a b = true) → k ∉ ks →
    (∀ x ∈ ks.take (search ks k), cmpBytes x k = .lt) ∧
      ∀ x ∈ ks.drop (search ks k), cmpBytes x k = .gt

open Utf8 (valid lossy)

/-- `char::to_digit(16)`, as `percent-encoding` uses it. -/
def toDigit16 (b : UInt8) : Option Nat :=
  if 48 ≤ b.toNat ∧ b.toNat ≤ 57 then some (b.toNat - 48)
  else if 97 ≤ b.toNat ∧ b.toNat ≤ 102 then some (b.toNat - 87)
  else if 65 ≤ b.toNat ∧ b.toNat ≤ 70 then some (b.toNat - 55)
  else none

/-- External crate `percent-encoding`: `after_percent_sign`, with the rest of the input. -/
def afterPercentSign : Bytes → Option (UInt8 × Bytes)
  | h :: l :: rest => match toDigit16 h, toDigit16 l with
    | some h, some l => some (UInt8.ofNat (h * 16 + l), rest)
    | _, _ => none
  | _ => none

/-- External crate `percent-encoding`: the iterator `PercentDecode`; a malformed escape stands for
itself. -/
def percentDecodeAux : Nat → Bytes → Bytes
  | _, [] => []
  | 0, _ :: _ => []
  | fuel + 1, b :: rest =>
    if b = 0x25 then match afterPercentSign rest with
      | some (c, rest) => c :: percentDecodeAux fuel rest
      | none => b :: percentDecodeAux fuel rest
    else b :: percentDecodeAux fuel rest

def percentDecode (s : Bytes) : Bytes := percentDecodeAux s.length s

/-- External crate `percent-encoding`: `PercentDecode::if_any` is `Some`, that is, `Cow<[u8]>` is
`Owned`. -/
def hasEscape : Bytes → Bool
  | [] => false
  | b :: rest => (b == 0x25 && (afterPercentSign rest).isSome) || hasEscape rest

/-- External crate `percent-encoding`: `percent_decode(s).decode_utf8_lossy()`. Borrowed if nothing was
decoded and nothing replaced. -/
def decodeUtf8Lossy (s : Bytes) : Cow :=
  if !hasEscape s && valid s then .borrowed s else .owned (lossy (percentDecode s))

/-- `<[u8]>::split` at a byte. -/
def splitOn (sep : UInt8) : Bytes → List Bytes
  | [] => [[]]
  | b :: rest =>
    if b == sep then [] :: splitOn sep rest
    else match splitOn sep rest with
      | p :: ps => (b :: p) :: ps
      | [] => [[b]]

/-- External crate `form_urlencoded`: `decode` with `replace_plus`. -/
def formDecode (s : Bytes) : Bytes :=
  lossy (percentDecode (s.map fun b => if b == 0x2B then 0x20 else b))

/-- External crate `form_urlencoded`: one sequence; the part before the first `=` and that after it. -/
def formPair (s : Bytes) : Bytes × Bytes :=
  (formDecode (s.takeWhile (· != 0x3D)), formDecode ((s.dropWhile (· != 0x3D)).drop 1))

/-- External crate `form_urlencoded`: all pairs of `parse(s)`. Empty sequences are skipped. -/
def formParse (s : Bytes) : List (Bytes × Bytes) :=
  ((splitOn 0x26 s).filter (fun p => !p.isEmpty)).map (formPair)

/-- handler.rs l.16-19 `CLIENT`. -/
def CLIENT : Credentials Bytes := ⟨b!"client", b!"client_secret"⟩

/-- handler.rs l.20-23 `REQUEST`. -/
def REQUEST : Credentials Bytes := ⟨b!"request", b!"request_secret"⟩

/-- handler.rs l.24 `VERIFIER`. -/
def VERIFIER : Bytes := b!"verifier"

/-- handler.rs l.25-28 `TOKEN`. -/
def TOKEN : Credentials Bytes := ⟨b!"token", b!"token_secret"⟩

/-- handler.rs l.30 `SCHEME`. -/
def SCHEME : Bytes := b!"http"

/-- handler.rs l.31 `AUTHORITY`. -/
def AUTHORITY : Bytes := b!"127.0.0.1:8080"

/-- handler.rs l.42 `APPLICATION_WWW_FORM_URLENCODED`. -/
def formType : Bytes := b!"application/x-www-form-urlencoded"

/-- handler.rs l.44-53 `OAuthParams`. -/
structure OAuthParams where
  consumerKey : Bytes
  token : Option Bytes
  signatureMethod : Bytes
  timestamp : Option Nat
  nonce : Option Bytes
  signature : Bytes
  callback : Option Bytes
  verifier : Option Bytes
  deriving DecidableEq, Repr

/-- handler.rs l.56 `Parameter`. -/
abbrev Parameter := Bytes × Bytes

/-- What the server looks at of a `http::Request<Body>`. -/
structure HttpRequest where
  method : Bytes
  path : Bytes
  query : Option Bytes
  /-- all values of `Authorization` -/
  authorization : List Bytes
  /-- the first value of `Content-Type` -/
  contentType : Option Bytes
  /-- `none` if reading the body fails -/
  body : Option Bytes
  deriving DecidableEq, Repr

/-- A response. -/
structure Response where
  status : Nat
  body : Bytes
  deriving DecidableEq, Repr

/-- `Response::builder().status(code).body(Body::default()).unwrap()`. -/
def Response.ofStatus (code : Nat) : Response := ⟨code, []⟩

/-- handler.rs l.368-378: one item of a header, decoded. -/
def decodeParam (k : Bytes) (v : Cow) : Except Panic Parameter :=
  let k := (decodeUtf8Lossy k).bytes
  match v with
  | .borrowed v => .ok (k, (decodeUtf8Lossy v).bytes)
  | .owned v => match decodeUtf8Lossy v with
    | .borrowed _ => if valid v then .ok (k, v) else .error .server
    | .owned v => .ok (k, v)

/-- handler.rs l.355-388 `collect_auth_params`. The inner `none` is `Err`. -/
def collectAuthParams (L : Lib) : List Bytes → Except Panic (Option (List Parameter))
  | [] => .ok (some [])
  | v :: vs =>
    match authScheme v with
    | .ok (authParams, scheme) =>
      if scheme = b!"OAuth" then
        if authParams = [] then .ok (some [])
        else if authParams.head? ≠ some 0x20 then .ok none
        else do
          let (items, iter) ← (hash (authParams.drop 1) (authParam L.emptyOk)).drain
            (authParams.length + 1)
          let ret ← items.mapM fun kv => decodeParam kv.1 kv.2
          match iter.finish with
          | .ok ([], ()) => pure (some ret)
          | _ => pure none
      else collectAuthParams L vs
    | .error _ => collectAuthParams L vs

/-- `<(Cow<str>, Cow<str>) as Ord>::cmp`. -/
def cmpParam (a b : Parameter) : Ordering := (cmpBytes a.1 b.1).then (cmpBytes a.2 b.2)

/-- handler.rs l.338-352 `collect_params`. -/
def collectParams (L : Lib) (req : HttpRequest) (form : Bytes) :
    Except Panic (Option (List Parameter)) := do
  let query := req.query.getD []
  match ← collectAuthParams L req.authorization with
  | none => pure none
  | some params => pure (some (L.sort.run cmpParam (params ++ (formParse form ++ formParse query))))

/-- handler.rs l.401-418 `get`: the value and the remaining iterator. -/
def get (key : Bytes) : List Parameter → Option Bytes × List Parameter
  | [] => (none, [])
  | (k, v) :: rest =>
    if k = key then (some v, rest)
    else if cmpBytes k key = .gt then (none, (k, v) :: rest)
    else get key rest

/-- core: the digits of `u64::from_str`, checked for overflow. -/
def parseDigits : Nat → Bytes → Option Nat
  | acc, [] => some acc
  | acc, b :: rest =>
    if 48 ≤ b.toNat ∧ b.toNat ≤ 57 then
      let acc := acc * 10 + (b.toNat - 48)
      if acc < 2 ^ 64 then parseDigits acc rest else none
    else none

/-- core: `<u64 as FromStr>::from_str`. A leading `+` is allowed. -/
def parseU64 : Bytes → Option Nat
  | [] => none
  | 0x2B :: rest => if rest = [] then none else parseDigits 0 rest
  | s => parseDigits 0 s

/-- handler.rs l.393-464 `collect_oauth_params`; an error is a status code. -/
def collectOAuthParams (L : Lib) (params : List Parameter) :
    Except Panic (Except Nat OAuthParams) :=
  let i := L.search (params.map (·.1)) b!"oauth_callback"
  if params.length < i then .error .outOfBounds
  else
    let params := params.drop i
    let (callback, params) := get b!"oauth_callback" params
    match get b!"oauth_consumer_key" params with
    | (none, _) => .ok (.error 401)
    | (some consumerKey, params) =>
      let (nonce, params) := get b!"oauth_nonce" params
      match get b!"oauth_signature" params with
      | (none, _) => .ok (.error 400)
      | (some signature, params) =>
        match get b!"oauth_signature_method" params with
        | (none, _) => .ok (.error 400)
        | (some signatureMethod, params) =>
          let rest (timestamp : Option Nat) (params : List Parameter) : OAuthParams :=
            let (token, params) := get b!"oauth_token" params
            let (verifier, _) := get b!"oauth_verifier" params
            { consumerKey, token, signatureMethod, timestamp, nonce, signature, callback, verifier }
          match get b!"oauth_timestamp" params with
          | (none, params) => .ok (.ok (rest none params))
          | (some v, params) => match parseU64 v with
            | none => .ok (.error 400)
            | some t => .ok (.ok (rest (some t) params))

/-- `write!(ret, "{}", percent_encode(s, &RESERVED))`. -/
def pct (s : Bytes) : Bytes := (percentEncodeStr s).text

/-- `str::to_ascii_uppercase`. -/
def toAsciiUppercase (s : Bytes) : Bytes :=
  s.map fun b => if 97 ≤ b.toNat ∧ b.toNat ≤ 122 then b - 32 else b

/-- `str::rfind(':')`. -/
def rfindColon (s : Bytes) : Option Nat :=
  let after := s.reverse.takeWhile (· != 0x3A)
  if after.length = s.length then none else some (s.length - after.length - 1)

/-- External crate `http`: `Authority::port_u16`, the `u16` that stands behind the last colon (`str::parse`). -/
def portU16 (authority : Bytes) : Option Nat :=
  (rfindColon authority).bind fun i => (parseU64 (authority.drop (i + 1))).filter (· < 2 ^ 16)

/-- handler.rs l.480-489: the authority without a default port. The `unwrap` in it does not fail, as there is a
colon before the port. -/
def baseAuthority (scheme authority : Bytes) : Bytes :=
  match portU16 authority with
  | some port =>
    if (scheme, port) = (b!"http", 80) ∨ (scheme, port) = (b!"https", 443) then
      ((rfindColon authority).map authority.take).getD []
    else authority
  | none => authority

/-- handler.rs l.494-511: the loop over parameters. -/
def baseParams : Bool → List Parameter → Bytes
  | _, [] => []
  | first, (k, v) :: rest =>
    if k = b!"oauth_signature" then baseParams first rest
    else (if first then [] else b!"%26") ++ pct (pct k) ++ b!"%3D" ++ pct (pct v) ++
      baseParams false rest

/-- handler.rs l.470-514 `create_base_string`, for any values of the constants `SCHEME` and `AUTHORITY`. -/
def createBaseStringAt (scheme authority : Bytes) (req : HttpRequest) (params : List Parameter) : Bytes :=
  pct (toAsciiUppercase req.method) ++ b!"&" ++ pct scheme ++ b!"%3A%2F%2F" ++
    pct (baseAuthority scheme authority) ++ pct req.path ++ b!"&" ++ baseParams true params

/-- handler.rs l.470-514 `create_base_string`. -/
def createBaseString (req : HttpRequest) (params : List Parameter) : Bytes :=
  createBaseStringAt SCHEME AUTHORITY req params

/-- `t + 30` on `u64`: checked in debug builds, wrapping in release builds. -/
def addWindow (cfg : Cfg) (t : Nat) : Except Panic Nat :=
  if t + 30 < 2 ^ 64 then .ok (t + 30)
  else if cfg.debug then .error .overflow else .ok ((t + 30) % 2 ^ 64)

/-- handler.rs l.192-198: the check of the timestamp. -/
def checkTimestamp (cfg : Cfg) (now : Nat) (o : OAuthParams) : Except Panic (Except Nat Unit) :=
  match o.timestamp with
  | none => .ok (.ok ())
  | some t => do
    if (← addWindow cfg t) < now then pure (.error 401) else pure (.ok ())

/-- handler.rs l.200-224: what is expected is there, and nothing else. -/
def checkPresence {α β : Type} (expected : Option α) (found : Option β) : Except Nat Unit :=
  match expected, found with
  | some _, some _ => .ok ()
  | none, none => .ok ()
  | some _, none => .error 401
  | none, some _ => .error 400

/-- handler.rs l.263-273: the key of the MAC. -/
def macKey (client : Credentials Bytes) (token : Option (Credentials Bytes)) : Bytes :=
  client.secret ++ b!"&" ++ match token with
    | some t => t.secret
    | none => []

/-- handler.rs l.227-287: `HMAC-SHA1`. -/
def checkHmacSha1 (L : Lib) (req : HttpRequest) (params : List Parameter) (o : OAuthParams)
    (client : Credentials Bytes) (token : Option (Credentials Bytes)) : Except Panic (Except Nat Unit) :=
  if o.timestamp.isNone || o.nonce.isNone then .ok (.error 400)
  else if o.signature.length > 21 / 3 * 4 then .ok (.error 400)
  else match L.base64Decode o.signature with
    | none => .ok (.error 400)
    | some signature =>
      -- `decode_config_slice` panics if its buffer is too small
      if signature.length > 21 then .error .outOfBounds
      else if signature.length ≠ 20 then .ok (.error 400)
      else
        let mac := Hmac.newFromSlice Sha1.hash (macKey client token)
        let base := createBaseString req params
        let code := (mac.update base).finalize Sha1.hash
        if signature ≠ code then .ok (.error 401) else .ok (.ok ())

/-- handler.rs l.288-304: `PLAINTEXT`. The parser runs, but a mismatch is only logged. -/
def checkPlaintext : Except Nat Unit := .ok ()

/-- handler.rs l.315-332: identifiers and verifier. -/
def checkIdentifiers (o : OAuthParams) (client : Credentials Bytes)
    (token : Option (Credentials Bytes)) (verifier : Option Bytes) : Except Nat Unit :=
  if client.identifier ≠ o.consumerKey then .error 401
  else match token, o.token with
    | some token, some t => if token.identifier ≠ t then .error 401 else checkVerifier
    | _, _ => checkVerifier
where
  checkVerifier : Except Nat Unit := match verifier, o.verifier with
    | some verifier, some v => if verifier ≠ v then .error 401 else .ok ()
    | _, _ => .ok ()

/-- Continues after a check that may end with a status code. -/
def andThen (x : Except Nat Unit) (f : Except Panic (Except Nat Unit)) : Except Panic (Except Nat Unit) :=
  match x with
  | .error code => .ok (.error code)
  | .ok () => f

/-- handler.rs l.178-334 `inner`. `now` is `none` if the clock is before the epoch. -/
def inner (L : Lib) (cfg : Cfg) (now : Option Nat) (req : HttpRequest) (params : List Parameter)
    (o : OAuthParams) (client : Credentials Bytes) (token : Option (Credentials Bytes))
    (verifier : Option Bytes) : Except Panic (Except Nat Unit) :=
  match now with
  | none => .error .server
  | some now => do
    let t ← checkTimestamp cfg now o
    andThen t <| andThen (checkPresence token o.token) <|
      andThen (checkPresence verifier o.verifier) <| do
        let s ← if o.signatureMethod = b!"HMAC-SHA1" then checkHmacSha1 L req params o client token
          else if o.signatureMethod = b!"PLAINTEXT" then .ok checkPlaintext
          else .ok (.error 400)
        andThen s (.ok (checkIdentifiers o client token verifier))

/-- handler.rs l.138-145: the form. -/
def readForm (req : HttpRequest) : Except Panic Bytes :=
  if req.contentType = some formType then
    match req.body with
    | some b => .ok b
    | none => .error .server
  else .ok []

/-- handler.rs l.127-176 `verify_and_then`. -/
def verifyAndThen (L : Lib) (cfg : Cfg) (now : Option Nat) (req : HttpRequest)
    (client : Credentials Bytes) (token : Option (Credentials Bytes)) (verifier : Option Bytes)
    (f : List Parameter → OAuthParams → Response) : Except Panic Response := do
  let form ← readForm req
  match ← collectParams L req form with
  | none => pure (.ofStatus 400)
  | some params =>
    match ← collectOAuthParams L params with
    | .error code => pure (.ofStatus code)
    | .ok o =>
      match ← inner L cfg now req params o client token verifier with
      | .ok () => pure (f params o)
      | .error code => pure (.ofStatus code)

/-- External crate `form_urlencoded`: `byte_serialize`. -/
def byteSerialize (s : Bytes) : Bytes :=
  s.flatMap fun b =>
    if isAlphanumeric b || b == 0x2A || b == 0x2D || b == 0x2E || b == 0x5F then [b]
    else if b == 0x20 then [0x2B]
    else percentEncodeByte b

/-- External crate `serde_urlencoded`: `to_string` of pairs. -/
def serializePairs : List Parameter → Bytes
  | [] => []
  | [(k, v)] => byteSerialize k ++ b!"=" ++ byteSerialize v
  | (k, v) :: rest => byteSerialize k ++ b!"=" ++ byteSerialize v ++ b!"&" ++ serializePairs rest

/-- The fields of serialized `Credentials` (oauth-credentials/src/serde_imp.rs); `serde_urlencoded`
accepts every string. -/
def credentialPairs (c : Credentials Bytes) : List Parameter :=
  match Serde.serialize (E := Empty) .ok c with
  | .ok pairs => pairs

/-- handler.rs l.58-67 `echo`. -/
def echo (L : Lib) (cfg : Cfg) (now : Option Nat) (req : HttpRequest) : Except Panic Response :=
  verifyAndThen L cfg now req CLIENT (some TOKEN) none fun params _ => ⟨200, serializePairs params⟩

/-- handler.rs l.72-110 `post_request_temp_credentials`. -/
def postRequestTempCredentials (L : Lib) (cfg : Cfg) (now : Option Nat) (req : HttpRequest) :
    Except Panic Response :=
  verifyAndThen L cfg now req CLIENT none none fun _ params =>
    match params.callback with
    | some callback =>
      if callback = b!"oob" then
        ⟨200, serializePairs (credentialPairs REQUEST ++ [(b!"oauth_callback_confirmed", b!"true")])⟩
      else .ofStatus 400
    | none => .ofStatus 400

/-- handler.rs l.115-124 `post_request_token`. -/
def postRequestToken (L : Lib) (cfg : Cfg) (now : Option Nat) (req : HttpRequest) :
    Except Panic Response :=
  verifyAndThen L cfg now req CLIENT (some REQUEST) (some VERIFIER) fun _ _ =>
    ⟨200, serializePairs (credentialPairs TOKEN)⟩

/-- main.rs l.21-36: routing. -/
def service (L : Lib) (cfg : Cfg) (now : Option Nat) (req : HttpRequest) : Except Panic Response :=
  if (req.method = b!"GET" ∨ req.method = b!"POST") ∧ req.path = b!"/echo" then echo L cfg now req
  else if req.method = b!"POST" ∧ req.path = b!"/request_temp_credentials" then
    postRequestTempCredentials L cfg now req
  else if req.method = b!"POST" ∧ req.path = b!"/request_token" then postRequestToken L cfg now req
  else .ok (.ofStatus 404)

end OAuth.Server
