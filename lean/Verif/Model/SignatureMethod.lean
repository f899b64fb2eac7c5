import Verif.Model.PercentEncoding
import Verif.Model.Base64
import Verif.Model.Sha1

/-
signature_method.rs and signature_method/*.rs.
-/

namespace OAuth

/-- signature_method.rs l.132-207 trait `Sign` for the implementing type `S`. Fields with a value
are the trait's provided methods (l.58-78 `provide!`, l.158-206) and may be overridden. -/
structure Sign (S : Type) where
  /-- `get_signature_method_name` -/
  name : S → Bytes
  requestMethod : S → Bytes → Except Panic S
  uri : S → Display → Except Panic S
  parameter : S → Bytes → Display → Except Panic S
  delimiter : S → Except Panic S
  «end» : S → Except Panic Display
  callback : S → Display → Except Panic S := fun s v => parameter s b!"oauth_callback" v
  consumerKey : S → Display → Except Panic S := fun s v => parameter s b!"oauth_consumer_key" v
  nonce : S → Display → Except Panic S := fun s v => parameter s b!"oauth_nonce" v
  useNonce : S → Bool := fun _ => true
  signatureMethod : S → Except Panic S := fun s =>
    parameter s b!"oauth_signature_method" (.ofBytes (name s))
  timestamp : S → Nat → Except Panic S := fun s t =>
    parameter s b!"oauth_timestamp" (.ofBytes (decimal t))
  useTimestamp : S → Bool := fun _ => true
  token : S → Display → Except Panic S := fun s v => parameter s b!"oauth_token" v
  verifier : S → Display → Except Panic S := fun s v => parameter s b!"oauth_verifier" v
  version : S → Except Panic S := fun s => parameter s b!"oauth_version" (.ofBytes b!"1.0")

/-- signature_method.rs l.50-56: a value of a type implementing `SignatureMethod`, whose associated
type `Sign` is `S`. -/
structure SignatureMethod (S : Type) where
  sign : Sign S
  /-- `sign_with(self, client_secret, token_secret)` -/
  signWith : Bytes → Option Bytes → Except Panic S

/-- signature_method.rs l.209-220 `write_signing_key(dst, ..).unwrap()`: both callers unwrap. -/
def writeSigningKey {W : Type} (wr : Writer W) (dst : W) (clientSecret : Bytes)
    (tokenSecret : Option Bytes) : Except Panic W := do
  let dst ← wr.writeUnwrap dst (percentEncodeStr clientSecret)
  let dst ← wr.writeUnwrap dst (.ofBytes b!"&")
  match tokenSecret with
  | some ts => wr.writeUnwrap dst (percentEncodeStr ts)
  | none => .ok dst

/-! ### PLAINTEXT -/

/-- signature_method/plaintext.rs l.100-127 `Sign for PlaintextSign<W>`; the state is `signing_key`. -/
def plaintextSign {W : Type} (display : W → Display) : Sign W where
  name _ := b!"PLAINTEXT"
  requestMethod s _ := .ok s
  uri s _ := .ok s
  parameter s _ _ := .ok s
  delimiter s := .ok s
  «end» s := .ok (display s)

/-- signature_method/plaintext.rs l.87-98 `SignatureMethod for Plaintext<W>`. -/
def plaintextWithBuf {W : Type} (wr : Writer W) (default : W) (display : W → Display) :
    SignatureMethod W where
  sign := plaintextSign display
  signWith cs ts := writeSigningKey wr default cs ts

/-- signature_method/plaintext.rs l.31 `PLAINTEXT`, with `W = String`. -/
def plaintext : SignatureMethod Bytes := plaintextWithBuf stringWriter [] .ofBytes

/-! ### digest_common -/

/-- signature_method/digest_common.rs l.9, l.15-34 `UpdateSign<U>`, for any `Update` implementation:
`upd` is `Update::update`. -/
structure UpdateOps (U : Type) where
  upd : U → Bytes → U

namespace UpdateOps
variable {U : Type} (o : UpdateOps U)

/-- signature_method/digest_common.rs l.46-51 `Write for UpdateWrite`. -/
def writer : Writer U := ⟨fun u s => some (o.upd u s)⟩

/-- signature_method/digest_common.rs l.16-19 `request_method`. -/
def requestMethod (u : U) (method : Bytes) : Except Panic U :=
  .ok (o.upd (o.upd u method) b!"&")

/-- signature_method/digest_common.rs l.21-23 `uri`. -/
def uri (u : U) (uri : Display) : Except Panic U :=
  o.writer.writeUnwrap u (.concat [uri, .ofBytes b!"&"])

/-- signature_method/digest_common.rs l.25-29 `parameter`. -/
def parameter (u : U) (key : Bytes) (value : Display) : Except Panic U :=
  o.writer.writeUnwrap (o.upd (o.upd u key) b!"%3D") value

/-- signature_method/digest_common.rs l.31-33 `delimiter`. -/
def delimiter (u : U) : Except Panic U := .ok (o.upd u b!"%26")

end UpdateOps

/-- signature_method/digest_common.rs l.36-44 `Display for Base64PercentEncodeDisplay`. -/
def base64PercentEncodeDisplay (s : Bytes) : Display := percentEncode (base64Display s)

/-! ### HMAC-SHA1 -/

/-- signature_method/hmac_sha1.rs l.40-46 `SigningKey`; `Digest(Sha1)` is the data hashed so far. -/
inductive SigningKey
  | key (buf : Bytes) (pos : Nat)
  | digest (data : Bytes)
  deriving DecidableEq

namespace SigningKey

/-- signature_method/hmac_sha1.rs l.112-117 `new`. -/
def new : SigningKey := .key (List.replicate 64 0) 0

/-- signature_method/hmac_sha1.rs l.119-141 `write`. `none` stands for a panic (subtraction overflow
or slice out of bounds). -/
def write (k : SigningKey) (input : Bytes) : Option SigningKey :=
  match k with
  | .key buf pos =>
    if buf.length < pos then none
    else if input.length > buf.length - pos then
      some (.digest (buf.take pos ++ input))
    else some (.key (buf.take pos ++ input ++ buf.drop (pos + input.length)) (pos + input.length))
  | .digest data => some (.digest (data ++ input))

/-- signature_method/hmac_sha1.rs l.151-156 `Write for SigningKey`. The panic of `write` is folded
into the writer's failure; C25 proves that it does not happen. -/
def writer : Writer SigningKey := ⟨write⟩

/-- signature_method/hmac_sha1.rs l.143-148 `into_hmac`. -/
def intoHmac (H : Bytes → Bytes) : SigningKey → Hmac
  | .key buf pos => Hmac.newFromSlice H (buf.take pos)
  | .digest data => Hmac.newFromSlice H (H data)

end SigningKey

/-- `Update for Hmac<Sha1>`. -/
def hmacUpdate : UpdateOps Hmac := ⟨Hmac.update⟩

/-- signature_method/hmac_sha1.rs l.75-103 `Sign for HmacSha1Sign`. -/
def hmacSign (H : Bytes → Bytes) : Sign Hmac where
  name _ := b!"HMAC-SHA1"
  requestMethod := hmacUpdate.requestMethod
  uri := hmacUpdate.uri
  parameter := hmacUpdate.parameter
  delimiter := hmacUpdate.delimiter
  «end» s := .ok (base64PercentEncodeDisplay (s.finalize H))

/-- signature_method/hmac_sha1.rs l.63-73 `SignatureMethod for HmacSha1`, with the hash function as a
parameter. -/
def hmacMethod (H : Bytes → Bytes) : SignatureMethod Hmac where
  sign := hmacSign H
  signWith cs ts := do
    let key ← writeSigningKey SigningKey.writer .new cs ts
    .ok (key.intoHmac H)

/-- signature_method/hmac_sha1.rs l.37 `HMAC_SHA1`. -/
def hmacSha1 : SignatureMethod Hmac := hmacMethod Sha1.hash

/-! ### RSA-SHA1 -/

/-- External crate `rsa`: `RsaPrivateKey::sign(Pkcs1v15Sign(SHA-1), digest)`, an arbitrary partial
function of the key and the digest. -/
structure RsaOps (K : Type) where
  sign : K → Bytes → Option Bytes

/-- signature_method/rsa_sha1.rs l.25-29 `RsaSha1Sign<K>`: the message hashed so far and the key. -/
structure RsaSign (K : Type) where
  msg : Bytes
  key : K

/-- `Update for Sha1` inside an `RsaSha1Sign`. -/
def rsaUpdate (K : Type) : UpdateOps (RsaSign K) := ⟨fun s m => { s with msg := s.msg ++ m }⟩

/-- signature_method/rsa_sha1.rs l.117-147 `Sign for RsaSha1Sign<&RsaPrivateKey>`. -/
def rsaSignRef {K : Type} (H : Bytes → Bytes) (ops : RsaOps K) : Sign (RsaSign K) where
  name _ := b!"RSA-SHA1"
  requestMethod := (rsaUpdate K).requestMethod
  uri := (rsaUpdate K).uri
  parameter := (rsaUpdate K).parameter
  delimiter := (rsaUpdate K).delimiter
  «end» s := match ops.sign s.key (H s.msg) with
    | some sig => .ok (base64PercentEncodeDisplay sig)
    | none => .error .rsa

/-- signature_method/rsa_sha1.rs l.86-115 `Sign for RsaSha1Sign` (owned key): `end` forwards to the
borrowed implementation. -/
def rsaSignOwned {K : Type} (H : Bytes → Bytes) (ops : RsaOps K) : Sign (RsaSign K) where
  name _ := b!"RSA-SHA1"
  requestMethod := (rsaUpdate K).requestMethod
  uri := (rsaUpdate K).uri
  parameter := (rsaUpdate K).parameter
  delimiter := (rsaUpdate K).delimiter
  «end» s := (rsaSignRef H ops).end ⟨s.msg, s.key⟩

/-- signature_method/rsa_sha1.rs l.64-73 `SignatureMethod for RsaSha1`. -/
def rsaOwned {K : Type} (H : Bytes → Bytes) (ops : RsaOps K) (key : K) :
    SignatureMethod (RsaSign K) where
  sign := rsaSignOwned H ops
  signWith _ _ := .ok ⟨[], key⟩

/-- signature_method/rsa_sha1.rs l.75-84 `SignatureMethod for &RsaSha1`. -/
def rsaRef {K : Type} (H : Bytes → Bytes) (ops : RsaOps K) (key : K) :
    SignatureMethod (RsaSign K) where
  sign := rsaSignRef H ops
  signWith _ _ := .ok ⟨[], key⟩

/-! ### Either -/

/-- signature_method/either.rs l.38-44 `delegate!` body for `&mut self` methods. -/
def eitherMut {L R : Type} (f : L → Except Panic L) (g : R → Except Panic R) :
    L ⊕ R → Except Panic (L ⊕ R)
  | .inl l => .inl <$> f l
  | .inr r => .inr <$> g r

/-- signature_method/either.rs l.48-74 `Sign for Either<L, R>`. The list of delegated methods does
not contain `consumer_key`, which therefore keeps the trait's default body. -/
def eitherSign {L R : Type} (l : Sign L) (r : Sign R) : Sign (L ⊕ R) where
  name s := match s with | .inl a => l.name a | .inr b => r.name b
  requestMethod s m := eitherMut (l.requestMethod · m) (r.requestMethod · m) s
  uri s u := eitherMut (l.uri · u) (r.uri · u) s
  parameter s k v := eitherMut (l.parameter · k v) (r.parameter · k v) s
  delimiter s := eitherMut l.delimiter r.delimiter s
  «end» s := match s with | .inl a => l.end a | .inr b => r.end b
  callback s v := eitherMut (l.callback · v) (r.callback · v) s
  nonce s v := eitherMut (l.nonce · v) (r.nonce · v) s
  useNonce s := match s with | .inl a => l.useNonce a | .inr b => r.useNonce b
  signatureMethod s := eitherMut l.signatureMethod r.signatureMethod s
  timestamp s t := eitherMut (l.timestamp · t) (r.timestamp · t) s
  useTimestamp s := match s with | .inl a => l.useTimestamp a | .inr b => r.useTimestamp b
  token s v := eitherMut (l.token · v) (r.token · v) s
  verifier s v := eitherMut (l.verifier · v) (r.verifier · v) s
  version s := eitherMut l.version r.version s

/-- signature_method/either.rs l.8-17 `SignatureMethod for Either<L, R>`, variant `Left`. -/
def eitherLeft {L R : Type} (m : SignatureMethod L) (r : Sign R) : SignatureMethod (L ⊕ R) where
  sign := eitherSign m.sign r
  signWith cs ts := .inl <$> m.signWith cs ts

/-- signature_method/either.rs l.8-17 `SignatureMethod for Either<L, R>`, variant `Right`. -/
def eitherRight {L R : Type} (l : Sign L) (m : SignatureMethod R) : SignatureMethod (L ⊕ R) where
  sign := eitherSign l m.sign
  signWith cs ts := .inr <$> m.signWith cs ts

end OAuth
