import Verif.Model.SignatureMethod
import Verif.Model.Urlencode
import Verif.Model.Credentials

/-
serializer/auth.rs: the signing serializer.
-/

namespace OAuth

/-- `core::num::NonZeroU64`. -/
structure NonZeroU64 where
  val : Nat
  pos : 0 < val
  lt : val < 2 ^ 64
  deriving DecidableEq, Repr

/-- serializer/auth.rs l.46-68 `Options`. -/
structure Options where
  callback : Option Bytes := none
  verifier : Option Bytes := none
  nonce : Option Bytes := none
  timestamp : Option NonZeroU64 := none
  version : Bool := false
  deriving DecidableEq, Repr

namespace Options

/-- util.rs l.115-117, l.119: `Options::new()` is `Default::default()`. -/
def new : Options := {}

/-- util.rs l.125-130 `impl_setters!`: `Option` fields. -/
def setCallback (o : Options) (v : Option Bytes) : Options := { o with callback := v }
/-- util.rs l.125-130. -/
def setVerifier (o : Options) (v : Option Bytes) : Options := { o with verifier := v }
/-- util.rs l.125-130. -/
def setNonce (o : Options) (v : Option Bytes) : Options := { o with nonce := v }
/-- util.rs l.125-130. -/
def setTimestamp (o : Options) (v : Option NonZeroU64) : Options := { o with timestamp := v }
/-- util.rs l.133-138 `impl_setters!`: the `bool` field. -/
def setVersion (o : Options) (v : Bool) : Options := { o with version := v }

end Options

/-- serializer/auth.rs l.41-44 `Data<W>`. -/
inductive Data (W : Type)
  | authorization (header : W)
  | urlencode (encoder : Urlencoder W)

/-- serializer/auth.rs l.23-37 `Authorizer`. `prevKey` only exists (and is only touched) under
`cfg(all(feature = "alloc", debug_assertions))`; the model keeps it empty otherwise. -/
structure Authorizer (S W : Type) where
  consumerKey : Bytes
  token : Option Bytes
  options : Options
  data : Data W
  sign : S
  appendDelimToSign : Bool
  prevKey : Bytes

/-- serializer/auth.rs l.219-231: `write!(AssertNotContainQuestion, "{}", uri).unwrap()`: the
assertion runs on each fragment, and only in debug builds. -/
def assertNotContainQuestion (uri : Display) : Except Panic Unit :=
  let rec go : List Bytes → Except Panic Unit
    | [] => match uri.outcome with
      | .ok => .ok ()
      | .err => .error .fmtUnwrap
      | .panic p => .error p
    | c :: cs => if c.contains 0x3F then .error .uriQuery else go cs
  go uri.chunks

/-- serializer/auth.rs l.212-241 `make_sign`. -/
def makeSign {S : Type} (cfg : Cfg) (sm : SignatureMethod S) (method : Bytes) (uri : Display)
    (client : Credentials Bytes) (token : Option (Credentials Bytes)) : Except Panic S := do
  if cfg.debug then assertNotContainQuestion uri
  let ret ← sm.signWith client.secret (token.map (·.secret))
  let ret ← sm.sign.requestMethod ret method
  sm.sign.uri ret (percentEncode uri)

namespace Authorizer
variable {S W : Type}

/-- serializer/auth.rs l.180-209 `new_`. -/
def new_ (data : Data W) (sign : S) (client : Credentials Bytes)
    (token : Option (Credentials Bytes)) (options : Options) : Authorizer S W where
  consumerKey := client.identifier
  token := token.map (·.identifier)
  options := options
  data := data
  sign := sign
  appendDelimToSign := false
  prevKey := []

/-- serializer/auth.rs l.149-162 `authorization_with_buf`. -/
def authorizationWithBuf (cfg : Cfg) (wr : Writer W) (sm : SignatureMethod S) (buf : W)
    (method : Bytes) (uri : Display) (client : Credentials Bytes)
    (token : Option (Credentials Bytes)) (options : Options) :
    Except Panic (Authorizer S W) := do
  let buf ← wr.writeUnwrap buf (.ofBytes b!"OAuth ")
  let sign ← makeSign cfg sm method uri client token
  .ok (new_ (.authorization buf) sign client token options)

/-- serializer/auth.rs l.81-101 `authorization`. -/
def authorization (cfg : Cfg) (sm : SignatureMethod S) (method : Bytes) (uri : Display)
    (client : Credentials Bytes) (token : Option (Credentials Bytes)) (options : Options) :
    Except Panic (Authorizer S Bytes) :=
  authorizationWithBuf cfg stringWriter sm [] method uri client token options

/-- serializer/auth.rs l.165-178 `form_with_buf`. -/
def formWithBuf (cfg : Cfg) (sm : SignatureMethod S) (buf : W)
    (method : Bytes) (uri : Display) (client : Credentials Bytes)
    (token : Option (Credentials Bytes)) (options : Options) :
    Except Panic (Authorizer S W) := do
  let data := Data.urlencode (Urlencoder.formWithBuf buf)
  let sign ← makeSign cfg sm method uri client token
  .ok (new_ data sign client token options)

/-- serializer/auth.rs l.111-122 `form`. -/
def form (cfg : Cfg) (sm : SignatureMethod S) (method : Bytes) (uri : Display)
    (client : Credentials Bytes) (token : Option (Credentials Bytes)) (options : Options) :
    Except Panic (Authorizer S Bytes) :=
  formWithBuf cfg sm [] method uri client token options

/-- serializer/auth.rs l.130-145 `query`; `display` is `Display for W`. -/
def query (cfg : Cfg) (display : W → Display) (sm : SignatureMethod S) (method : Bytes) (uri : W)
    (client : Credentials Bytes) (token : Option (Credentials Bytes)) (options : Options) :
    Except Panic (Authorizer S W) := do
  let sign ← makeSign cfg sm method (display uri) client token
  let data := Data.urlencode (Urlencoder.query uri)
  .ok (new_ data sign client token options)

/-- serializer/auth.rs l.261-275 `check_dictionary_order`. -/
def checkDictionaryOrder (cfg : Cfg) (a : Authorizer S W) (k : Bytes) :
    Except Panic (Authorizer S W) :=
  if cfg.checksOrder then
    if bytesLe a.prevKey k then .ok { a with prevKey := k } else .error .keyOrder
  else .ok a

/-- serializer/auth.rs l.253-259 `sign_delimiter`. -/
def signDelimiter (sg : Sign S) (a : Authorizer S W) : Except Panic (Authorizer S W) :=
  if a.appendDelimToSign then do
    let s ← sg.delimiter a.sign
    .ok { a with sign := s }
  else .ok { a with appendDelimToSign := true }

/-- serializer/auth.rs l.246-249: the `match self.data` of `append_to_header_encoded`. -/
def appendData (wr : Writer W) (data : Data W) (k : Bytes) (v : Display) :
    Except Panic (Data W) :=
  match data with
  | .authorization header =>
    .authorization <$> wr.writeUnwrap header
      (.concat [.ofBytes k, .ofBytes b!"=\"", v, .ofBytes b!"\","])
  | .urlencode encoder => .urlencode <$> encoder.parameterEncoded wr k v

/-- serializer/auth.rs l.244-251 `append_to_header_encoded`. -/
def appendToHeaderEncoded (cfg : Cfg) (wr : Writer W) (sg : Sign S) (a : Authorizer S W)
    (k : Bytes) (v : Display) : Except Panic (Authorizer S W) := do
  let a ← a.checkDictionaryOrder cfg k
  let data ← appendData wr a.data k v
  signDelimiter sg { a with data := data }

/-- serializer/auth.rs l.278-284 `append_to_header!(@inner ..)`: `feed` is `this.sign.$k($w)`. -/
def appendInner (cfg : Cfg) (wr : Writer W) (sg : Sign S) (a : Authorizer S W) (k : Bytes)
    (v : Display) (feed : S → Except Panic S) : Except Panic (Authorizer S W) := do
  let a ← a.appendToHeaderEncoded cfg wr sg k v
  let s ← feed a.sign
  .ok { a with sign := s }

/-- serializer/auth.rs l.298-302 `serialize_parameter`. -/
def parameter (cfg : Cfg) (sg : Sign S) (a : Authorizer S W) (k : Bytes) (v : Display) :
    Except Panic (Authorizer S W) := do
  let a ← a.checkDictionaryOrder cfg k
  let a ← a.signDelimiter sg
  let s ← sg.parameter a.sign k (doublePercentEncode cfg v)
  .ok { a with sign := s }

/-- serializer/auth.rs l.304-308 `serialize_parameter_encoded`. -/
def parameterEncoded (cfg : Cfg) (sg : Sign S) (a : Authorizer S W) (k : Bytes) (v : Display) :
    Except Panic (Authorizer S W) := do
  let a ← a.checkDictionaryOrder cfg k
  let a ← a.signDelimiter sg
  let s ← sg.parameter a.sign k (percentEncode v)
  .ok { a with sign := s }

/-- serializer/auth.rs l.310-314 `serialize_oauth_callback`. -/
def callback (cfg : Cfg) (wr : Writer W) (sg : Sign S) (a : Authorizer S W) :
    Except Panic (Authorizer S W) :=
  match a.options.callback with
  | some c => a.appendInner cfg wr sg b!"oauth_callback" (percentEncodeStr c)
      (sg.callback · (doublePercentEncode cfg (.ofBytes c)))
  | none => .ok a

/-- serializer/auth.rs l.316-318 `serialize_oauth_consumer_key`. -/
def consumerKeyM (cfg : Cfg) (wr : Writer W) (sg : Sign S) (a : Authorizer S W) :
    Except Panic (Authorizer S W) :=
  a.appendInner cfg wr sg b!"oauth_consumer_key" (percentEncodeStr a.consumerKey)
    (sg.consumerKey · (doublePercentEncode cfg (.ofBytes a.consumerKey)))

/-- serializer/auth.rs l.427-441 `gen_nonce` on the bytes delivered by the generator. The output
buffer has `NONCE_LEN = 12` bytes and `encode_slice` fails if it does not suffice. -/
def genNonce (rand : Bytes) : Except Panic Bytes :=
  -- `rand.iter().position(|&b| b != 0).unwrap_or(rand.len())`
  let i := rand.findIdx (fun b => b != 0)
  let rand := rand.drop i
  let out := base64UrlNoPad rand
  if out.length ≤ 12 then .ok out else .error .base64Buffer

/-- serializer/auth.rs l.320-329 `serialize_oauth_nonce`. -/
def nonce (cfg : Cfg) (wr : Writer W) (sg : Sign S) (a : Authorizer S W) : M (Authorizer S W) :=
  if sg.useNonce a.sign then
    match a.options.nonce with
    | some n => a.appendInner cfg wr sg b!"oauth_nonce" (percentEncodeStr n)
        (sg.nonce · (doublePercentEncode cfg (.ofBytes n)))
    | none => do
      let rand ← fillBytes 9
      let n ← genNonce rand
      a.appendInner cfg wr sg b!"oauth_nonce" (.ofBytes n) (sg.nonce · (.ofBytes n))
  else pure a

/-- serializer/auth.rs l.331-335 `serialize_oauth_signature_method`. -/
def signatureMethod (cfg : Cfg) (wr : Writer W) (sg : Sign S) (a : Authorizer S W) :
    Except Panic (Authorizer S W) := do
  let v := sg.name a.sign
  let a ← a.appendToHeaderEncoded cfg wr sg b!"oauth_signature_method" (.ofBytes v)
  let s ← sg.signatureMethod a.sign
  .ok { a with sign := s }

/-- serializer/auth.rs l.384-404 `get_current_timestamp`. A reading is in nanoseconds relative to
the epoch. Simplification: `u64` is unbounded; the `js` variant `(Date::now() / 1000.0) as u64` is
the floor of the seconds, saturating at zero (C99 proves that floating point gives the same). -/
def getCurrentTimestamp (cfg : Cfg) : M Nat :=
  match cfg.clock with
  | .js => do
    let t ← readClock
    pure (t / 1000000000).toNat
  | .std => do
    let t ← readClock
    if 0 ≤ t then pure (t / 1000000000).toNat else pure 1
  | .none => panicM .noClock

/-- serializer/auth.rs l.337-346 `serialize_oauth_timestamp`. -/
def timestamp (cfg : Cfg) (wr : Writer W) (sg : Sign S) (a : Authorizer S W) :
    M (Authorizer S W) :=
  if sg.useTimestamp a.sign then do
    let t ← match a.options.timestamp with
      | some t => pure t.val
      | none => getCurrentTimestamp cfg
    a.appendInner cfg wr sg b!"oauth_timestamp" (.ofBytes (decimal t)) (sg.timestamp · t)
  else pure a

/-- serializer/auth.rs l.348-352 `serialize_oauth_token`. -/
def tokenM (cfg : Cfg) (wr : Writer W) (sg : Sign S) (a : Authorizer S W) :
    Except Panic (Authorizer S W) :=
  match a.token with
  | some t => a.appendInner cfg wr sg b!"oauth_token" (percentEncodeStr t)
      (sg.token · (doublePercentEncode cfg (.ofBytes t)))
  | none => .ok a

/-- serializer/auth.rs l.354-358 `serialize_oauth_verifier`. -/
def verifier (cfg : Cfg) (wr : Writer W) (sg : Sign S) (a : Authorizer S W) :
    Except Panic (Authorizer S W) :=
  match a.options.verifier with
  | some v => a.appendInner cfg wr sg b!"oauth_verifier" (percentEncodeStr v)
      (sg.verifier · (doublePercentEncode cfg (.ofBytes v)))
  | none => .ok a

/-- serializer/auth.rs l.360-365 `serialize_oauth_version`. -/
def version (cfg : Cfg) (wr : Writer W) (sg : Sign S) (a : Authorizer S W) :
    Except Panic (Authorizer S W) :=
  if a.options.version then do
    let a ← a.appendToHeaderEncoded cfg wr sg b!"oauth_version" (.ofBytes b!"1.0")
    let s ← sg.version a.sign
    .ok { a with sign := s }
  else .ok a

/-- serializer/auth.rs l.367-381 `end`. -/
def endM (wr : Writer W) (sg : Sign S) (a : Authorizer S W) : Except Panic W :=
  match a.data with
  | .authorization header => do
    let header ← wr.writeUnwrap header (.ofBytes b!"oauth_signature=")
    let sig ← sg.end a.sign
    wr.writeUnwrap header (.concat [.ofBytes b!"\"", sig, .ofBytes b!"\""])
  | .urlencode encoder => do
    let sig ← sg.end a.sign
    let e ← encoder.parameterEncoded wr b!"oauth_signature" sig
    .ok e.data

/-- serializer/auth.rs l.295-382 `Serializer for Authorizer`. -/
def serializer (cfg : Cfg) (wr : Writer W) (sg : Sign S) : Serializer (Authorizer S W) W where
  parameter a k v := a.parameter cfg sg k v
  parameterEncoded a k v := a.parameterEncoded cfg sg k v
  callback a := a.callback cfg wr sg
  consumerKey a := a.consumerKeyM cfg wr sg
  nonce a := a.nonce cfg wr sg
  signatureMethod a := a.signatureMethod cfg wr sg
  timestamp a := a.timestamp cfg wr sg
  token a := a.tokenM cfg wr sg
  verifier a := a.verifier cfg wr sg
  version a := a.version cfg wr sg
  «end» a := a.endM wr sg

end Authorizer
end OAuth
