import Verif.Model.Auth
import Verif.Model.Request

/-
oauth1-request/src/lib.rs: `Builder` and the free functions. Credentials are over strings
(`AsRef<str>` is applied by `Credentials::as_ref`, see `Credentials`).
-/

namespace OAuth

/-- lib.rs l.243-254 `Builder`. -/
structure Builder (S : Type) where
  signatureMethod : SignatureMethod S
  client : Credentials Bytes
  token : Option (Credentials Bytes)
  options : Options

namespace Builder
variable {S W : Type}

/-- lib.rs l.316-323 `new`. -/
def new (client : Credentials Bytes) (sm : SignatureMethod S) : Builder S where
  signatureMethod := sm
  client := client
  token := none
  options := .new

/-- lib.rs l.333-336 `token`. -/
def setToken (b : Builder S) (t : Option (Credentials Bytes)) : Builder S := { b with token := t }

/-- lib.rs l.326-330 `with_token`. -/
def withToken (token : Token Bytes Bytes) (sm : SignatureMethod S) : Builder S :=
  let ret := new token.client sm
  ret.setToken (some token.token)

/-- lib.rs l.339-342 `callback`. -/
def setCallback (b : Builder S) (v : Option Bytes) : Builder S :=
  { b with options := b.options.setCallback v }
/-- lib.rs l.345-348 `verifier`. -/
def setVerifier (b : Builder S) (v : Option Bytes) : Builder S :=
  { b with options := b.options.setVerifier v }
/-- lib.rs l.356-359 `nonce`. -/
def setNonce (b : Builder S) (v : Option Bytes) : Builder S :=
  { b with options := b.options.setNonce v }
/-- lib.rs l.367-370 `timestamp`. -/
def setTimestamp (b : Builder S) (v : Option NonZeroU64) : Builder S :=
  { b with options := b.options.setTimestamp v }
/-- lib.rs l.373-376 `version`. -/
def setVersion (b : Builder S) (v : Bool) : Builder S :=
  { b with options := b.options.setVersion v }

/-- `Credentials::as_ref` at `AsRef<str> for str`. -/
def asRefStr (c : Credentials Bytes) : Credentials Bytes := c.asRef id

/-- lib.rs l.415-431 `authorize`. -/
def authorize (cfg : Cfg) (b : Builder S) (method : Bytes) (uri : Display) (request : Request) :
    M Bytes := do
  let s ← Authorizer.authorization cfg b.signatureMethod method uri (asRefStr b.client)
    (b.token.map asRefStr) b.options
  request.serialize (Authorizer.serializer cfg stringWriter b.signatureMethod.sign) s

/-- lib.rs l.438-454 `to_form`. -/
def toForm (cfg : Cfg) (b : Builder S) (method : Bytes) (uri : Display) (request : Request) :
    M Bytes := do
  let s ← Authorizer.form cfg b.signatureMethod method uri (asRefStr b.client)
    (b.token.map asRefStr) b.options
  request.serialize (Authorizer.serializer cfg stringWriter b.signatureMethod.sign) s

/-- lib.rs l.461-477 `to_query`. -/
def toQuery (cfg : Cfg) (wr : Writer W) (display : W → Display) (b : Builder S) (method : Bytes)
    (uri : W) (request : Request) : M W := do
  let s ← Authorizer.query cfg display b.signatureMethod method uri (asRefStr b.client)
    (b.token.map asRefStr) b.options
  request.serialize (Authorizer.serializer cfg wr b.signatureMethod.sign) s

/-- lib.rs l.481-499 `authorize_with_buf`. -/
def authorizeWithBuf (cfg : Cfg) (wr : Writer W) (b : Builder S) (buf : W) (method : Bytes)
    (uri : Display) (request : Request) : M W := do
  let s ← Authorizer.authorizationWithBuf cfg wr b.signatureMethod buf method uri
    (asRefStr b.client) (b.token.map asRefStr) b.options
  request.serialize (Authorizer.serializer cfg wr b.signatureMethod.sign) s

/-- lib.rs l.505-523 `to_form_with_buf`. -/
def toFormWithBuf (cfg : Cfg) (wr : Writer W) (b : Builder S) (buf : W) (method : Bytes)
    (uri : Display) (request : Request) : M W := do
  let s ← Authorizer.formWithBuf cfg b.signatureMethod buf method uri
    (asRefStr b.client) (b.token.map asRefStr) b.options
  request.serialize (Authorizer.serializer cfg wr b.signatureMethod.sign) s

/-- lib.rs l.533-548 `into_authorization`. -/
def intoAuthorization (cfg : Cfg) (b : Builder S) (method : Bytes) (uri : Display)
    (request : Request) : M Bytes := do
  let s ← Authorizer.authorization cfg b.signatureMethod method uri (asRefStr b.client)
    (b.token.map asRefStr) b.options
  request.serialize (Authorizer.serializer cfg stringWriter b.signatureMethod.sign) s

/-- lib.rs l.559-574 `into_form`. -/
def intoForm (cfg : Cfg) (b : Builder S) (method : Bytes) (uri : Display) (request : Request) :
    M Bytes := do
  let s ← Authorizer.form cfg b.signatureMethod method uri (asRefStr b.client)
    (b.token.map asRefStr) b.options
  request.serialize (Authorizer.serializer cfg stringWriter b.signatureMethod.sign) s

/-- lib.rs l.585-600 `into_query`. -/
def intoQuery (cfg : Cfg) (wr : Writer W) (display : W → Display) (b : Builder S) (method : Bytes)
    (uri : W) (request : Request) : M W := do
  let s ← Authorizer.query cfg display b.signatureMethod method uri (asRefStr b.client)
    (b.token.map asRefStr) b.options
  request.serialize (Authorizer.serializer cfg wr b.signatureMethod.sign) s

/-- lib.rs l.604-628 `into_authorization_with_buf`. -/
def intoAuthorizationWithBuf (cfg : Cfg) (wr : Writer W) (b : Builder S) (buf : W)
    (method : Bytes) (uri : Display) (request : Request) : M W := do
  let s ← Authorizer.authorizationWithBuf cfg wr b.signatureMethod buf method uri
    (asRefStr b.client) (b.token.map asRefStr) b.options
  request.serialize (Authorizer.serializer cfg wr b.signatureMethod.sign) s

/-- lib.rs l.632-649 `into_form_with_buf`. -/
def intoFormWithBuf (cfg : Cfg) (wr : Writer W) (b : Builder S) (buf : W) (method : Bytes)
    (uri : Display) (request : Request) : M W := do
  let s ← Authorizer.formWithBuf cfg b.signatureMethod buf method uri
    (asRefStr b.client) (b.token.map asRefStr) b.options
  request.serialize (Authorizer.serializer cfg wr b.signatureMethod.sign) s

/-! Shorthands, lib.rs l.257-311 and l.378-407. -/

/-- lib.rs l.379 `get`. -/
def get (cfg : Cfg) (b : Builder S) (uri : Display) (r : Request) : M Bytes :=
  b.authorize cfg b!"GET" uri r
/-- lib.rs l.380 `put`. -/
def put (cfg : Cfg) (b : Builder S) (uri : Display) (r : Request) : M Bytes :=
  b.authorize cfg b!"PUT" uri r
/-- lib.rs l.381 `post`. -/
def post (cfg : Cfg) (b : Builder S) (uri : Display) (r : Request) : M Bytes :=
  b.authorize cfg b!"POST" uri r
/-- lib.rs l.382 `delete`. -/
def delete (cfg : Cfg) (b : Builder S) (uri : Display) (r : Request) : M Bytes :=
  b.authorize cfg b!"DELETE" uri r
/-- lib.rs l.383 `options`. -/
def optionsMethod (cfg : Cfg) (b : Builder S) (uri : Display) (r : Request) : M Bytes :=
  b.authorize cfg b!"OPTIONS" uri r
/-- lib.rs l.384 `head`. -/
def head (cfg : Cfg) (b : Builder S) (uri : Display) (r : Request) : M Bytes :=
  b.authorize cfg b!"HEAD" uri r
/-- lib.rs l.385 `connect`. -/
def connect (cfg : Cfg) (b : Builder S) (uri : Display) (r : Request) : M Bytes :=
  b.authorize cfg b!"CONNECT" uri r
/-- lib.rs l.386 `patch`. -/
def patch (cfg : Cfg) (b : Builder S) (uri : Display) (r : Request) : M Bytes :=
  b.authorize cfg b!"PATCH" uri r
/-- lib.rs l.387 `trace`. -/
def trace (cfg : Cfg) (b : Builder S) (uri : Display) (r : Request) : M Bytes :=
  b.authorize cfg b!"TRACE" uri r

/-- lib.rs l.391 `put_form`. -/
def putForm (cfg : Cfg) (b : Builder S) (uri : Display) (r : Request) : M Bytes :=
  b.toForm cfg b!"PUT" uri r
/-- lib.rs l.392 `post_form`. -/
def postForm (cfg : Cfg) (b : Builder S) (uri : Display) (r : Request) : M Bytes :=
  b.toForm cfg b!"POST" uri r
/-- lib.rs l.393 `options_form`. -/
def optionsForm (cfg : Cfg) (b : Builder S) (uri : Display) (r : Request) : M Bytes :=
  b.toForm cfg b!"OPTIONS" uri r
/-- lib.rs l.394 `patch_form`. -/
def patchForm (cfg : Cfg) (b : Builder S) (uri : Display) (r : Request) : M Bytes :=
  b.toForm cfg b!"PATCH" uri r

/-- lib.rs l.398-406: the nine `*_query` shorthands, by method name. -/
def getQuery (cfg : Cfg) (wr : Writer W) (d : W → Display) (b : Builder S) (uri : W)
    (r : Request) : M W := b.toQuery cfg wr d b!"GET" uri r
/-- lib.rs l.399 `put_query`. -/
def putQuery (cfg : Cfg) (wr : Writer W) (d : W → Display) (b : Builder S) (uri : W)
    (r : Request) : M W := b.toQuery cfg wr d b!"PUT" uri r
/-- lib.rs l.400 `post_query`. -/
def postQuery (cfg : Cfg) (wr : Writer W) (d : W → Display) (b : Builder S) (uri : W)
    (r : Request) : M W := b.toQuery cfg wr d b!"POST" uri r
/-- lib.rs l.401 `delete_query`. -/
def deleteQuery (cfg : Cfg) (wr : Writer W) (d : W → Display) (b : Builder S) (uri : W)
    (r : Request) : M W := b.toQuery cfg wr d b!"DELETE" uri r
/-- lib.rs l.402 `options_query`. -/
def optionsQuery (cfg : Cfg) (wr : Writer W) (d : W → Display) (b : Builder S) (uri : W)
    (r : Request) : M W := b.toQuery cfg wr d b!"OPTIONS" uri r
/-- lib.rs l.403 `head_query`. -/
def headQuery (cfg : Cfg) (wr : Writer W) (d : W → Display) (b : Builder S) (uri : W)
    (r : Request) : M W := b.toQuery cfg wr d b!"HEAD" uri r
/-- lib.rs l.404 `connect_query`. -/
def connectQuery (cfg : Cfg) (wr : Writer W) (d : W → Display) (b : Builder S) (uri : W)
    (r : Request) : M W := b.toQuery cfg wr d b!"CONNECT" uri r
/-- lib.rs l.405 `patch_query`. -/
def patchQuery (cfg : Cfg) (wr : Writer W) (d : W → Display) (b : Builder S) (uri : W)
    (r : Request) : M W := b.toQuery cfg wr d b!"PATCH" uri r
/-- lib.rs l.406 `trace_query`. -/
def traceQuery (cfg : Cfg) (wr : Writer W) (d : W → Display) (b : Builder S) (uri : W)
    (r : Request) : M W := b.toQuery cfg wr d b!"TRACE" uri r

end Builder

namespace Free
variable {S C T : Type}

/-- lib.rs l.697-726 `authorize`; `ac`/`at'` are the `AsRef<str>` implementations of `C`/`T`. -/
def authorize (cfg : Cfg) (ac : C → Bytes) (at' : T → Bytes) (method : Bytes) (uri : Display)
    (request : Request) (token : Token C T) (sm : SignatureMethod S) : M Bytes :=
  (Builder.withToken (token.asRef ac at') sm).intoAuthorization cfg method uri request

/-- lib.rs l.679-687: the nine method shorthands. -/
def get (cfg : Cfg) (ac : C → Bytes) (at' : T → Bytes) (uri : Display) (r : Request)
    (t : Token C T) (sm : SignatureMethod S) : M Bytes := authorize cfg ac at' b!"GET" uri r t sm
/-- lib.rs l.680 `put`. -/
def put (cfg : Cfg) (ac : C → Bytes) (at' : T → Bytes) (uri : Display) (r : Request)
    (t : Token C T) (sm : SignatureMethod S) : M Bytes := authorize cfg ac at' b!"PUT" uri r t sm
/-- lib.rs l.681 `post`. -/
def post (cfg : Cfg) (ac : C → Bytes) (at' : T → Bytes) (uri : Display) (r : Request)
    (t : Token C T) (sm : SignatureMethod S) : M Bytes := authorize cfg ac at' b!"POST" uri r t sm
/-- lib.rs l.682 `delete`. -/
def delete (cfg : Cfg) (ac : C → Bytes) (at' : T → Bytes) (uri : Display) (r : Request)
    (t : Token C T) (sm : SignatureMethod S) : M Bytes := authorize cfg ac at' b!"DELETE" uri r t sm
/-- lib.rs l.683 `options`. -/
def options (cfg : Cfg) (ac : C → Bytes) (at' : T → Bytes) (uri : Display) (r : Request)
    (t : Token C T) (sm : SignatureMethod S) : M Bytes :=
  authorize cfg ac at' b!"OPTIONS" uri r t sm
/-- lib.rs l.684 `head`. -/
def head (cfg : Cfg) (ac : C → Bytes) (at' : T → Bytes) (uri : Display) (r : Request)
    (t : Token C T) (sm : SignatureMethod S) : M Bytes := authorize cfg ac at' b!"HEAD" uri r t sm
/-- lib.rs l.685 `connect`. -/
def connect (cfg : Cfg) (ac : C → Bytes) (at' : T → Bytes) (uri : Display) (r : Request)
    (t : Token C T) (sm : SignatureMethod S) : M Bytes :=
  authorize cfg ac at' b!"CONNECT" uri r t sm
/-- lib.rs l.686 `patch`. -/
def patch (cfg : Cfg) (ac : C → Bytes) (at' : T → Bytes) (uri : Display) (r : Request)
    (t : Token C T) (sm : SignatureMethod S) : M Bytes := authorize cfg ac at' b!"PATCH" uri r t sm
/-- lib.rs l.687 `trace`. -/
def trace (cfg : Cfg) (ac : C → Bytes) (at' : T → Bytes) (uri : Display) (r : Request)
    (t : Token C T) (sm : SignatureMethod S) : M Bytes := authorize cfg ac at' b!"TRACE" uri r t sm

/-- lib.rs l.730-735 `to_form`. -/
def toForm (request : Request) : M Bytes :=
  request.serialize (Urlencoder.serializer stringWriter) Urlencoder.form

/-- lib.rs l.742-747 `to_query`. -/
def toQuery (uri : Bytes) (request : Request) : M Bytes :=
  request.serialize (Urlencoder.serializer stringWriter) (Urlencoder.query uri)

end Free
end OAuth
