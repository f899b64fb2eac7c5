import Verif.Model.Builder
import Verif.Model.Derive
import Verif.Model.Server

/-
examples/src/client: a client for the example server.

The HTTP client is a function from requests to responses: simplification, requests and responses arrive
as they were sent. `async` functions are run to completion one after the other.
-/

namespace OAuth.Client

open Server (Lib HttpRequest Response)

/-- The `http::Request` service. -/
abbrev Http := HttpRequest → M Response

/-- External crate `http`: what `HeaderValue::try_from` accepts. -/
def headerByte (b : UInt8) : Bool := (32 ≤ b.toNat && b.toNat != 127) || b == 9

/-- External crate `http`: `PathAndQuery::from_shared`, the query up to a fragment. -/
def parseQuery : Bytes → Option Bytes
  | [] => some []
  | b :: rest =>
    if b == 0x23 then some []
    else if b == 0x21 || (0x24 ≤ b.toNat && b.toNat ≤ 0x3B) || b == 0x3D ||
        (0x3F ≤ b.toNat && b.toNat ≤ 0x7E) then
      (parseQuery rest).map (b :: ·)
    else none

/-- External crate `http`: `PathAndQuery::from_shared`, path and query. -/
def parsePath : Bytes → Option (Bytes × Option Bytes)
  | [] => some ([], none)
  | b :: rest =>
    if b == 0x3F then (parseQuery rest).map fun q => ([], some q)
    else if b == 0x23 then some ([], none)
    else if b == 0x21 || (0x24 ≤ b.toNat && b.toNat ≤ 0x3B) || b == 0x3D ||
        (0x40 ≤ b.toNat && b.toNat ≤ 0x5F) || (0x61 ≤ b.toNat && b.toNat ≤ 0x7A) || b == 0x7C ||
        b == 0x7E || b == 0x22 || b == 0x7B || b == 0x7D then
      (parsePath rest).map fun p => (b :: p.1, p.2)
    else none

/-- The server the client talks to. -/
def server : Bytes := b!"http://127.0.0.1:8080"

/-- External crate `http`: `Uri::try_from`, of URIs at this server (there are no others here). -/
def parseUri (s : Bytes) : Option (Bytes × Option Bytes) :=
  if server.isPrefixOf s then parsePath (s.drop server.length) else none

/-- External crate `http`: `Display for Uri`. -/
def displayUri (path : Bytes) : Display := ⟨[b!"http", b!"://", b!"127.0.0.1:8080", path], .ok⟩

/-- `Request::builder()....body(..).unwrap()` and `http.call(req).await.unwrap()`. -/
def call (http : Http) (method uri authorization : Bytes) (contentType : Option Bytes) (body : Bytes) :
    M Response :=
  match parseUri uri with
  | none => panicM .server
  | some (path, query) =>
    if authorization.all headerByte then
      http { method, path, query, authorization := [authorization], contentType, body := some body }
    else panicM .server

/-- External crate `serde_urlencoded`: `from_bytes::<Credentials<Box<str>>>(&body).unwrap()`. -/
def credentialsFromBytes (body : Bytes) : M (Credentials Bytes) :=
  match Serde.deserialize (E := Empty) ⟨.ok, fun _ => .ok ()⟩
      ⟨(Server.formParse body).map fun p => (.str p.1, p.2), .ok ()⟩ with
  | .ok c => pure c
  | .error _ => panicM .server

/-- client/auth.rs l.53-66 `send_request`. -/
def sendRequest (http : Http) (path authorization : Bytes) : M Bytes := do
  let res ← call http b!"POST" (server ++ path) authorization none []
  pure res.body

/-- client/auth.rs l.10-28 `temporary_credentials`. -/
def temporaryCredentials (cfg : Cfg) (client : Credentials Bytes) (callback : Bytes)
    (http : Http) : M (Credentials Bytes) := do
  let path := b!"/request_temp_credentials"
  let authorization ← ((Builder.new client hmacSha1).setCallback (some callback)).post cfg
    (displayUri path) (.ref .unit)
  let body ← sendRequest http path authorization
  credentialsFromBytes body

/-- client/auth.rs l.30-51 `token_credentials`. -/
def tokenCredentials (cfg : Cfg) (client temporary : Credentials Bytes) (verifier : Bytes)
    (http : Http) : M (Credentials Bytes) := do
  let path := b!"/request_token"
  let authorization ← (((Builder.new client hmacSha1).setToken (some temporary)).setVerifier
    (some verifier)).post cfg (displayUri path) (.ref .unit)
  let body ← sendRequest http path authorization
  credentialsFromBytes body

/-- client/request.rs l.59-92 `send`; `method` and `uri` are the associated constants. -/
def send (cfg : Cfg) (method uri : Bytes) (request : Request) (token : Token Bytes Bytes) (http : Http) :
    M Response := do
  let builder := (Builder.new token.client hmacSha1).setToken (some token.token)
  let authorization ← builder.authorize cfg method (.ofBytes uri) (.ref request)
  if method = b!"POST" then
    let data ← Free.toForm (.ref request)
    call http method uri authorization (some Server.formType) data
  else
    let uri ← Free.toQuery uri (.ref request)
    call http method uri authorization none []

/-- The derived implementation for a struct with fields of type `&'a str` and no attributes: the body
generated by Verif/Model/Derive.lean. (If generation failed, the example would not compile.) -/
def strRequest (cfg : Cfg) (fields : List (Bytes × Bytes)) : Request :=
  match Derive.methodBody cfg (Derive.sortByName (fields.map fun f => ⟨f.1, .other, {}⟩)) with
  | .ok body => Derive.request ⟨.ofBytes, fun _ => none, fun _ => .ofBytes, fun _ _ => false⟩
      (fun i => ((fields.find? (·.1 = i)).map (·.2)).getD []) body
  | .error p => ⟨fun _ _ => panicM p⟩

/-- client/main.rs l.24-27 `CLIENT`. -/
def CLIENT : Credentials Bytes := ⟨b!"client", b!"client_secret"⟩

/-- client/main.rs l.10-14 `GetEcho`. -/
def GetEcho.send (cfg : Cfg) (foo : Bytes) (token : Token Bytes Bytes) (http : Http) : M Response :=
  Client.send cfg b!"GET" (server ++ b!"/echo") (strRequest cfg [(b!"foo", foo)]) token http

/-- client/main.rs l.16-20 `PostEcho`. -/
def PostEcho.send (cfg : Cfg) (bar baz : Bytes) (token : Token Bytes Bytes) (http : Http) :
    M Response :=
  Client.send cfg b!"POST" (server ++ b!"/echo") (strRequest cfg [(b!"bar", bar), (b!"baz", baz)]) token
    http

/-- client/main.rs l.52-64 `to_string`: `String::from_utf8(body).unwrap()`. -/
def toString (res : Response) : M Bytes :=
  if Utf8.valid res.body then pure res.body else panicM .server

/-- client/main.rs l.29-50 `main`: what is printed. -/
def main (cfg : Cfg) (http : Http) : M (Bytes × Bytes) := do
  let temporary ← temporaryCredentials cfg CLIENT b!"oob" http
  let verifier := b!"verifier"
  let token ← tokenCredentials cfg CLIENT temporary verifier http
  let token := Token.new CLIENT token
  let res1 ← GetEcho.send cfg b!"GET" token http
  let res2 ← PostEcho.send cfg b!"POST" b!"ＰＯＳＴ" token http
  let res1 ← toString res1
  let res2 ← toString res2
  pure (res1, res2)

end OAuth.Client
