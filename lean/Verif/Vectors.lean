import Verif.Properties.Signature
import Verif.Proofs.ServerExample

/-
Test vectors of the repository, replayed on the model. These are tests of the model, not proofs.
-/

namespace OAuth.Vectors

open Spec

/-- FIPS 180-4 and RFC 2202 vectors. -/
example : Sha1.hash b!"abc" = [0xA9, 0x99, 0x3E, 0x36, 0x47, 0x06, 0x81, 0x6A, 0xBA, 0x3E, 0x25, 0x71,
    0x78, 0x50, 0xC2, 0x6C, 0x9C, 0xD0, 0xD8, 0x9D] := by decide +kernel
example : hmac Sha1.hash b!"Jefe" b!"what do ya want for nothing?" = [0xEF, 0xFC, 0xDF, 0x6A, 0xE5,
    0xEB, 0x2F, 0xA2, 0xD2, 0x74, 0x16, 0xD5, 0xF1, 0x84, 0xDF, 0x9C, 0x25, 0x9A, 0x7C, 0x79] := by
  decide +kernel
/-- RFC 2202 test case 6: a key of 80 bytes. -/
example : hmac Sha1.hash (List.replicate 80 0xAA)
    b!"Test Using Larger Than Block-Size Key - Hash Key First" = [0xAA, 0x4A, 0xE5, 0xE1, 0x52, 0x72,
    0xD0, 0x0E, 0x95, 0x70, 0x56, 0x37, 0xCE, 0x8A, 0x3B, 0x55, 0xED, 0x40, 0x21, 0x12] := by
  decide +kernel

/-- serializer.rs l.206-220: the constants of the test, taken from Twitter's documentation. -/
def builder : Builder Hmac :=
  (((Builder.new (.new b!"xvz1evFS4wEEPTGEFPHBog" b!"kAcSOqF21Fu85e7zjz7ZN2U4ZRhfV3WpwPAoE3Z7kBw")
    hmacSha1).setToken (some (.new b!"370773112-GmHxMAgYyLbNEtIKZeRNFsMKPR9EyMZeS9weJAEb"
      b!"LswwdoUaIvS8ltyTt5jkRh4J50vUPVVHtR2YPi5kE"))).setNonce
    (some b!"kYjzVBB8Y0ZFabxSWbWovY3uYSQ2pTgmZeNu2VS4cg") |>.setTimestamp
    (some ⟨1318622958, by decide, by decide⟩)).setVersion true

def cfg : Cfg := ⟨true, true, .std⟩

/-- The expected header up to the signature. -/
def header (sig : Bytes) : Bytes :=
  b!"OAuth oauth_consumer_key=\"xvz1evFS4wEEPTGEFPHBog\",oauth_nonce=\"kYjzVBB8Y0ZFabxSWbWovY3uYSQ2pTgmZeNu2VS4cg\",oauth_signature_method=\"HMAC-SHA1\",oauth_timestamp=\"1318622958\",oauth_token=\"370773112-GmHxMAgYyLbNEtIKZeRNFsMKPR9EyMZeS9weJAEb\",oauth_version=\"1.0\",oauth_signature=\"" ++ sig ++ b!"\""

def oauthCalls : List Call := allProto.map .oauth

def run (method uri : Bytes) (cs : List Call) : Option Bytes :=
  (builder.authorize cfg method (.ofBytes uri) (requestOf cs) World.example).toOption.map (·.1)

/-- serializer.rs l.340-378, test `serialize`. -/
example : run b!"GET" b!"https://stream.twitter.com/1.1/statuses/sample.json"
    (oauthCalls ++ [.parameterEncoded b!"stall_warnings" (.ofBytes b!"true")]) =
    some (header b!"OGQqcy4l5xWBFX7t0DrkP5%2FD0rM%3D") := by decide +kernel
example : run b!"POST" b!"https://api.twitter.com/1.1/statuses/update.json"
    ([.parameterEncoded b!"include_entities" (.ofBytes b!"true")] ++ oauthCalls ++
      [.parameter b!"status" (.ofBytes b!"Hello Ladies + Gentlemen, a signed OAuth request!")]) =
    some (header b!"hCtSmYh%2BiHYCEqBWrE7C7hYmtUk%3D") := by decide +kernel
example : run b!"POST" b!"https://example.com/post.json" oauthCalls =
    some (header b!"pN52L1gJ6sOyYOyv23cwfWFsIZc%3D") := by decide +kernel
example : run b!"GET" b!"https://example.com/get.json"
    ([.parameterEncoded b!"bar" (.ofBytes b!"%E9%85%92%E5%A0%B4"),
      .parameter b!"foo" (.ofBytes b!"ふー")] ++ oauthCalls) =
    some (header b!"Xp35hf3T21yhpEuxez7p6bV62Bw%3D") := by decide +kernel
example : (Free.toForm (requestOf [.parameterEncoded b!"bar" (.ofBytes b!"%E9%85%92%E5%A0%B4"),
      .parameter b!"foo" (.ofBytes b!"ふー")]) World.example).toOption.map (·.1) =
    some b!"bar=%E9%85%92%E5%A0%B4&foo=%E3%81%B5%E3%83%BC" := by decide +kernel

/-- lib.rs l.33-61, documentation. -/
example : ((((Builder.withToken (.fromParts b!"consumer_key" b!"consumer_secret" b!"token"
    b!"token_secret") hmacSha1).setNonce (some b!"Dk-OGluFEQ4f")).setTimestamp
    (some ⟨1234567890, by decide, by decide⟩)).post cfg
      (.ofBytes b!"https://example.com/api/v1/comments/create.json")
      (requestOf (.parameter b!"article_id" (.ofBytes (decimal 123456789)) :: oauthCalls ++
        [.parameter b!"text" ⟨[b!"A request signed with OAuth & Rust ", b!"🦀 🔏"], .ok⟩])) World.example).toOption.map (·.1) =
    some b!"OAuth oauth_consumer_key=\"consumer_key\",oauth_nonce=\"Dk-OGluFEQ4f\",oauth_signature_method=\"HMAC-SHA1\",oauth_timestamp=\"1234567890\",oauth_token=\"token\",oauth_signature=\"n%2FrUgos4CFFZbZK8Z8wFR7drU4c%3D\"" := by
  decide +kernel

/-- lib.rs l.65-76 and l.88-98, request.rs l.43-59, documentation: `to_form` and `to_query`. -/
def docPairs : List Pair :=
  [(b!"article_id", .ofBytes (decimal 123456789)),
   (b!"text", .ofBytes b!"A request signed with OAuth & Rust 🦀 🔏")]

def docForm : Bytes :=
  b!"article_id=123456789&text=A%20request%20signed%20with%20OAuth%20%26%20Rust%20%F0%9F%A6%80%20%F0%9F%94%8F"

example : (Free.toForm (ParameterList.request cfg docPairs) World.example).toOption.map (·.1) =
    some docForm := by decide +kernel
example : (Free.toForm (AssertSorted.request cfg docPairs) World.example).toOption.map (·.1) =
    some docForm := by decide +kernel
example : (Free.toQuery b!"https://example.com/api/v1/comments/create.json"
      (ParameterList.request cfg docPairs) World.example).toOption.map (·.1) =
    some (b!"https://example.com/api/v1/comments/create.json?" ++ docForm) := by decide +kernel

/-- request/parameter_list.rs l.22-30, documentation. -/
example : (Free.toForm (ParameterList.request cfg (ParameterList.new Server.insertionSort
      [(b!"foo", .ofBytes b!"123"), (b!"bar", .ofBytes b!"23"), (b!"foo", .ofBytes b!"3")]))
      World.example).toOption.map (·.1) =
    some b!"bar=23&foo=123&foo=3" := by decide +kernel

/-- serializer.rs l.60-98, documentation. -/
example :
    let b := ((Builder.withToken (.fromParts b!"consumer_key" b!"consumer_secret" b!"token"
      b!"token_secret") hmacSha1).setNonce (some b!"mo8_whwD5c91")).setTimestamp
        (some ⟨1234567890, by decide, by decide⟩)
    (b.authorize cfg b!"GET" (.ofBytes b!"https://example.com/api/v1/get.json") (requestOf
      ([.parameter b!"abc" (.ofBytes b!"value"), .parameter b!"lmn" (.ofBytes b!"something")] ++
        oauthCalls ++ [.parameter b!"qrs" (.ofBytes b!"stuff"),
          .parameter b!"xyz" (.ofBytes b!"blah-blah")])) World.example).toOption.map (·.1) =
    some b!"OAuth oauth_consumer_key=\"consumer_key\",oauth_nonce=\"mo8_whwD5c91\",oauth_signature_method=\"HMAC-SHA1\",oauth_timestamp=\"1234567890\",oauth_token=\"token\",oauth_signature=\"eC5rUmIcYvAaIIWCIvOwhgUDByk%3D\"" := by
  decide +kernel

/-- serializer.rs l.386-407, test `panic_on_misordering`. -/
example : (((Builder.mk plaintext builder.client builder.token .new).authorizeWithBuf cfg stringWriter [] []
      (.ofBytes []) (requestOf [.parameterEncoded b!"foo" (.ofBytes b!"true"),
        .parameter b!"bar" (.ofBytes b!"ばー！")])) World.example).toOption = none := by decide +kernel

/-- serializer/recorder.rs l.155-161, documentation. -/
example : ((Request.unit.serialize Recorder.serializer Recorder.new) World.example).toOption.map (·.1) =
    some Recorder.oauthParameters := by decide +kernel

end OAuth.Vectors
