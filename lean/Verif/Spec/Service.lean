import Verif.Model.Server

/-
The resources of the example server and what they ask for.
-/

namespace OAuth.Spec

open Server

/-- The client that the server knows. -/
def knownClient : Credentials Bytes := ⟨b!"client", b!"client_secret"⟩

/-- The resources: method, path, and the token and verifier that a request for it must have (RFC 5849, section
2: none for temporary credentials, these and the verifier for token credentials, and those for the rest). -/
inductive Serves : (method path : Bytes) → (token : Option (Credentials Bytes)) → (verifier : Option Bytes) → Prop
  | echo {m} : m = b!"GET" ∨ m = b!"POST" →
      Serves m b!"/echo" (some ⟨b!"token", b!"token_secret"⟩) none
  | temporary : Serves b!"POST" b!"/request_temp_credentials" none none
  | token : Serves b!"POST" b!"/request_token" (some ⟨b!"request", b!"request_secret"⟩) (some b!"verifier")

end OAuth.Spec
