import Verif.Spec.FormText
import Verif.Spec.Order

/-
Specification: what the resources of the example server give to those they serve.
-/

namespace OAuth.Spec

/-- The body of the answer to a request with parameters `ps`: to `/echo` these parameters, in order and as
`application/x-www-form-urlencoded` (URL Standard); to the others the credentials (RFC 5849, sections 2.1
and 2.3), temporary ones only if the callback is `oob`. -/
inductive Reply (ps : List (Bytes × Bytes)) : (method path body : Bytes) → Prop
  | echo {m sorted} : m = b!"GET" ∨ m = b!"POST" → sorted.Perm ps → Ascending sorted →
      Reply ps m b!"/echo" (urlencodedOf sorted)
  | temporary : (b!"oauth_callback", b!"oob") ∈ ps →
      Reply ps b!"POST" b!"/request_temp_credentials"
        b!"oauth_token=request&oauth_token_secret=request_secret&oauth_callback_confirmed=true"
  | token : Reply ps b!"POST" b!"/request_token" b!"oauth_token=token&oauth_token_secret=token_secret"

end OAuth.Spec
