import Verif.Model.Basic

/-
oauth-credentials/src/lib.rs: `Credentials` and `Token`.
`AsRef<str>` is a function `asRef : T → Bytes`. A closure `FnMut(T) -> U` is a function into an
arbitrary monad `m`, whose effects stand for the closure's mutable state.
-/

namespace OAuth

/-- oauth-credentials/src/lib.rs l.53-60 `Credentials<T>`. -/
structure Credentials (T : Type) where
  identifier : T
  secret : T
  deriving DecidableEq, Repr

/-- oauth-credentials/src/lib.rs l.97-104 `Token<C, T>`. -/
structure Token (C T : Type) where
  client : Credentials C
  token : Credentials T
  deriving DecidableEq, Repr

namespace Credentials
variable {T U : Type}

/-- oauth-credentials/src/lib.rs l.119-124 `new`. -/
def new (identifier secret : T) : Credentials T := { identifier := identifier, secret := secret }

/-- oauth-credentials/src/lib.rs l.127-129 `identifier()`. -/
def identifierStr (asRef : T → Bytes) (c : Credentials T) : Bytes := asRef c.identifier

/-- oauth-credentials/src/lib.rs l.132-134 `secret()`. -/
def secretStr (asRef : T → Bytes) (c : Credentials T) : Bytes := asRef c.secret

/-- oauth-credentials/src/lib.rs l.137-139 `as_ref()`; also l.168-172 `From<&Credentials<T>>`. -/
def asRef (asRef : T → Bytes) (c : Credentials T) : Credentials Bytes :=
  .new (c.identifierStr asRef) (c.secretStr asRef)

/-- oauth-credentials/src/lib.rs l.159-165 `map`; arguments are evaluated left to right. -/
def map {m : Type → Type} [Monad m] (c : Credentials T) (f : T → m U) : m (Credentials U) := do
  let i ← f c.identifier
  let s ← f c.secret
  pure (.new i s)

end Credentials

namespace Token
variable {C T C2 T2 : Type}

/-- oauth-credentials/src/lib.rs l.201-206 `new`. -/
def new (client : Credentials C) (token : Credentials T) : Token C T :=
  { client := client, token := token }

/-- oauth-credentials/src/lib.rs l.209-213 `from_parts`. -/
def fromParts (clientIdentifier clientSecret : C) (token tokenSecret : T) : Token C T :=
  .new (.new clientIdentifier clientSecret) (.new token tokenSecret)

/-- oauth-credentials/src/lib.rs l.216-218 `client()`. -/
def clientStr (ac : C → Bytes) (t : Token C T) : Credentials Bytes := t.client.asRef ac

/-- oauth-credentials/src/lib.rs l.221-223 `token()`. -/
def tokenStr (at' : T → Bytes) (t : Token C T) : Credentials Bytes := t.token.asRef at'

/-- oauth-credentials/src/lib.rs l.226-228 `as_ref()`; also l.324-328 `From<&Token>`. -/
def asRef (ac : C → Bytes) (at' : T → Bytes) (t : Token C T) : Token Bytes Bytes :=
  .new (t.clientStr ac) (t.tokenStr at')

/-- oauth-credentials/src/lib.rs l.249-258 `map_client`. -/
def mapClient {m : Type → Type} [Monad m] (t : Token C T) (f : C → m C2) : m (Token C2 T) := do
  let c ← t.client.map f
  pure { client := c, token := t.token }

/-- oauth-credentials/src/lib.rs l.277-286 `map_token`. -/
def mapToken {m : Type → Type} [Monad m] (t : Token C T) (f : T → m T2) : m (Token C T2) := do
  let k ← t.token.map f
  pure { client := t.client, token := k }

/-- oauth-credentials/src/lib.rs l.305-311 `map`. -/
def map {m : Type → Type} [Monad m] (t : Token T T) (f : T → m T2) : m (Token T2 T2) := do
  let t ← t.mapClient f
  t.mapToken f

/-- oauth-credentials/src/lib.rs l.316-321 `from_ref`. -/
def fromRef (ac : C → Bytes) (at' : T → Bytes) (client : Credentials C) (token : Credentials T) :
    Token Bytes Bytes :=
  .new (client.asRef ac) (token.asRef at')

end Token
end OAuth
