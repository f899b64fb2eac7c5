import Verif.Proofs.Trace
import Verif.Model.Builder

/-
A concrete case that the examples beside the theorems share: a request with a repeated key, reserved and
non-ASCII characters and values in several fragments; a builder with a token, both with nothing pinned and
with everything pinned; and an environment whose random bytes and clock are not constant.
-/

namespace OAuth.Case

open Spec

/-- A debug build with the standard library. -/
def cfg : Cfg := ⟨true, true, .std⟩

/-- An environment. -/
def world : World := { rng := fun i => UInt8.ofNat (7 * i + 1), clock := fun i => 1600000000000000000 + i }

/-- The URI of the request. -/
def uri : Bytes := b!"http://example.com/a"

/-- The parameters of the request, in order. -/
def pairs : List Pair :=
  [(b!"a", ⟨[b!"1 ", b!"é"], .ok⟩), (b!"p", .ofBytes b!"&=+"), (b!"p", ⟨[b!"~", b!"", b!"%"], .ok⟩)]

/-- The calls it makes. -/
def calls : List Call := weave allProto pairs

/-- The request. -/
def request : Request := ParameterList.request cfg pairs

theorem trace : IsTrace request calls := isTrace_parameterList cfg pairs

theorem standard : Standard calls := weave_protos _ _

/-- A builder with a token, whose nonce and timestamp are generated. -/
def builder {S : Type} (sm : SignatureMethod S) : Builder S :=
  (Builder.withToken (.fromParts b!"client" b!"client/secret" b!"token" b!"token secret") sm).setVersion true

/-- The same with every option set. -/
def pinned {S : Type} (sm : SignatureMethod S) : Builder S :=
  ((((builder sm).setNonce (some b!"nonce")).setTimestamp (some ⟨1234567890, by decide, by decide⟩)).setCallback
    (some b!"oob")).setVerifier (some b!"v&w")

/-- The same with other secrets. -/
def otherSecrets {S : Type} (sm : SignatureMethod S) : Builder S :=
  (Builder.withToken (.fromParts b!"client" b!"x" b!"token" b!"y") sm).setVersion true

/-- Success, from what can be computed. -/
theorem ok_of_isSome {α β ε : Type} {x : Except ε (α × β)} (h : x.toOption.isSome = true) :
    ∃ a b, x = .ok (a, b) := by
  cases x with
  | ok y => exact ⟨y.1, y.2, rfl⟩
  | error e => cases h

/-- Success with a given value, from what can be computed. -/
theorem ok_of_eq {α β ε : Type} {x : Except ε (α × β)} {a : α} (h : x.toOption.map (·.1) = some a) :
    ∃ b, x = .ok (a, b) := by
  cases x with
  | ok y => exact ⟨y.2, by cases h; rfl⟩
  | error e => cases h

/-- A result, with its value computed. -/
theorem eq_ok {α β ε : Type} {x : Except ε (α × β)} {a b : α} {w : β} (h : x = .ok (a, w)) (e : a = b) :
    x = .ok (b, w) := e ▸ h

/-- The header of the request. -/
theorem header : ∃ out w', (builder hmacSha1).authorize cfg b!"GET" (.ofBytes uri) request world =
    .ok (out, w') := ok_of_isSome (by decide +kernel)

/-- The protocol parameters and the signature as a form. -/
theorem form : ∃ out w', (builder hmacSha1).toForm cfg b!"POST" (.ofBytes uri) request world =
    .ok (out, w') := ok_of_isSome (by decide +kernel)

/-- The protocol parameters and the signature as a query. -/
theorem query : ∃ out w', (builder hmacSha1).toQuery cfg stringWriter .ofBytes b!"GET" uri request world =
    .ok (out, w') := ok_of_isSome (by decide +kernel)

/-- The header with PLAINTEXT. -/
theorem plaintextHeader : ∃ out w', (builder plaintext).authorize cfg b!"GET" (.ofBytes uri) request world =
    .ok (out, w') := ok_of_isSome (by decide +kernel)

end OAuth.Case
