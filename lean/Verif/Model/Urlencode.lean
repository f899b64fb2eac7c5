import Verif.Model.PercentEncoding
import Verif.Model.Serializer

/-
serializer/urlencode.rs: the form/query serializer.
-/

namespace OAuth

/-- serializer/urlencode.rs l.23-27 `Append`. -/
inductive Append
  | none | question | ampersand
  deriving DecidableEq, Repr

/-- serializer/urlencode.rs l.13-19 `Urlencoder`. -/
structure Urlencoder (W : Type) where
  data : W
  nextAppend : Append
  deriving DecidableEq

namespace Urlencoder
variable {W : Type}

/-- serializer/urlencode.rs l.33-38 `form`. -/
def form : Urlencoder Bytes := ⟨[], .none⟩

/-- serializer/urlencode.rs l.47-52 `form_with_buf`. -/
def formWithBuf (buf : W) : Urlencoder W := ⟨buf, .none⟩

/-- serializer/urlencode.rs l.55-60 `query`. -/
def query (uri : W) : Urlencoder W := ⟨uri, .question⟩

/-- serializer/urlencode.rs l.62-71 `append_delim`. -/
def appendDelim (wr : Writer W) (u : Urlencoder W) : Except Panic (Urlencoder W) :=
  match u.nextAppend with
  | .none => .ok { u with nextAppend := .ampersand }
  | .question => do
    let d ← wr.writeUnwrap u.data (.ofBytes b!"?")
    .ok ⟨d, .ampersand⟩
  | .ampersand => do
    let d ← wr.writeUnwrap u.data (.ofBytes b!"&")
    .ok { u with data := d }

/-- serializer/urlencode.rs l.77-83 `serialize_parameter`. -/
def parameter (wr : Writer W) (u : Urlencoder W) (key : Bytes) (value : Display) :
    Except Panic (Urlencoder W) := do
  let u ← u.appendDelim wr
  let d ← wr.writeUnwrap u.data
    (.concat [.ofBytes key, .ofBytes b!"=", percentEncode value])
  .ok { u with data := d }

/-- serializer/urlencode.rs l.85-91 `serialize_parameter_encoded`. -/
def parameterEncoded (wr : Writer W) (u : Urlencoder W) (key : Bytes) (value : Display) :
    Except Panic (Urlencoder W) := do
  let u ← u.appendDelim wr
  let d ← wr.writeUnwrap u.data (.concat [.ofBytes key, .ofBytes b!"=", value])
  .ok { u with data := d }

/-- serializer/urlencode.rs l.74-98 `Serializer for Urlencoder<W>`; the protocol-parameter methods
are the empty ones of serializer.rs l.25-36 `skip_serialize_oauth_parameters!`. -/
def serializer (wr : Writer W) : Serializer (Urlencoder W) W where
  parameter u k v := u.parameter wr k v
  parameterEncoded u k v := u.parameterEncoded wr k v
  callback u := pure u
  consumerKey u := pure u
  nonce u := pure u
  signatureMethod u := pure u
  timestamp u := pure u
  token u := pure u
  verifier u := pure u
  version u := pure u
  «end» u := pure u.data

end Urlencoder
end OAuth
