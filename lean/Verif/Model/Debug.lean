import Verif.Model.Builder

/-
`Debug` implementations: those derived (rustc's `derive(Debug)` over `core::fmt::builders`) and those
written by hand. A `Debug` value is what it writes for `{:?}` (`false`) and `{:#?}` (`true`); formatter
flags other than `#` and failing formatters are left out.
-/

namespace OAuth

abbrev Dbg := Bool → Bytes

namespace Dbg

/-- `f.write_str`. -/
def text (s : Bytes) : Dbg := fun _ => s

/-- core::fmt::builders `PadAdapter`: four spaces before each line. -/
def indentFrom : Bool → Bytes → Bytes
  | _, [] => []
  | start, b :: rest => (if start then b!"    " else []) ++ b :: indentFrom (b == 0x0A) rest

def indent (s : Bytes) : Bytes := indentFrom true s

/-- core::fmt::builders `DebugStruct`. -/
def struct (name : Bytes) (fields : List (Bytes × Dbg)) : Dbg := fun pretty =>
  if fields.isEmpty then name
  else if pretty then
    name ++ b!" {\n" ++ (fields.map fun f => indent (f.1 ++ b!": " ++ f.2 true ++ b!",\n")).flatten ++
      b!"}"
  else name ++ b!" { " ++ List.intercalate b!", " (fields.map fun f => f.1 ++ b!": " ++ f.2 false)
    ++ b!" }"

/-- core::fmt::builders `DebugTuple`. -/
def tuple (name : Bytes) (fields : List Dbg) : Dbg := fun pretty =>
  if fields.isEmpty then name
  else if pretty then
    name ++ b!"(\n" ++ (fields.map fun f => indent (f true ++ b!",\n")).flatten ++ b!")"
  else name ++ b!"(" ++ List.intercalate b!", " (fields.map fun f => f false) ++ b!")"

/-- `Debug for Option<T>`. -/
def option {α : Type} (d : α → Dbg) : Option α → Dbg
  | some a => tuple b!"Some" [d a]
  | none => text b!"None"

/-- `Debug for bool`. -/
def bool (b : Bool) : Dbg := text (if b then b!"true" else b!"false")

/-- `Debug for NonZeroU64`. -/
def u64 (n : NonZeroU64) : Dbg := text (decimal n.val)

end Dbg

/-- `Debug` implementations of dependencies. `Debug for str` is any function of the text. The `Hmac` and
`Sha1` types of hmac 0.12 and sha1 0.10 (`CoreWrapper`, "Sha1 { .. }") show their names only. -/
structure ExternDebug where
  str : Bytes → Bytes
  hmac : Bytes
  sha1 : Bytes

/-- oauth-credentials/src/lib.rs l.174-198 `Debug for Credentials<T>`. -/
def Credentials.debug {T : Type} (d : T → Dbg) (c : Credentials T) : Dbg :=
  .struct b!"Credentials" [(b!"identifier", d c.identifier), (b!"secret", .text b!"<hidden>")]

/-- oauth-credentials/src/lib.rs l.97, l.108 `derive(Debug) for Token<C, T>`. -/
def Token.debug {C T : Type} (dc : C → Dbg) (dt : T → Dbg) (t : Token C T) : Dbg :=
  .struct b!"Token" [(b!"client", t.client.debug dc), (b!"token", t.token.debug dt)]

namespace ExternDebug
variable (x : ExternDebug)

/-- `Debug for str` and `String`. -/
def string (s : Bytes) : Dbg := .text (x.str s)

/-- serializer/auth.rs l.48 `derive(Debug) for Options`. -/
def options (o : Options) : Dbg :=
  .struct b!"Options" [(b!"callback", .option x.string o.callback),
    (b!"verifier", .option x.string o.verifier), (b!"nonce", .option x.string o.nonce),
    (b!"timestamp", .option .u64 o.timestamp), (b!"version", .bool o.version)]

/-- lib.rs l.242 `derive(Debug) for Builder`; `sm` is the `Debug` of the signature method. -/
def builder {S : Type} (sm : Dbg) (b : Builder S) : Dbg :=
  .struct b!"Builder" [(b!"signature_method", sm), (b!"client", b.client.debug x.string),
    (b!"token", .option (Credentials.debug x.string) b.token), (b!"options", x.options b.options)]

/-- signature_method/hmac_sha1.rs l.55-61 `Debug for HmacSha1`. -/
def hmacSha1 : Dbg := .struct b!"HmacSha1" []

/-- signature_method/plaintext.rs l.70-76 `Debug for Plaintext`. -/
def plaintext : Dbg := .struct b!"Plaintext" []

/-- signature_method/rsa_sha1.rs l.18, derived; `dk` is `Debug` of the key type. -/
def rsaSha1 {K : Type} (dk : K → Dbg) (key : K) : Dbg := .struct b!"RsaSha1" [(b!"key", dk key)]

/-- signature_method/hmac_sha1.rs l.26 and digest_common.rs l.8, derived. -/
def hmacSha1Sign (_ : Hmac) : Dbg :=
  .struct b!"HmacSha1Sign" [(b!"inner", .tuple b!"UpdateSign" [.text x.hmac])]

/-- signature_method/plaintext.rs l.20, derived; `W = String`. -/
def plaintextSign (s : Bytes) : Dbg :=
  .struct b!"PlaintextSign" [(b!"signing_key", x.string s)]

/-- signature_method/rsa_sha1.rs l.25, derived; `dk` is `Debug` of the key type. -/
def rsaSha1Sign {K : Type} (dk : K → Dbg) (s : RsaSign K) : Dbg :=
  .struct b!"RsaSha1Sign" [(b!"inner", .tuple b!"UpdateSign" [.text x.sha1]), (b!"key", dk s.key)]

/-- serializer/urlencode.rs l.22, derived. -/
def append : Append → Dbg
  | .none => .text b!"None"
  | .question => .text b!"Question"
  | .ampersand => .text b!"Ampersand"

/-- serializer/urlencode.rs l.12, derived. -/
def urlencoder (u : Urlencoder Bytes) : Dbg :=
  .struct b!"Urlencoder" [(b!"data", x.string u.data), (b!"next_append", append u.nextAppend)]

/-- serializer/auth.rs l.40, derived. -/
def data : Data Bytes → Dbg
  | .authorization h => .tuple b!"Authorization" [x.string h]
  | .urlencode u => .tuple b!"Urlencode" [x.urlencoder u]

/-- serializer/auth.rs l.22, derived; `prev_key` exists if its `cfg` holds. `ds` is `Debug` of the
signing algorithm's state. -/
def authorizer {S : Type} (cfg : Cfg) (ds : S → Dbg) (a : Authorizer S Bytes) : Dbg :=
  .struct b!"Authorizer" ([(b!"consumer_key", x.string a.consumerKey),
    (b!"token", .option x.string a.token), (b!"options", x.options a.options),
    (b!"data", x.data a.data), (b!"sign", ds a.sign),
    (b!"append_delim_to_sign", .bool a.appendDelimToSign)] ++
    if cfg.checksOrder then [(b!"prev_key", x.string a.prevKey)] else [])

end ExternDebug
end OAuth
