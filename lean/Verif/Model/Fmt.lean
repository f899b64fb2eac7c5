import Verif.Model.Urlencode
import Verif.Model.SignatureMethod

/-! `core::fmt` without the simplifications of `Model/Basic`: a `Display` implementation is told whether each of
its writes succeeded and may do what it likes then, and a writer has a state after a failed write, too. Where
values of requests are written: urlencode.rs, percent_encoding.rs and digest_common.rs. -/

namespace OAuth

/-- A type `W` implementing `core::fmt::Write`: whether the write succeeded, and the state after it. -/
structure AnyWriter (W : Type) where
  writeStr : W → Bytes → Bool × W

/-- What an implementation of `Display::fmt` does: it returns (or panics), or it writes and goes on with the
result of the write. -/
inductive Fmt
  | ret (o : Outcome)
  | write (s : Bytes) (next : Bool → Fmt)

namespace Fmt

/-- `Display for str`, and a literal piece of a format string. -/
def ofStr (s : Bytes) : Fmt := .write s fun ok => .ret (if ok then .ok else .err)

/-- `core::fmt::write`: the next argument if the one before was formatted. -/
def andThen : Fmt → Fmt → Fmt
  | .ret .ok, g => g
  | .ret o, _ => .ret o
  | .write s next, g => .write s fun ok => (next ok).andThen g

/-- `fmt` on a writer. -/
def run {W : Type} (wr : AnyWriter W) : Fmt → W → Outcome × W
  | .ret o, w => (o, w)
  | .write s next, w => (next (wr.writeStr w s).1).run wr (wr.writeStr w s).2

/-- `write_str` of an adapter that writes `chunks` to the underlying writer and stops at the first failure
(`?`); then the formatting of which it is part goes on with the result. -/
def pieces : List Bytes → Outcome → (Bool → Fmt) → Fmt
  | [], .ok, next => next true
  | [], .err, next => next false
  | [], .panic p, _ => .ret (.panic p)
  | c :: cs, o, next => .write c fun ok => if ok then pieces cs o next else next false

/-- Formatting through an adapter whose `write_str` writes what `f` says. -/
def adapt (f : Bytes → Display) : Fmt → Fmt
  | .ret o => .ret o
  | .write s next => pieces (f s).chunks (f s).outcome fun ok => (next ok).adapt f

/-- util/percent_encoding.rs l.70-80 `Display for PercentEncode<D>`. -/
def percentEncode (v : Fmt) : Fmt := v.adapt percentEncodeStr

/-- util/percent_encoding.rs l.29-68 `Display for DoublePercentEncode<D>`. -/
def doublePercentEncode (cfg : Cfg) (v : Fmt) : Fmt := v.adapt fun c => doubleLoop cfg c.length c

end Fmt

namespace AnyWriter
variable {W : Type} (wr : AnyWriter W)

/-- `write!(w, "{}", v).unwrap()`. -/
def writeUnwrap (w : W) (v : Fmt) : Except Panic W :=
  match v.run wr w with
  | (.ok, w) => .ok w
  | (.err, _) => .error .fmtUnwrap
  | (.panic p, _) => .error p

/-- serializer/urlencode.rs l.62-71 `append_delim`. -/
def appendDelim (u : Urlencoder W) : Except Panic (Urlencoder W) :=
  match u.nextAppend with
  | .none => .ok { u with nextAppend := .ampersand }
  | .question => do
    let d ← wr.writeUnwrap u.data (.ofStr b!"?")
    .ok ⟨d, .ampersand⟩
  | .ampersand => do
    let d ← wr.writeUnwrap u.data (.ofStr b!"&")
    .ok { u with data := d }

/-- serializer/urlencode.rs l.85-91 `serialize_parameter_encoded`. -/
def parameterEncoded (u : Urlencoder W) (key : Bytes) (value : Fmt) : Except Panic (Urlencoder W) := do
  let u ← wr.appendDelim u
  let d ← wr.writeUnwrap u.data ((Fmt.ofStr key).andThen ((Fmt.ofStr b!"=").andThen value))
  .ok { u with data := d }

/-- serializer/urlencode.rs l.77-83 `serialize_parameter`. -/
def parameter (u : Urlencoder W) (key : Bytes) (value : Fmt) : Except Panic (Urlencoder W) := do
  let u ← wr.appendDelim u
  let d ← wr.writeUnwrap u.data ((Fmt.ofStr key).andThen ((Fmt.ofStr b!"=").andThen value.percentEncode))
  .ok { u with data := d }

end AnyWriter

/-- A call made by a request on a serializer that skips protocol parameters. -/
inductive FmtCall
  | parameter (key : Bytes) (value : Fmt)
  | parameterEncoded (key : Bytes) (value : Fmt)

/-- The calls of a request on `Urlencoder` (serializer/urlencode.rs l.74-98), and `end`. -/
def urlencodeAny {W : Type} (wr : AnyWriter W) : List FmtCall → Urlencoder W → Except Panic W
  | [], u => .ok u.data
  | .parameter k v :: cs, u => do
    let u ← wr.parameter u k v
    urlencodeAny wr cs u
  | .parameterEncoded k v :: cs, u => do
    let u ← wr.parameterEncoded u k v
    urlencodeAny wr cs u

/-- signature_method/digest_common.rs l.25-29 `UpdateSign::parameter`, for a value of a request
(serializer/auth.rs l.298-302, l.304-308): the writer is `UpdateWrite` (l.46-51), which always returns `Ok`. -/
def UpdateOps.anyWriter {U : Type} (o : UpdateOps U) : AnyWriter U := ⟨fun u s => (true, o.upd u s)⟩

/-- signature_method/digest_common.rs l.25-29. -/
def UpdateOps.parameterAny {U : Type} (o : UpdateOps U) (u : U) (key : Bytes) (value : Fmt) : Except Panic U :=
  o.anyWriter.writeUnwrap (o.upd (o.upd u key) b!"%3D") value

/-- `fmt::Write for String` (alloc). -/
def stringAnyWriter : AnyWriter Bytes := ⟨fun w s => (true, w ++ s)⟩

end OAuth
