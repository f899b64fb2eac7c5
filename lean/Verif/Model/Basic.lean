/-
Basic vocabulary of the model: byte strings, formatted values, writers, panics and the outside world.
-/

namespace OAuth

/-- A Rust `str`/`String`/`[u8]`. All byte strings are allowed, a superset of the UTF-8 ones. -/
abbrev Bytes := List UInt8

/-- `b!"text"` is the list of the UTF-8 bytes of the literal, as explicit numerals. -/
syntax:max "b!" str : term
macro_rules
  | `(b! $s:str) => do
    let elems : Array (Lean.TSyntax `term) := s.getString.toUTF8.toList.toArray.map fun b =>
      Lean.Syntax.mkNumLit (toString b.toNat)
    `(([$elems,*] : List UInt8))

/-- Rust's `<str as Ord>::cmp` / `<[u8] as Ord>::cmp` (std): lexicographic comparison of bytes. -/
def cmpBytes : Bytes → Bytes → Ordering
  | [], [] => .eq
  | [], _ :: _ => .lt
  | _ :: _, [] => .gt
  | a :: as, b :: bs => if a < b then .lt else if b < a then .gt else cmpBytes as bs

/-- Rust's `a <= b` on strings. -/
def bytesLe (a b : Bytes) : Bool := cmpBytes a b != .gt

/-- The ways in which a call of the modelled code can panic (or be undefined behaviour). -/
inductive Panic
  /-- `.unwrap()` of an `Err(fmt::Error)`. -/
  | fmtUnwrap
  /-- A `Display` implementation of the caller panics. -/
  | userDisplay
  /-- serializer/auth.rs l.225: `uri` must not contain a query part. -/
  | uriQuery
  /-- serializer/auth.rs l.264: key order assertion. -/
  | keyOrder
  /-- util/oauth_parameter.rs l.28: `next` on `OAuthParameter::None` (debug assertion). -/
  | nextNone
  /-- util.rs l.163: `serialize` on `OAuthParameter::None`. -/
  | serializeNone
  /-- serializer/auth.rs l.396: no clock in `no_std` mode. -/
  | noClock
  /-- A slice index out of bounds or a failed `copy_from_slice`. -/
  | outOfBounds
  /-- A failed `debug_assert!(s.is_ascii())` (util/percent_encoding.rs l.52, l.57). -/
  | notAscii
  /-- Undefined behaviour: `from_utf8_unchecked` on bytes that are not known to be ASCII. -/
  | undefinedBehaviour
  /-- The RSA private key operation failed (signature_method/rsa_sha1.rs `end`, `.unwrap()`). -/
  | rsa
  /-- base64 `encode_slice` output buffer too small (serializer/auth.rs l.435-437, `.unwrap()`). -/
  | base64Buffer
  /-- An arithmetic overflow check (debug builds). -/
  | overflow
  /-- A failed slice/char-boundary or `unwrap` in the example server. -/
  | server
  /-- A failed `unwrap`/`expect` in the derive macro (a compile-time panic), or a call of generated code
  that rustc would have rejected. -/
  | derive
  /-- Artefact of the model: a loop ran out of fuel. Proved unreachable. -/
  | fuel
  deriving DecidableEq, Repr

/-- Result of a formatting routine after the fragments it wrote. -/
inductive Outcome
  | ok
  | err
  | panic (p : Panic)
  deriving DecidableEq, Repr

/-- A value with a `core::fmt::Display` implementation, as seen through `{}` formatting: the
fragments it passes to `write_str`, in order, and how `fmt` ends after them.

Simplification: an implementation that swallows an error reported by the writer (see `Model/Fmt`), or that
prints different text when printed again, is not covered. -/
structure Display where
  chunks : List Bytes
  outcome : Outcome := .ok
  deriving DecidableEq, Repr

namespace Display

/-- The text written (`to_string()` when the outcome is `ok`). -/
def text (d : Display) : Bytes := d.chunks.flatten

/-- `Display for str` (core): `f.pad(s)` without width writes the string in one `write_str`. -/
def ofBytes (s : Bytes) : Display := { chunks := [s] }

/-- `core::fmt::write`: run one formatting routine after another, stopping at the first error. -/
def append (a b : Display) : Display :=
  match a.outcome with
  | .ok => { chunks := a.chunks ++ b.chunks, outcome := b.outcome }
  | _ => a

instance : Append Display := ⟨append⟩

/-- `write!("{}{}...")` with the given arguments and literal pieces. -/
def concat : List Display → Display
  | [] => { chunks := [] }
  | d :: ds => d ++ concat ds

end Display

/-- `Display for u64` (core): decimal digits without leading zeroes. `fuel` bounds the number of
digits. -/
def decimalAux : Nat → Nat → Bytes
  | 0, _ => []
  | fuel + 1, n =>
    if n < 10 then [UInt8.ofNat (48 + n)]
    else decimalAux fuel (n / 10) ++ [UInt8.ofNat (48 + n % 10)]

/-- The decimal representation of `n`. -/
def decimal (n : Nat) : Bytes := decimalAux (n + 1) n

/-- A type `W` implementing `core::fmt::Write`. `none` is `Err(fmt::Error)`.

Simplification: `write_char(c)` is the trait's default `write_str(c.encode_utf8(..))`. The state
after an error is irrelevant because every caller in the crate unwraps. -/
structure Writer (W : Type) where
  writeStr : W → Bytes → Option W

namespace Writer

/-- Writes fragments one by one, stopping at the first failure. -/
def writeAll {W : Type} (wr : Writer W) : W → List Bytes → Option W
  | w, [] => some w
  | w, c :: cs => match wr.writeStr w c with
    | none => none
    | some w' => wr.writeAll w' cs

/-- `write!(w, "{}", d).unwrap()`. -/
def writeUnwrap {W : Type} (wr : Writer W) (w : W) (d : Display) : Except Panic W :=
  match wr.writeAll w d.chunks with
  | none => .error .fmtUnwrap
  | some w' => match d.outcome with
    | .ok => .ok w'
    | .err => .error .fmtUnwrap
    | .panic p => .error p

end Writer

/-- `fmt::Write for String` (alloc): appends, never fails. -/
def stringWriter : Writer Bytes := ⟨fun w s => some (w ++ s)⟩

/-- Which clock `get_current_timestamp` uses (serializer/auth.rs l.384-404). -/
inductive ClockSource
  | std
  | js
  | none
  deriving DecidableEq, Repr

/-- Build configuration. -/
structure Cfg where
  /-- `cfg(debug_assertions)` -/
  debug : Bool
  /-- feature `alloc` -/
  alloc : Bool := true
  clock : ClockSource := .std
  deriving DecidableEq, Repr

/-- `prev_key` exists in the authorizer: `cfg(all(feature = "alloc", debug_assertions))`. -/
def Cfg.checksOrder (c : Cfg) : Bool := c.alloc && c.debug

/-- The nondeterministic environment: an arbitrary stream of random bytes and an arbitrary stream of
clock readings (nanoseconds relative to the Unix epoch), with cursors. -/
structure World where
  rng : Nat → UInt8
  rngPos : Nat := 0
  clock : Nat → Int
  clockPos : Nat := 0

/-- Computations of the modelled code: they may read the world and may panic. -/
abbrev M := StateT World (Except Panic)

/-- `rng.fill_bytes(&mut [u8; n])`: the next `n` bytes. -/
def fillBytes (n : Nat) : M Bytes := fun w =>
  .ok ((List.range n).map (fun i => w.rng (w.rngPos + i)), { w with rngPos := w.rngPos + n })

/-- `SystemTime::now()` / `Date::now()`. -/
def readClock : M Int := fun w =>
  .ok (w.clock w.clockPos, { w with clockPos := w.clockPos + 1 })

/-- Abort with a panic. -/
def panicM {α : Type} (p : Panic) : M α := fun _ => .error p

end OAuth
