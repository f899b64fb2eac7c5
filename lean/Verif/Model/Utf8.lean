import Verif.Model.Basic

/-
The Rust standard library's reading of bytes as UTF-8: `core::str::from_utf8`
(`run_utf8_validation`) and `String::from_utf8_lossy` (`Utf8Chunks`). The example server calls them
(examples/src/server/handler.rs l. 369-373), and `percent-encoding`, `form_urlencoded` and `reqwest` do
on behalf of the example server and client.
-/

namespace OAuth.Utf8

/-- A continuation byte: `(b as i8) < -64`. -/
def cont (b : Option UInt8) : Bool := match b with
  | some b => decide (0x80 ≤ b.toNat) && decide (b.toNat ≤ 0xBF)
  | none => false

/-- The second byte of a sequence of three, by the first. -/
def second3 (a : UInt8) (b : Option UInt8) : Bool := match b with
  | some b =>
    if a.toNat = 0xE0 then decide (0xA0 ≤ b.toNat) && decide (b.toNat ≤ 0xBF)
    else if a.toNat = 0xED then decide (0x80 ≤ b.toNat) && decide (b.toNat ≤ 0x9F)
    else cont (some b)
  | none => false

/-- The second byte of a sequence of four, by the first. -/
def second4 (a : UInt8) (b : Option UInt8) : Bool := match b with
  | some b =>
    if a.toNat = 0xF0 then decide (0x90 ≤ b.toNat) && decide (b.toNat ≤ 0xBF)
    else if a.toNat = 0xF4 then decide (0x80 ≤ b.toNat) && decide (b.toNat ≤ 0x8F)
    else cont (some b)
  | none => false

/-- What stands at the front of the bytes `a :: s`: the length of a well-formed sequence, or of the
ill-formed bytes that count as one error (`Utf8Error::error_len`, or all that is left). -/
def front (a : UInt8) (s : Bytes) : Nat × Bool :=
  if a.toNat < 0x80 then (1, true)
  else if 0xC2 ≤ a.toNat ∧ a.toNat ≤ 0xDF then
    if cont s[0]? then (2, true) else (1, false)
  else if 0xE0 ≤ a.toNat ∧ a.toNat ≤ 0xEF then
    if second3 a s[0]? then
      if cont s[1]? then (3, true) else (2, false)
    else (1, false)
  else if 0xF0 ≤ a.toNat ∧ a.toNat ≤ 0xF4 then
    if second4 a s[0]? then
      if cont s[1]? then
        if cont s[2]? then (4, true) else (3, false)
      else (2, false)
    else (1, false)
  else (1, false)

/-- The bytes cut into well-formed sequences and errors. -/
def chunksAux : Nat → Bytes → List (Bytes × Bool)
  | _, [] => []
  | 0, _ => []
  | n + 1, a :: s =>
    ((a :: s).take (front a s).1, (front a s).2) :: chunksAux n ((a :: s).drop (front a s).1)

def chunks (s : Bytes) : List (Bytes × Bool) := chunksAux s.length s

/-- `str::from_utf8(s).is_ok()` -/
def valid (s : Bytes) : Bool := (chunks s).all (·.2)

/-- U+FFFD REPLACEMENT CHARACTER -/
def replacement : Bytes := [0xEF, 0xBF, 0xBD]

/-- `String::from_utf8_lossy` -/
def lossy (s : Bytes) : Bytes := (chunks s).flatMap fun c => if c.2 then c.1 else replacement

end OAuth.Utf8
