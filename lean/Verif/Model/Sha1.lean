import Verif.Model.Basic

/-
External crates `sha1` and `hmac`.
-/

namespace OAuth

namespace Sha1

/-- FIPS 180-4 section 5.1.1: message padding. -/
def pad (m : Bytes) : Bytes :=
  let l := m.length
  let k := (119 - l % 64) % 64
  let bits := l * 8
  m ++ [0x80] ++ List.replicate k 0 ++
    (List.range 8).map (fun i => UInt8.ofNat (bits / 256 ^ (7 - i)))

/-- Big-endian words of a block. -/
def toWords : Bytes → List UInt32
  | a :: b :: c :: d :: rest =>
    (UInt32.ofNat (a.toNat * 16777216 + b.toNat * 65536 + c.toNat * 256 + d.toNat)) :: toWords rest
  | _ => []

def rotl (x : UInt32) (n : UInt32) : UInt32 := (x <<< n) ||| (x >>> (32 - n))

/-- Working variables. -/
structure State where
  a : UInt32
  b : UInt32
  c : UInt32
  d : UInt32
  e : UInt32

def init : State := ⟨0x67452301, 0xEFCDAB89, 0x98BADCFE, 0x10325476, 0xC3D2E1F0⟩

/-- FIPS 180-4 section 4.1.1 and 4.2.1: round function and constant. -/
def fk (t : Nat) (b c d : UInt32) : UInt32 × UInt32 :=
  if t < 20 then ((b &&& c) ||| (~~~b &&& d), 0x5A827999)
  else if t < 40 then (b ^^^ c ^^^ d, 0x6ED9EBA1)
  else if t < 60 then ((b &&& c) ||| (b &&& d) ||| (c &&& d), 0x8F1BBCDC)
  else (b ^^^ c ^^^ d, 0xCA62C1D6)

/-- Rounds `t..80`, with a sliding window `w` of the 16 next schedule words. -/
def rounds : Nat → Nat → List UInt32 → State → State
  | 0, _, _, s => s
  | fuel + 1, t, w, s =>
    let wt := w.headD 0
    let next := rotl (w.getD 13 0 ^^^ w.getD 8 0 ^^^ w.getD 2 0 ^^^ w.getD 0 0) 1
    let (f, k) := fk t s.b s.c s.d
    let tmp := rotl s.a 5 + f + s.e + k + wt
    rounds fuel (t + 1) (w.tail ++ [next]) ⟨tmp, s.a, rotl s.b 30, s.c, s.d⟩

def compress (s : State) (block : Bytes) : State :=
  let r := rounds 80 0 (toWords block) s
  ⟨s.a + r.a, s.b + r.b, s.c + r.c, s.d + r.d, s.e + r.e⟩

def blocks : Nat → State → Bytes → State
  | 0, s, _ => s
  | n + 1, s, m => blocks n (compress s (m.take 64)) (m.drop 64)

def wordBytes (x : UInt32) : Bytes :=
  [UInt8.ofNat (x.toNat / 16777216), UInt8.ofNat (x.toNat / 65536), UInt8.ofNat (x.toNat / 256),
    UInt8.ofNat x.toNat]

/-- External crate `sha1` (FIPS 180-4): the digest of a complete message. -/
def hash (m : Bytes) : Bytes :=
  let p := pad m
  let s := blocks (p.length / 64) init p
  wordBytes s.a ++ wordBytes s.b ++ wordBytes s.c ++ wordBytes s.d ++ wordBytes s.e

end Sha1

/-- External crate `hmac`: `Hmac<D>` after `new_from_slice(key)` and some `update`s. The hash function
is a parameter of `finalize`. -/
structure Hmac where
  /-- the key as padded or hashed to a block (`get_der_key`) -/
  derKey : Bytes
  msg : Bytes
  deriving DecidableEq

/-- External crate `hmac` `get_der_key`: keys longer than the 64-byte block are hashed first, then
padded with zeroes. -/
def Hmac.newFromSlice (H : Bytes → Bytes) (key : Bytes) : Hmac :=
  let k := if key.length ≤ 64 then key else H key
  ⟨k ++ List.replicate (64 - k.length) 0, []⟩

/-- External crate `digest` `Update::update`. -/
def Hmac.update (h : Hmac) (m : Bytes) : Hmac := { h with msg := h.msg ++ m }

/-- External crate `hmac` `finalize`. -/
def Hmac.finalize (H : Bytes → Bytes) (h : Hmac) : Bytes :=
  H (h.derKey.map (· ^^^ 0x5C) ++ H (h.derKey.map (· ^^^ 0x36) ++ h.msg))

end OAuth
