import Verif.Spec.Rfc5849

/-
Specification: RSASSA-PKCS1-v1_5 with SHA-1 (RFC 3447 sections 4, 8.2 and 9.2), on numbers.
-/

namespace OAuth.Spec

/-- Section 4.2: the number that bytes stand for, most significant first. -/
def os2ip (s : Bytes) : Nat := s.foldl (fun n b => n * 256 + b.toNat) 0

/-- Section 4.1: a number in `k` bytes. -/
def i2osp : Nat → Nat → Bytes
  | 0, _ => []
  | k + 1, n => i2osp k (n / 256) ++ [UInt8.ofNat (n % 256)]

/-- Section 9.2, note 1: the DER encoding of `DigestInfo` for SHA-1, without the digest. -/
def sha1DigestInfo : Bytes :=
  [0x30, 0x21, 0x30, 0x09, 0x06, 0x05, 0x2b, 0x0e, 0x03, 0x02, 0x1a, 0x05, 0x00, 0x04, 0x14]

/-- Section 9.2: `00 01 FF .. FF 00` and the digest info, `k` bytes in all. -/
def emsa (k : Nat) (digest : Bytes) : Option Bytes :=
  if digest.length = 20 ∧ 46 ≤ k then
    some ([0x00, 0x01] ++ List.replicate (k - 38) 0xFF ++ [0x00] ++ sha1DigestInfo ++ digest)
  else none

/-- A key pair: modulus, its length in bytes, public and private exponent. -/
structure RsaKey where
  n : Nat
  k : Nat
  e : Nat
  d : Nat

/-- Section 8.2.1, from the digest. -/
def RsaKey.sign (key : RsaKey) (digest : Bytes) : Option Bytes :=
  (emsa key.k digest).map fun em => i2osp key.k (os2ip em ^ key.d % key.n)

/-- Section 8.2.2, from the digest. -/
def RsaKey.verify (key : RsaKey) (digest sig : Bytes) : Bool :=
  sig.length == key.k && decide (os2ip sig < key.n) &&
    match emsa key.k digest with
    | none => false
    | some em => i2osp key.k (os2ip sig ^ key.e % key.n) == em

/-- Section 3: two distinct primes, `k` bytes, and exponents that undo each other. -/
structure RsaKey.Valid (key : RsaKey) (prime : Nat → Prop) : Prop where
  size : 256 ^ (key.k - 1) ≤ key.n ∧ key.n < 256 ^ key.k
  factors : ∃ p q, prime p ∧ prime q ∧ p ≠ q ∧ key.n = p * q ∧
    (p - 1) ∣ (key.e * key.d - 1) ∧ (q - 1) ∣ (key.e * key.d - 1) ∧ 0 < key.e * key.d

end OAuth.Spec
