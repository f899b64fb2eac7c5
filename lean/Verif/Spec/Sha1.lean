import Verif.Model.Basic

/-
Specification: SHA-1 as in FIPS 180-4, on 32-bit words.
-/

namespace OAuth.Spec.Sha1

abbrev Word := BitVec 32

/-- The number that bytes denote, most significant byte first. -/
def beNat (s : Bytes) : Nat := s.foldl (fun n b => 256 * n + b.toNat) 0

/-- Section 3.1: four bytes as a word. -/
def word (s : Bytes) : Word := BitVec.ofNat 32 (beNat s)

/-- Section 5.1.1: a one bit, the least number of zero bits that leaves 64 bits in the last block, and the
length in bits. -/
def IsPadded (m p : Bytes) : Prop :=
  ∃ k len, p = m ++ [0x80] ++ List.replicate k 0 ++ len ∧ k < 64 ∧ (m.length + 1 + k) % 64 = 56 ∧
    len.length = 8 ∧ beNat len = 8 * m.length % 2 ^ 64

/-- Section 4.1.1: `Ch`, `Parity`, `Maj`, `Parity`. -/
def f (t : Nat) (x y z : Word) : Word :=
  if t ≤ 19 then (x &&& y) ^^^ (~~~x &&& z)
  else if t ≤ 39 then x ^^^ y ^^^ z
  else if t ≤ 59 then (x &&& y) ^^^ (x &&& z) ^^^ (y &&& z)
  else x ^^^ y ^^^ z

/-- Section 4.2.1. -/
def K (t : Nat) : Word :=
  if t ≤ 19 then 0x5a827999 else if t ≤ 39 then 0x6ed9eba1 else if t ≤ 59 then 0x8f1bbcdc else 0xca62c1d6

/-- Five words: a hash value, or the working variables. -/
structure Five where
  (a b c d e : Word)

/-- Section 5.3.1. -/
def H0 : Five := ⟨0x67452301, 0xefcdab89, 0x98badcfe, 0x10325476, 0xc3d2e1f0⟩

/-- Section 6.1.2, step 1: the message schedule of a block. -/
def IsSchedule (block : Bytes) (W : Nat → Word) : Prop :=
  (∀ t, t ≤ 15 → W t = word ((block.drop (4 * t)).take 4)) ∧
  ∀ t, 16 ≤ t → t ≤ 79 → W t = (W (t - 3) ^^^ W (t - 8) ^^^ W (t - 14) ^^^ W (t - 16)).rotateLeft 1

/-- Step 3, for one `t`. -/
def step (W : Nat → Word) (v : Five) (t : Nat) : Five :=
  ⟨v.a.rotateLeft 5 + f t v.b v.c v.d + v.e + K t + W t, v.a, v.b.rotateLeft 30, v.c, v.d⟩

/-- Steps 2 to 4: the hash value after a block. -/
def IsNext (h : Five) (block : Bytes) (h' : Five) : Prop :=
  ∃ W, IsSchedule block W ∧
    let v := (List.range 80).foldl (step W) h
    h' = ⟨v.a + h.a, v.b + h.b, v.c + h.c, v.d + h.d, v.e + h.e⟩

/-- The hash value after all blocks of 64 bytes. -/
inductive Blocks : Five → Bytes → Five → Prop
  | done (h : Five) : Blocks h [] h
  | block {h h1 h2 : Five} {block rest : Bytes} : block.length = 64 → IsNext h block h1 →
      Blocks h1 rest h2 → Blocks h (block ++ rest) h2

/-- The digest of a message: the words of the last hash value, in order. -/
def IsDigest (m d : Bytes) : Prop :=
  ∃ p h, IsPadded m p ∧ Blocks H0 p h ∧ d.length = 20 ∧ word (d.take 4) = h.a ∧
    word ((d.drop 4).take 4) = h.b ∧ word ((d.drop 8).take 4) = h.c ∧ word ((d.drop 12).take 4) = h.d ∧
    word ((d.drop 16).take 4) = h.e

end OAuth.Spec.Sha1
