import Verif.Model.Basic

/-
Specification: RFC 3986 percent-encoding, `application/x-www-form-urlencoded` pairs as the crate
documents them, written independently of the model.
-/

namespace OAuth.Spec

/-- RFC 3986 section 2.3: ALPHA / DIGIT / "-" / "." / "_" / "~". -/
def unreserved (b : UInt8) : Bool :=
  (0x41 ≤ b && b ≤ 0x5A) || (0x61 ≤ b && b ≤ 0x7A) || (0x30 ≤ b && b ≤ 0x39) ||
    b == 0x2D || b == 0x2E || b == 0x5F || b == 0x7E

/-- Upper-case hexadecimal digits (RFC 3986 section 2.1). -/
def hexChars : Bytes := b!"0123456789ABCDEF"

def hexChar (n : Nat) : UInt8 := hexChars.getD n 0

/-- RFC 5849 section 3.6: the encoding of one byte. -/
def encodeByte (b : UInt8) : Bytes :=
  if unreserved b then [b] else [0x25, hexChar (b.toNat / 16), hexChar (b.toNat % 16)]

/-- RFC 5849 section 3.6: percent-encoding of a byte string. -/
def encode (s : Bytes) : Bytes := s.flatMap encodeByte

/-- The value of a hexadecimal digit of either case. -/
def hexVal (b : UInt8) : Option Nat :=
  if 0x30 ≤ b && b ≤ 0x39 then some (b.toNat - 0x30)
  else if 0x41 ≤ b && b ≤ 0x46 then some (b.toNat - 0x37)
  else if 0x61 ≤ b && b ≤ 0x66 then some (b.toNat - 0x57)
  else none

/-- Percent-decoding (RFC 3986 section 2.1); `none` for a malformed escape. -/
def decode : Bytes → Option Bytes
  | [] => some []
  | 0x25 :: h :: l :: rest =>
    match hexVal h, hexVal l, decode rest with
    | some a, some b, some r => some (UInt8.ofNat (a * 16 + b) :: r)
    | _, _, _ => none
  | b :: rest => if b = 0x25 then none else (decode rest).map (b :: ·)

/-- Splits at every occurrence of `sep`; a string without `sep` is one piece. -/
def splitAll (sep : UInt8) : Bytes → List Bytes
  | [] => [[]]
  | b :: rest =>
    if b = sep then [] :: splitAll sep rest
    else match splitAll sep rest with
      | [] => [[b]]
      | p :: ps => (b :: p) :: ps

/-- Splits at the first occurrence of `sep`. -/
def splitFirst (sep : UInt8) : Bytes → Option (Bytes × Bytes)
  | [] => none
  | b :: rest => if b = sep then some ([], rest)
    else (splitFirst sep rest).map (fun (a, c) => (b :: a, c))

/-- Joins pieces with a separator. -/
def join (sep : Bytes) : List Bytes → Bytes
  | [] => []
  | [p] => p
  | p :: q :: rest => p ++ sep ++ join sep (q :: rest)

/-- `mapM` on `Option`, spelled out. -/
def allSome {α β : Type} (f : α → Option β) : List α → Option (List β)
  | [] => some []
  | a :: as => match f a, allSome f as with
    | some b, some bs => some (b :: bs)
    | _, _ => none

/-- One `name=value` item of a form: both parts decoded. -/
def parseItem (s : Bytes) : Option (Bytes × Bytes) :=
  match splitFirst 0x3D s with
  | none => none
  | some (k, v) => match decode k, decode v with
    | some k, some v => some (k, v)
    | _, _ => none

/-- Parses a form body or query string into its list of pairs. The empty string has no pairs. -/
def parseForm (s : Bytes) : Option (List (Bytes × Bytes)) :=
  if s = [] then some [] else allSome parseItem (splitAll 0x26 s)

end OAuth.Spec
