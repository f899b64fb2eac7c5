import Verif.Model.Basic

/-
Specification: base64 decoding (RFC 4648 sections 4 and 5), written independently of the encoder.
-/

namespace OAuth.Spec

/-- RFC 4648 table 1. -/
def base64Alphabet : Bytes := b!"ABCDEFGHIJKLMNOPQRSTUVWXYZabcdefghijklmnopqrstuvwxyz0123456789+/"

/-- RFC 4648 table 2, "URL and filename safe". -/
def base64UrlAlphabet : Bytes :=
  b!"ABCDEFGHIJKLMNOPQRSTUVWXYZabcdefghijklmnopqrstuvwxyz0123456789-_"

/-- Bytes from 6-bit values. The unused bits of the last value must be zero. -/
def base64Groups : List Nat → Option Bytes
  | [] => some []
  | [_] => none
  | [a, b] => if b % 16 = 0 then some [UInt8.ofNat (a * 4 + b / 16)] else none
  | [a, b, c] =>
    if c % 4 = 0 then some [UInt8.ofNat (a * 4 + b / 16), UInt8.ofNat (b % 16 * 16 + c / 4)]
    else none
  | a :: b :: c :: d :: rest =>
    (base64Groups rest).map fun t =>
      UInt8.ofNat (a * 4 + b / 16) :: UInt8.ofNat (b % 16 * 16 + c / 4) ::
        UInt8.ofNat (c % 4 * 64 + d) :: t

/-- 6-bit values of symbols; `none` for a byte outside the alphabet. -/
def base64Values (alphabet : Bytes) : Bytes → Option (List Nat)
  | [] => some []
  | c :: rest => match alphabet.idxOf? c, base64Values alphabet rest with
    | some n, some ns => some (n :: ns)
    | _, _ => none

/-- Decoding without padding. -/
def base64DecodeNoPad (alphabet : Bytes) (s : Bytes) : Option Bytes :=
  (base64Values alphabet s).bind base64Groups

/-- Decoding with padding: a multiple of four symbols, up to two `=` at the end. -/
def base64DecodePad (alphabet : Bytes) (s : Bytes) : Option Bytes :=
  let body := s.takeWhile (· != 0x3D)
  let padding := s.dropWhile (· != 0x3D)
  if s.length % 4 = 0 ∧ (padding = [] ∨ padding = [0x3D] ∨ padding = [0x3D, 0x3D]) then
    base64DecodeNoPad alphabet body
  else none

end OAuth.Spec
