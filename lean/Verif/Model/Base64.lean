import Verif.Model.Basic

/-
External crate `base64` (RFC 4648): the two engines the crate uses.
-/

namespace OAuth

/-- External crate `base64`: `alphabet::STANDARD` / `alphabet::URL_SAFE`, symbol for a 6-bit value. -/
def base64Symbol (urlSafe : Bool) (n : Nat) : UInt8 :=
  if n < 26 then UInt8.ofNat (65 + n)
  else if n < 52 then UInt8.ofNat (97 + (n - 26))
  else if n < 62 then UInt8.ofNat (48 + (n - 52))
  else if n = 62 then (if urlSafe then 45 else 43)
  else (if urlSafe then 95 else 47)

/-- External crate `base64`: `Engine::encode`, three bytes to four symbols; the tail is padded with
`=` iff `pad`. -/
def base64Encode (urlSafe pad : Bool) : Bytes → Bytes
  | a :: b :: c :: rest =>
    base64Symbol urlSafe (a.toNat / 4) ::
    base64Symbol urlSafe (a.toNat % 4 * 16 + b.toNat / 16) ::
    base64Symbol urlSafe (b.toNat % 16 * 4 + c.toNat / 64) ::
    base64Symbol urlSafe (c.toNat % 64) :: base64Encode urlSafe pad rest
  | [a, b] =>
    base64Symbol urlSafe (a.toNat / 4) ::
    base64Symbol urlSafe (a.toNat % 4 * 16 + b.toNat / 16) ::
    base64Symbol urlSafe (b.toNat % 16 * 4) :: (if pad then [61] else [])
  | [a] =>
    base64Symbol urlSafe (a.toNat / 4) ::
    base64Symbol urlSafe (a.toNat % 4 * 16) :: (if pad then [61, 61] else [])
  | [] => []

/-- `general_purpose::STANDARD.encode`. -/
def base64Standard : Bytes → Bytes := base64Encode false true

/-- `general_purpose::URL_SAFE_NO_PAD.encode`. -/
def base64UrlNoPad : Bytes → Bytes := base64Encode true false

/-- `base64::display::Base64Display`. Simplification: the crate writes in fragments of up to 1024
symbols, the model in one; C01 shows that fragmentation does not matter to the caller. -/
def base64Display (s : Bytes) : Display := .ofBytes (base64Standard s)

end OAuth
