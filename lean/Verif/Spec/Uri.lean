import Verif.Spec.Decimal
import Verif.Spec.PercentEncoding

/-
Specification: http and https URIs (RFC 3986 section 3), and the base string URI of RFC 5849 section
3.4.1.2.
-/

namespace OAuth.Spec

/-- ASCII lower case. -/
def lower (s : Bytes) : Bytes := s.map fun b => if 0x41 ≤ b && b ≤ 0x5A then b + 0x20 else b

/-- The components of a URI with an authority. -/
structure Uri where
  scheme : Bytes
  userinfo : Option Bytes := none
  host : Bytes
  port : Option Bytes := none
  path : Bytes
  query : Option Bytes := none
  fragment : Option Bytes := none
deriving DecidableEq

namespace Uri

/-- RFC 3986 section 5.3: the text of a URI. -/
def text (u : Uri) : Bytes :=
  u.scheme ++ (b!"://" ++
    (((u.userinfo.map (· ++ b!"@")).getD [] ++ (u.host ++ (u.port.map (b!":" ++ ·)).getD [])) ++
    (u.path ++ ((u.query.map (b!"?" ++ ·)).getD [] ++ (u.fragment.map (b!"#" ++ ·)).getD []))))

/-- RFC 3986 section 3.2: the authority. -/
def authority (u : Uri) : Bytes :=
  (u.userinfo.map (· ++ b!"@")).getD [] ++ (u.host ++ (u.port.map (b!":" ++ ·)).getD [])

/-- A character that does not end the authority. -/
def inAuthority (b : UInt8) : Bool := b != 0x2F && b != 0x3F && b != 0x23

/-- A host: a name or an IPv4 address, or an address in square brackets. -/
def HostOk (h : Bytes) : Prop :=
  (h ≠ [] ∧ ∀ b ∈ h, inAuthority b = true ∧ b ≠ 0x40 ∧ b ≠ 0x3A ∧ b ≠ 0x5B) ∨
  ∃ a, h = b!"[" ++ a ++ b!"]" ∧ ∀ b ∈ a, inAuthority b = true ∧ b ≠ 0x40 ∧ b ≠ 0x5D

/-- The syntax of http and https URIs, as far as it is needed to tell the components apart. -/
structure Valid (u : Uri) : Prop where
  scheme : lower u.scheme = b!"http" ∨ lower u.scheme = b!"https"
  userinfo : ∀ x, u.userinfo = some x → ∀ b ∈ x, inAuthority b = true ∧ b ≠ 0x40
  host : HostOk u.host
  port : ∀ p, u.port = some p → ∀ b ∈ p, 0x30 ≤ b ∧ b ≤ 0x39
  path : u.path.head? = none ∨ u.path.head? = some 0x2F
  pathChars : ∀ b ∈ u.path, b ≠ 0x3F ∧ b ≠ 0x23
  query : ∀ q, u.query = some q → ∀ b ∈ q, b ≠ 0x23

/-- The port that goes without saying. -/
def defaultPort (u : Uri) : Nat := if lower u.scheme = b!"https" then 443 else 80

/-- RFC 5849 section 3.4.1.2, of the request an HTTP client makes for `u`: scheme and host in lower
case, the port unless it is the default, and the path; RFC 7230 section 5.3.1: an empty path is
requested as `/`. -/
def baseUri (u : Uri) : Bytes :=
  lower u.scheme ++ b!"://" ++ lower u.host ++
    (match u.port with
      | none => []
      | some p => if p = [] ∨ readDecimal p = some u.defaultPort then [] else b!":" ++ p) ++
    if u.path = [] then b!"/" else u.path

/-- In normal form: nothing to add, to leave out or to convert. -/
structure Normal (u : Uri) : Prop where
  scheme : lower u.scheme = u.scheme
  userinfo : u.userinfo = none
  host : lower u.host = u.host
  port : ∀ p, u.port = some p → p ≠ [] ∧ readDecimal p ≠ some u.defaultPort
  path : u.path ≠ []
  query : u.query = none
  fragment : u.fragment = none

end Uri
end OAuth.Spec
