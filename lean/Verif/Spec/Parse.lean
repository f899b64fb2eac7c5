import Verif.Spec.Auth

/-
Specification: what a recipient makes of a header (RFC 5849 section 3.5.1) or of a signature base
string (section 3.4.1.1), written independently of the code that produces them.
-/

namespace OAuth.Spec

/-- `name="value"`: both decoded. -/
def parseHeaderItem (s : Bytes) : Option (Bytes × Bytes) :=
  match splitFirst 0x3D s with
  | some (k, 0x22 :: rest) =>
    if rest.getLast? = some 0x22 ∧ (0x22 : UInt8) ∉ rest.dropLast then
      match decode k, decode rest.dropLast with
      | some k, some v => some (k, v)
      | _, _ => none
    else none
  | _ => none

/-- `OAuth ` and items separated by commas. -/
def parseHeader (s : Bytes) : Option (List (Bytes × Bytes)) :=
  if s.take 6 = b!"OAuth " then allSome parseHeaderItem (splitAll 0x2C (s.drop 6)) else none

/-- Method, URI, and parameters of a base string: three parts separated by `&`, the second and third
encoded, the third being a list of encoded pairs. -/
def parseBase (s : Bytes) : Option (Bytes × Bytes × List (Bytes × Bytes)) :=
  match splitFirst 0x26 s with
  | none => none
  | some (m, rest) => match splitFirst 0x26 rest with
    | none => none
    | some (u, ps) => match decode u, decode ps with
      | some u, some ps => (parseForm ps).map fun ps => (m, u, ps)
      | _, _ => none

/-- The pair a call is meant to convey. -/
def Call.effective (e : Env) (n : Bytes) (t : Nat) : Call → Option (Bytes × Bytes)
  | .parameter k v => some (k, v.text)
  | .parameterEncoded k v => (decode v.text).map fun d => (k, d)
  | .oauth p => (e.value n t p).map fun v => (p.name, v)

/-- The protocol parameters in order, with their values. -/
def Env.protocolParams (e : Env) (n : Bytes) (t : Nat) : List (Bytes × Bytes) :=
  allProto.filterMap fun p => (e.value n t p).map fun v => (p.name, v)

/-- Keys are made of unreserved characters; an encoded value is an encoded value. -/
def Call.safe : Call → Prop
  | .parameter k _ => ∀ b ∈ k, unreserved b = true
  | .parameterEncoded k v => (∀ b ∈ k, unreserved b = true) ∧ (0x26 : UInt8) ∉ v.text ∧
      (decode v.text).isSome = true
  | .oauth _ => True

end OAuth.Spec
