import Verif.Spec.PercentEncoding

/-
Specification: lengths of outputs, and buffers of a fixed capacity.
-/

namespace OAuth.Spec

/-- The length of a text when percent-encoded: three for each character that is not unreserved. -/
def encodedLength (s : Bytes) : Nat := (s.map fun b => if unreserved b then 1 else 3).sum

/-- The length of a header with these parameters (not encoded) and a signature of this length:
`OAuth `, `name="value",` for each, and `oauth_signature="…"`. -/
def headerLength (params : List (Bytes × Bytes)) (signature : Nat) : Nat :=
  6 + (params.map fun p => p.1.length + encodedLength p.2 + 4).sum + (15 + signature + 3)

/-- The length of a form: `name=value&` for each, and `oauth_signature=…`. -/
def formLength (params : List (Bytes × Bytes)) (signature : Nat) : Nat :=
  (params.map fun p => p.1.length + encodedLength p.2 + 2).sum + (15 + signature + 1)

/-- A buffer that holds `n` bytes and refuses what does not fit. -/
def capacityWriter (n : Nat) : Writer Bytes :=
  ⟨fun w s => if w.length + s.length ≤ n then some (w ++ s) else none⟩

end OAuth.Spec
