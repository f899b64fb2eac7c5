import Verif.Proofs.PercentEncoding

/-
C01 (values), C02, C04 (values), C05: percent-encoding of displayed values.
-/

namespace OAuth

open Spec

/-- C01, on the level of one value: the encoding adapter writes the RFC 3986 encoding of the text,
whatever the fragmentation, and ends as the value's own formatting does. -/
theorem C01_percent_encode (d : Display) :
    (percentEncode d).text = encode d.text ∧ (percentEncode d).outcome = d.outcome :=
  ⟨percentEncode_text d, percentEncode_outcome d⟩

/-- `"a/" , "é~"` in two fragments, split in the middle of the text. -/
example : (percentEncode ⟨[b!"a/", b!"é~"], .ok⟩).text = b!"a%2F%C3%A9~" := by decide +kernel
example : (percentEncode ⟨[b!"a", b!"/é", b!"~"], .ok⟩).text = b!"a%2F%C3%A9~" := by decide +kernel

/-- C02: the table-driven double encoder writes the encoding of the encoding. -/
theorem C02_double_encoding (cfg : Cfg) (d : Display) :
    (doublePercentEncode cfg d).text = encode (encode d.text) ∧
      (doublePercentEncode cfg d).outcome = d.outcome :=
  ⟨doublePercentEncode_text cfg d, doublePercentEncode_outcome cfg d⟩

/-- C02 as a composition: double encoding is single encoding applied twice. -/
theorem C02_is_single_twice (cfg : Cfg) (d : Display) :
    (doublePercentEncode cfg d).text = (percentEncode (percentEncode d)).text ∧
      (doublePercentEncode cfg d).outcome = (percentEncode (percentEncode d)).outcome := by
  simp

example : (doublePercentEncode ⟨true, true, .std⟩ ⟨[b!"a b", b!"%é"], .ok⟩).text =
    b!"a%2520b%2525%25C3%25A9" := by decide +kernel

/-- A string is a sequence of unreserved characters and `%` followed by two upper-case hexadecimal
digits (RFC 5849 section 3.6). -/
inductive EncodedText : Bytes → Prop
  | nil : EncodedText []
  | char {b s} : unreserved b = true → EncodedText s → EncodedText (b :: s)
  | escape {h l s} : h ∈ hexChars → l ∈ hexChars → EncodedText s →
      EncodedText (0x25 :: h :: l :: s)

theorem EncodedText.append {a b : Bytes} (ha : EncodedText a) (hb : EncodedText b) :
    EncodedText (a ++ b) := by
  induction ha with
  | nil => exact hb
  | char h _ ih => exact .char h ih
  | escape h l _ ih => exact .escape h l ih

theorem encodeByte_encodedText (b : UInt8) : EncodedText (encodeByte b) := by
  have hb : ∀ b : UInt8, hexChar (b.toNat / 16) ∈ hexChars ∧ hexChar (b.toNat % 16) ∈ hexChars := by
    apply forall_byte; decide +kernel
  unfold encodeByte
  split
  · next h => exact .char h .nil
  · exact .escape (hb b).1 (hb b).2 .nil

theorem encode_encodedText (s : Bytes) : EncodedText (encode s) := by
  induction s with
  | nil => exact .nil
  | cons b s ih => rw [encode_cons]; exact (encodeByte_encodedText b).append ih

/-- C04 on the level of one value: what is written for a value, both when sent and when signed, is
well-formed encoded text; no byte that delimits items of a header, form, query or base string occurs
in it. -/
theorem C04_no_injection (cfg : Cfg) (d : Display) :
    EncodedText (percentEncode d).text ∧ EncodedText (doublePercentEncode cfg d).text ∧
    ∀ c, (c ∈ (percentEncode d).text ∨ c ∈ (doublePercentEncode cfg d).text) →
      (unreserved c = true ∨ c = 0x25) ∧
      c ∉ b!"\",&=? +/\\;:#\n\r" := by
  refine ⟨by simp [encode_encodedText], by simp [encode_encodedText], ?_⟩
  have hdelim : ∀ c : UInt8, encodedChar c = true →
      (unreserved c = true ∨ c = 0x25) ∧ c ∉ b!"\",&=? +/\\;:#\n\r" := by
    apply forall_byte; decide +kernel
  intro c hc
  apply hdelim
  simp only [percentEncode_text, doublePercentEncode_text] at hc
  rcases hc with hc | hc <;> exact encode_alphabet _ c hc

example : (percentEncode (.ofBytes b!"\", oauth_token=\"x&y=1")).text =
    b!"%22%2C%20oauth_token%3D%22x%26y%3D1" := by decide +kernel

/-- Every fragment is ASCII. -/
def AllAscii (d : Display) : Prop := ∀ c ∈ d.chunks, ∀ b ∈ c, b.toNat < 0x80

theorem allAscii_of_text {d : Display} (h : ∀ b ∈ d.text, b.toNat < 0x80) : AllAscii d :=
  fun c hc b hb => h b (List.mem_flatten.mpr ⟨c, hc, hb⟩)

/-- C05: encoding a value never indexes the bit map or the table out of bounds, never converts a
non-ASCII slice unchecked (`undefinedBehaviour`), never trips the `debug_assert!`s, and its loop
terminates; the only failure is the value's own. Every `&str` handed on is ASCII. -/
theorem C05_unchecked_conversions_safe (cfg : Cfg) (d : Display) :
    (∀ p, (doublePercentEncode cfg d).outcome = .panic p → d.outcome = .panic p) ∧
    AllAscii (doublePercentEncode cfg d) ∧ AllAscii (percentEncode d) := by
  have hascii : ∀ b : UInt8, encodedChar b = true → b.toNat < 0x80 := by
    apply forall_byte; decide +kernel
  refine ⟨fun p h => by simpa using h, ?_, ?_⟩
  · apply allAscii_of_text
    intro b hb
    rw [doublePercentEncode_text] at hb
    exact hascii b (encode_alphabet _ b hb)
  · apply allAscii_of_text
    intro b hb
    rw [percentEncode_text] at hb
    exact hascii b (encode_alphabet _ b hb)

/-- Non-ASCII and boundary bytes, including ones that are not UTF-8. -/
example : (doublePercentEncode ⟨true, true, .std⟩ ⟨[[0x00, 0x7E, 0x7F, 0x80, 0xFF]], .ok⟩) =
    ⟨[b!"%2500", b!"~", b!"%257F", b!"%2580", b!"%25FF"], .ok⟩ := by decide +kernel

/-- The operations guarded by C05 can fail: the model does not make the claim vacuous. -/
example : (assertedUnchecked ⟨true, true, .std⟩ [0x80]).outcome = .panic .notAscii ∧
    (assertedUnchecked ⟨false, true, .std⟩ [0x80]).outcome = .panic .undefinedBehaviour := by
  decide

end OAuth
