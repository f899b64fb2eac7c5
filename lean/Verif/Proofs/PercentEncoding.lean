import Verif.Model.PercentEncoding
import Verif.Spec.PercentEncoding
import Verif.Proofs.Bytes

/-
The percent-encoders of the model compute the RFC 3986 encoding.
-/

namespace OAuth

open Spec

/-! ### Byte tables, by exhaustive computation over all 256 bytes -/

theorem shouldPercentEncode_eq (b : UInt8) : shouldPercentEncode b = some (!unreserved b) := by
  revert b; apply forall_byte; decide +kernel

theorem asciiSetShouldEncode_eq (b : UInt8) : asciiSetShouldEncode b = !unreserved b := by
  revert b; apply forall_byte; decide +kernel

theorem percentEncodeByte_eq (b : UInt8) (h : unreserved b = false) :
    percentEncodeByte b = encodeByte b := by
  revert h; revert b; apply forall_byte; decide +kernel

theorem doubleEncodeByte_eq (b : UInt8) (h : unreserved b = false) :
    doubleEncodeByte b = .ofBytes (encode (encodeByte b)) := by
  revert h; revert b; apply forall_byte; decide +kernel

theorem unreserved_ascii (b : UInt8) (h : unreserved b = true) : b.toNat < 0x80 := by
  revert h; revert b; apply forall_byte; decide +kernel

theorem encodeByte_unreserved {b : UInt8} (h : unreserved b = true) : encodeByte b = [b] := by
  simp [encodeByte, h]

/-! ### The specification's encoder -/

namespace Spec

@[simp] theorem encode_nil : encode [] = [] := rfl
@[simp] theorem encode_cons (b : UInt8) (s : Bytes) : encode (b :: s) = encodeByte b ++ encode s := rfl
theorem encode_append (a b : Bytes) : encode (a ++ b) = encode a ++ encode b := by
  simp [encode, List.flatMap_append]

theorem encode_of_unreserved {s : Bytes} (h : ∀ b ∈ s, unreserved b = true) : encode s = s := by
  induction s with
  | nil => rfl
  | cons b s ih =>
    simp only [encode_cons]
    rw [encodeByte_unreserved (h b (by simp)), ih (fun c hc => h c (by simp [hc]))]
    rfl

theorem encode_flatten (cs : List Bytes) : encode cs.flatten = (cs.map encode).flatten := by
  induction cs with
  | nil => rfl
  | cons c cs ih => simp [encode_append, ih]

theorem decode_encodeByte (b : UInt8) (s : Bytes) :
    decode (encodeByte b ++ s) = (decode s).map (b :: ·) := by
  by_cases h : unreserved b = true
  · have h25 : b ≠ 0x25 := by intro e; subst e; revert h; decide
    rw [encodeByte_unreserved h]
    simp only [List.singleton_append]
    rw [decode.eq_def]
    split
    · next heq => cases heq
    · next heq => simp only [List.cons.injEq] at heq; exact absurd heq.1 h25
    · next heq => simp only [List.cons.injEq] at heq; obtain ⟨rfl, rfl⟩ := heq; simp [h25]
  · have h' : unreserved b = false := by simpa using h
    have hv : ∀ c : UInt8, hexVal (hexChar (c.toNat / 16)) = some (c.toNat / 16) ∧
        hexVal (hexChar (c.toNat % 16)) = some (c.toNat % 16) ∧
        UInt8.ofNat (c.toNat / 16 * 16 + c.toNat % 16) = c := by
      apply forall_byte; decide +kernel
    obtain ⟨h1, h2, h3⟩ := hv b
    simp only [encodeByte, h', Bool.false_eq_true, if_false, List.cons_append, List.nil_append]
    rw [decode.eq_def]
    simp only [h1, h2]
    cases decode s <;> simp [h3]

/-- Percent-decoding inverts percent-encoding. -/
theorem decode_encode (s : Bytes) : decode (encode s) = some s := by
  induction s with
  | nil => rfl
  | cons b s ih => simp [encode_cons, decode_encodeByte, ih]

theorem encode_injective {a b : Bytes} (h : encode a = encode b) : a = b := by
  have := decode_encode a
  rw [h, decode_encode] at this
  simpa using this.symm

/-- The alphabet of encoded text: unreserved bytes and `%`. -/
def encodedChar (b : UInt8) : Bool := unreserved b || b == 0x25

theorem encode_alphabet (s : Bytes) : ∀ b ∈ encode s, encodedChar b = true := by
  have hb : ∀ c : UInt8, (encodeByte c).all encodedChar = true := by
    apply forall_byte; decide +kernel
  intro b hmem
  simp only [encode, List.mem_flatMap] at hmem
  obtain ⟨c, _, hc⟩ := hmem
  exact List.all_eq_true.mp (hb c) b hc

end Spec

/-! ### `percent_encode` and `PercentEncode` -/

theorem takeWhile_unreserved_encode (s : Bytes) :
    encode s = s.takeWhile (fun c => !asciiSetShouldEncode c) ++
      encode (s.drop (s.takeWhile (fun c => !asciiSetShouldEncode c)).length) := by
  induction s with
  | nil => rfl
  | cons b s ih =>
    by_cases h : unreserved b = true
    · simp only [List.takeWhile_cons, asciiSetShouldEncode_eq, h, Bool.not_true, Bool.not_false,
        if_true, List.length_cons, List.drop_succ_cons, encode_cons]
      rw [encodeByte_unreserved h]
      simp only [asciiSetShouldEncode_eq] at ih
      simp only [List.cons_append, List.nil_append]
      exact congrArg _ ih
    · simp [asciiSetShouldEncode_eq, h]

theorem encodeChunks_text (fuel : Nat) (s : Bytes) (h : s.length ≤ fuel) :
    (encodeChunks fuel s).flatten = encode s := by
  induction fuel generalizing s with
  | zero => cases s with
    | nil => rfl
    | cons => simp at h
  | succ fuel ih =>
    cases s with
    | nil => rfl
    | cons b rem =>
      simp only [List.length_cons, Nat.add_le_add_iff_right] at h
      simp only [encodeChunks]
      split
      · next hb =>
        rw [asciiSetShouldEncode_eq] at hb
        simp only [List.flatten_cons, encode_cons, ih rem h]
        rw [percentEncodeByte_eq b (by simpa using hb)]
      · next hb =>
        rw [asciiSetShouldEncode_eq] at hb
        have hb' : unreserved b = true := by simpa using hb
        simp only [List.flatten_cons]
        rw [ih _ (by simp; omega), encode_cons, encodeByte_unreserved hb',
          takeWhile_unreserved_encode rem]
        simp

@[simp] theorem percentEncodeStr_text (s : Bytes) : (percentEncodeStr s).text = encode s := by
  simp [percentEncodeStr, Display.text, encodeChunks_text]

@[simp] theorem percentEncodeStr_outcome (s : Bytes) : (percentEncodeStr s).outcome = .ok := rfl

theorem adapt_text (f : Bytes → Display) (g : Bytes → Bytes) (hf : ∀ c, (f c).outcome = .ok)
    (hg : ∀ c, (f c).text = g c) (out : Outcome) (cs : List Bytes) :
    (adapt f out cs).text = (cs.map g).flatten ∧ (adapt f out cs).outcome = out := by
  induction cs with
  | nil => simp [adapt, Display.text]
  | cons c cs ih =>
    simp only [adapt, List.map_cons, List.flatten_cons]
    rw [Display.text_append_ok (hf c), Display.outcome_append_ok (hf c), hg, ih.1, ih.2]
    exact ⟨rfl, rfl⟩

@[simp] theorem percentEncode_text (d : Display) : (percentEncode d).text = encode d.text := by
  rw [percentEncode, (adapt_text percentEncodeStr encode percentEncodeStr_outcome
    percentEncodeStr_text _ _).1, Display.text, encode_flatten]

@[simp] theorem percentEncode_outcome (d : Display) : (percentEncode d).outcome = d.outcome := by
  rw [percentEncode, (adapt_text percentEncodeStr encode percentEncodeStr_outcome
    percentEncodeStr_text _ _).2]

/-! ### `DoublePercentEncode` -/

theorem findEncode_spec (i : Nat) (s : Bytes) :
    findEncode i s = some (
      let run := s.takeWhile unreserved
      match s.drop run.length with
      | [] => none
      | b :: _ => some (i + run.length, b)) := by
  induction s generalizing i with
  | nil => rfl
  | cons b s ih =>
    simp only [findEncode, shouldPercentEncode_eq]
    by_cases h : unreserved b = true
    · simp [h, ih, Nat.add_assoc, Nat.add_comm 1]
    · simp [h]

theorem unchecked_ascii {s : Bytes} (h : ∀ b ∈ s, unreserved b = true) (cfg : Cfg) :
    assertedUnchecked cfg s = .ofBytes s := by
  have : s.all (fun b => b.toNat < 0x80) = true := by
    simp only [List.all_eq_true, decide_eq_true_eq]
    exact fun b hb => unreserved_ascii b (h b hb)
  simp [assertedUnchecked, unchecked, this]

theorem mem_takeWhile {p : UInt8 → Bool} {s : Bytes} {b : UInt8} (h : b ∈ s.takeWhile p) :
    p b = true := by
  induction s with
  | nil => simp at h
  | cons c s ih =>
    rw [List.takeWhile_cons] at h
    split at h
    · rcases List.mem_cons.mp h with rfl | h
      · assumption
      · exact ih h
    · simp at h

theorem drop_takeWhile_head {p : UInt8 → Bool} {s : Bytes} {b : UInt8} {t : Bytes}
    (h : s.drop (s.takeWhile p).length = b :: t) : p b = false := by
  induction s with
  | nil => simp at h
  | cons c s ih =>
    rw [List.takeWhile_cons] at h
    split at h
    · simp at h; exact ih h
    · next hc => simp at h; rw [← h.1]; simpa using hc

theorem takeWhile_append_drop (p : UInt8 → Bool) (s : Bytes) :
    s.takeWhile p ++ s.drop (s.takeWhile p).length = s := by
  induction s with
  | nil => rfl
  | cons c s ih =>
    rw [List.takeWhile_cons]
    split
    · simp [ih]
    · simp

theorem doubleLoop_spec (cfg : Cfg) (fuel : Nat) (s : Bytes) (h : s.length ≤ fuel) :
    (doubleLoop cfg fuel s).text = encode (encode s) ∧ (doubleLoop cfg fuel s).outcome = .ok := by
  induction fuel generalizing s with
  | zero => cases s with
    | nil => exact ⟨rfl, rfl⟩
    | cons => simp at h
  | succ fuel ih =>
    cases s with
    | nil => exact ⟨rfl, rfl⟩
    | cons b rem =>
      simp only [List.length_cons, Nat.add_le_add_iff_right] at h
      simp only [doubleLoop, shouldPercentEncode_eq]
      by_cases hb : unreserved b = true
      · simp only [hb, Bool.not_true, findEncode_spec]
        rcases hd : rem.drop (rem.takeWhile unreserved).length with _ | ⟨b', t⟩
        · simp only
          have hall : ∀ c ∈ b :: rem, unreserved c = true := by
            intro c hc
            rcases List.mem_cons.mp hc with rfl | hc
            · exact hb
            · have := takeWhile_append_drop unreserved rem
              rw [hd, List.append_nil] at this
              rw [← this] at hc
              exact mem_takeWhile hc
          rw [unchecked_ascii hall, encode_of_unreserved hall, encode_of_unreserved hall]
          exact ⟨by simp, rfl⟩
        · simp only
          have hb' : unreserved b' = false := drop_takeWhile_head hd
          have hsplit : rem = rem.takeWhile unreserved ++ b' :: t := by
            conv => lhs; rw [← takeWhile_append_drop unreserved rem, hd]
          generalize hrun : rem.takeWhile unreserved = run at hsplit hd
          have hrunmem : ∀ c ∈ b :: run, unreserved c = true := by
            intro c hc
            rcases List.mem_cons.mp hc with rfl | hc
            · exact hb
            · rw [← hrun] at hc; exact mem_takeWhile hc
          have htake : (b :: rem).take (1 + run.length) = b :: run := by
            rw [hsplit, Nat.add_comm]; simp
          have hdrop : (b :: rem).drop (1 + run.length + 1) = t := by
            rw [hsplit, Nat.add_comm 1]; simp
          rw [htake, hdrop, unchecked_ascii hrunmem, doubleEncodeByte_eq b' hb']
          have ht : t.length ≤ fuel := by
            have := congrArg List.length hsplit
            simp at this; omega
          obtain ⟨iht, iho⟩ := ih t ht
          rw [Display.text_append_ok rfl, Display.outcome_append_ok rfl,
            Display.text_append_ok rfl, Display.outcome_append_ok rfl, iht, iho]
          refine ⟨?_, rfl⟩
          have : b :: rem = (b :: run) ++ ([b'] ++ t) := by rw [hsplit]; rfl
          rw [this]
          simp only [encode_append, encode_of_unreserved hrunmem, Display.text_ofBytes]
          simp
      · have hb' : unreserved b = false := by simpa using hb
        simp only [hb', Bool.not_false]
        obtain ⟨iht, iho⟩ := ih rem h
        rw [doubleEncodeByte_eq b hb', Display.text_append_ok rfl, Display.outcome_append_ok rfl,
          iht, iho]
        simp [encode_append]

@[simp] theorem doublePercentEncode_text (cfg : Cfg) (d : Display) :
    (doublePercentEncode cfg d).text = encode (encode d.text) := by
  rw [doublePercentEncode, (adapt_text _ (fun c => encode (encode c))
    (fun c => (doubleLoop_spec cfg _ c (Nat.le_refl _)).2)
    (fun c => (doubleLoop_spec cfg _ c (Nat.le_refl _)).1) _ _).1, Display.text, encode_flatten,
    encode_flatten, List.map_map]
  rfl

@[simp] theorem doublePercentEncode_outcome (cfg : Cfg) (d : Display) :
    (doublePercentEncode cfg d).outcome = d.outcome := by
  rw [doublePercentEncode, (adapt_text _ (fun c => encode (encode c))
    (fun c => (doubleLoop_spec cfg _ c (Nat.le_refl _)).2)
    (fun c => (doubleLoop_spec cfg _ c (Nat.le_refl _)).1) _ _).2]

end OAuth
