import Verif.Proofs.Closed
import Verif.Spec.Hmac

/-
The signature methods of the crate.
-/

namespace OAuth

open Spec

/-! ### They absorb text -/

theorem constSign_hmac (H : Bytes → Bytes) : ConstSign (hmacSign H) b!"HMAC-SHA1" true true :=
  ⟨fun _ => rfl, fun _ => rfl, fun _ => rfl⟩

theorem constSign_plaintext {W : Type} (d : W → Display) :
    ConstSign (plaintextSign d) b!"PLAINTEXT" true true :=
  ⟨fun _ => rfl, fun _ => rfl, fun _ => rfl⟩

theorem constSign_rsaRef {K : Type} (H : Bytes → Bytes) (ops : RsaOps K) :
    ConstSign (rsaSignRef H ops) b!"RSA-SHA1" true true :=
  ⟨fun _ => rfl, fun _ => rfl, fun _ => rfl⟩

theorem constSign_rsaOwned {K : Type} (H : Bytes → Bytes) (ops : RsaOps K) :
    ConstSign (rsaSignOwned H ops) b!"RSA-SHA1" true true :=
  ⟨fun _ => rfl, fun _ => rfl, fun _ => rfl⟩

theorem unreserved_hmacName : ∀ x ∈ b!"HMAC-SHA1", unreserved x = true := by decide
theorem unreserved_plaintextName : ∀ x ∈ b!"PLAINTEXT", unreserved x = true := by decide
theorem unreserved_rsaName : ∀ x ∈ b!"RSA-SHA1", unreserved x = true := by decide

/-- A `Sign` made of `UpdateSign` with the trait's default methods. -/
theorem absorbs_update {U : Type} {o : UpdateOps U} (ho : o.Lawful) (name : Bytes)
    (fin : U → Except Panic Display) :
    Absorbs ({ name := fun _ => name, requestMethod := o.requestMethod, uri := o.uri,
               parameter := o.parameter, delimiter := o.delimiter, «end» := fin } : Sign U)
      name o.upd where
  nil := ho.nil
  append := ho.append
  call c s hc := by
    have hof : ∀ b : Bytes, (Display.ofBytes b).outcome = .ok := fun _ => rfl
    cases c <;>
      simp only [SignCall.outcome] at hc <;>
      simp only [SignCall.run, SignCall.render, UpdateOps.parameter_eq ho,
        UpdateOps.requestMethod_eq ho, UpdateOps.uri_eq ho, UpdateOps.delimiter_eq, hc,
        hof, Outcome.check, Display.text_ofBytes] <;> rfl

theorem absorbs_hmac (H : Bytes → Bytes) : Absorbs (hmacSign H) b!"HMAC-SHA1" Hmac.update :=
  absorbs_update hmacUpdate_lawful _ _

theorem absorbs_rsaRef {K : Type} (H : Bytes → Bytes) (ops : RsaOps K) :
    Absorbs (rsaSignRef H ops) b!"RSA-SHA1" (fun s m => { s with msg := s.msg ++ m }) :=
  absorbs_update (rsaUpdate_lawful K) _ _

theorem absorbs_rsaOwned {K : Type} (H : Bytes → Bytes) (ops : RsaOps K) :
    Absorbs (rsaSignOwned H ops) b!"RSA-SHA1" (fun s m => { s with msg := s.msg ++ m }) :=
  absorbs_update (rsaUpdate_lawful K) _ _

theorem absorbs_plaintext {W : Type} (d : W → Display) :
    Absorbs (plaintextSign d) b!"PLAINTEXT" (fun s _ => s) where
  nil _ := rfl
  append _ _ _ := rfl
  call c s _ := by cases c <;> rfl

/-! ### The signing key -/

/-- Writing the signing key: for any writer, the fragments written are those of the key text. -/
theorem writeSigningKey_string (cs : Bytes) (ts : Option Bytes) (dst : Bytes) :
    writeSigningKey stringWriter dst cs ts = .ok (dst ++ signingKey cs ts) := by
  simp only [writeSigningKey, stringWriter_writeUnwrap, percentEncodeStr_text,
    percentEncodeStr_outcome, Outcome.check, bind, Except.bind, Display.text_ofBytes]
  cases ts with
  | none => simp [Display.ofBytes, signingKey]
  | some t => simp [Display.ofBytes, signingKey]

namespace SigningKey

/-- The text held by a key buffer. -/
def textOf : SigningKey → Bytes
  | .key buf pos => buf.take pos
  | .digest data => data

/-- Reachable key buffers. -/
def Inv : SigningKey → Prop
  | .key buf pos => buf.length = 64 ∧ pos ≤ 64
  | .digest data => 64 < data.length

theorem inv_new : new.Inv ∧ new.textOf = [] := by
  simp [new, Inv, textOf]

theorem write_spec {k : SigningKey} (h : k.Inv) (input : Bytes) :
    ∃ k', k.write input = some k' ∧ k'.Inv ∧ k'.textOf = k.textOf ++ input := by
  cases k with
  | digest data =>
    refine ⟨_, rfl, ?_, rfl⟩
    simp only [Inv, List.length_append] at h ⊢
    omega
  | key buf pos =>
    obtain ⟨hb, hp⟩ := h
    simp only [write, hb]
    rw [if_neg (by omega)]
    split
    · next hlen =>
      refine ⟨_, rfl, ?_, rfl⟩
      simp only [Inv, List.length_append, List.length_take, hb]
      omega
    · next hlen =>
      refine ⟨_, rfl, ⟨?_, by omega⟩, ?_⟩
      · simp only [List.length_append, List.length_take, List.length_drop, hb]
        omega
      · simp only [textOf]
        rw [List.take_append_of_le_length (by simp; omega), List.take_of_length_le (by simp; omega)]

theorem writeAll_spec {k : SigningKey} (h : k.Inv) (chunks : List Bytes) :
    ∃ k', writer.writeAll k chunks = some k' ∧ k'.Inv ∧ k'.textOf = k.textOf ++ chunks.flatten := by
  induction chunks generalizing k with
  | nil => exact ⟨k, rfl, h, by simp⟩
  | cons c cs ih =>
    obtain ⟨k1, h1, hi, ht⟩ := write_spec h c
    obtain ⟨k2, h2, hi2, ht2⟩ := ih hi
    refine ⟨k2, ?_, hi2, by simp [ht2, ht]⟩
    simp only [Writer.writeAll, writer]
    rw [h1]
    exact h2

theorem intoHmac_spec (H : Bytes → Bytes) (hH : ∀ m, (H m).length ≤ 64) {k : SigningKey}
    (h : k.Inv) : k.intoHmac H = ⟨hmacBlockKey H k.textOf, []⟩ := by
  cases k with
  | digest data =>
    simp only [Inv] at h
    simp only [intoHmac, Hmac.newFromSlice, textOf, hmacBlockKey, hH data, if_true, h]
  | key buf pos =>
    obtain ⟨hb, hp⟩ := h
    have : (buf.take pos).length = pos := by simp; omega
    simp only [intoHmac, Hmac.newFromSlice, textOf, hmacBlockKey, this]
    rw [if_pos hp, if_neg (by omega)]

end SigningKey

theorem finalize_eq (H : Bytes → Bytes) (key msg : Bytes) :
    Hmac.finalize H ⟨hmacBlockKey H key, msg⟩ = hmac H key msg := by
  have hx : ∀ (k : Bytes) (p : UInt8),
      List.zipWith (· ^^^ ·) k (List.replicate k.length p) = k.map (· ^^^ p) := by
    intro k p
    induction k with
    | nil => rfl
    | cons b k ih => simp [List.replicate_succ, ih]
  simp only [Hmac.finalize, hmac, hx]

theorem hmac_signWith (H : Bytes → Bytes) (hH : ∀ m, (H m).length ≤ 64) (cs : Bytes)
    (ts : Option Bytes) :
    (hmacMethod H).signWith cs ts = .ok ⟨hmacBlockKey H (signingKey cs ts), []⟩ := by
  have step : ∀ {k : SigningKey} (hk : k.Inv) (d : Display), d.outcome = .ok →
      ∃ k', SigningKey.writer.writeUnwrap k d = .ok k' ∧ k'.Inv ∧ k'.textOf = k.textOf ++ d.text := by
    intro k hk d hd
    obtain ⟨k', h1, h2, h3⟩ := SigningKey.writeAll_spec hk d.chunks
    exact ⟨k', by simp [Writer.writeUnwrap, h1, hd], h2, h3⟩
  obtain ⟨k1, h1, i1, t1⟩ := step SigningKey.inv_new.1 (percentEncodeStr cs) rfl
  obtain ⟨k2, h2, i2, t2⟩ := step i1 (.ofBytes b!"&") rfl
  simp only [hmacMethod, writeSigningKey, h1, h2, bind, Except.bind]
  cases ts with
  | none =>
    simp only [SigningKey.intoHmac_spec H hH i2, t2, t1, SigningKey.inv_new.2]
    simp [signingKey]
  | some t =>
    obtain ⟨k3, h3, i3, t3⟩ := step i2 (percentEncodeStr t) rfl
    simp only [h3, SigningKey.intoHmac_spec H hH i3, t3, t2, t1, SigningKey.inv_new.2]
    simp [signingKey]

theorem sha1_length (m : Bytes) : (Sha1.hash m).length = 20 := rfl

theorem base64PercentEncodeDisplay_text (s : Bytes) :
    (base64PercentEncodeDisplay s).text = encode (base64Standard s) ∧
    (base64PercentEncodeDisplay s).outcome = .ok := by
  simp [base64PercentEncodeDisplay, base64Display, Display.ofBytes, Display.text]
  have := percentEncode_text ⟨[base64Standard s], .ok⟩
  simpa [Display.text] using this

theorem hmac_end (H : Bytes → Bytes) (key msg : Bytes) :
    ∃ sig, (hmacSign H).end ⟨hmacBlockKey H key, msg⟩ = .ok sig ∧ sig.outcome = .ok ∧
      sig.text = encode (base64Standard (hmac H key msg)) := by
  refine ⟨_, rfl, (base64PercentEncodeDisplay_text _).2, ?_⟩
  rw [(base64PercentEncodeDisplay_text _).1, finalize_eq]

end OAuth
