import Verif.Spec.TextOnly
import Verif.Model.Builder
import Verif.Model.Recorder
import Verif.Proofs.PercentEncoding
import Verif.Proofs.Urlencode

/-
Which serializers and signing algorithms depend on texts only.
-/

namespace OAuth

open Spec

theorem sameText_refl (d : Display) : sameText d d := ⟨rfl, rfl⟩

theorem sameText_ofBytes {d : Display} (h : d.outcome = .ok) : sameText d (.ofBytes d.text) :=
  ⟨by simp, by simp [h]⟩

theorem sameText_percentEncode {a b : Display} (h : sameText a b) :
    sameText (percentEncode a) (percentEncode b) := ⟨by simp [h.1], by simp [h.2]⟩

theorem sameText_doublePercentEncode (cfg : Cfg) {a b : Display} (h : sameText a b) :
    sameText (doublePercentEncode cfg a) (doublePercentEncode cfg b) :=
  ⟨by simp [h.1], by simp [h.2]⟩

theorem runCalls_same {σ ω : Type} {S : Serializer σ ω} (hS : TextOnly S) {cs cs' : List Call}
    (h : SameCalls cs cs') (s : σ) : runCalls S cs s = runCalls S cs' s := by
  induction h generalizing s with
  | nil => rfl
  | cons hc _ ih =>
    have : ∀ {c c'}, SameCall c c' → ∀ s, Call.run S c s = Call.run S c' s := by
      intro c c' hcc s
      cases hcc with
      | parameter hv => exact hS.parameter _ _ _ _ hv
      | parameterEncoded hv => exact hS.parameterEncoded _ _ _ _ hv
      | oauth => rfl
    simp only [runCalls, this hc, ih]

theorem textOnly_urlencoder : TextOnly (Urlencoder.serializer stringWriter) where
  parameter s k v v' h := by
    show (liftM (s.parameter stringWriter k v) : M _) = liftM (s.parameter stringWriter k v')
    rw [Urlencoder.parameter_string, Urlencoder.parameter_string, h.1, h.2]
  parameterEncoded s k v v' h := by
    show (liftM (s.parameterEncoded stringWriter k v) : M _) =
      liftM (s.parameterEncoded stringWriter k v')
    rw [Urlencoder.parameterEncoded_string, Urlencoder.parameterEncoded_string, h.1, h.2]

theorem textOnly_recorder : TextOnly Recorder.serializer where
  parameter s k v v' h := by
    simp only [Recorder.serializer, Display.toStringM, h.1, h.2]
  parameterEncoded s k v v' h := by
    simp only [Recorder.serializer, Display.toStringM, h.1, h.2]

theorem textOnly_authorizer {S W : Type} (cfg : Cfg) (wr : Writer W) {sg : Sign S}
    (h : SignTextOnly sg) : TextOnly (Authorizer.serializer cfg wr sg) where
  parameter s k v v' hv := by
    simp only [Authorizer.serializer, Authorizer.parameter]
    simp only [h _ _ _ _ (sameText_doublePercentEncode cfg hv)]
  parameterEncoded s k v v' hv := by
    simp only [Authorizer.serializer, Authorizer.parameterEncoded]
    simp only [h _ _ _ _ (sameText_percentEncode hv)]

/-- An `Update` whose updates accumulate: only the concatenation matters. -/
structure UpdateOps.Lawful {U : Type} (o : UpdateOps U) : Prop where
  nil : ∀ u, o.upd u [] = u
  append : ∀ u a b, o.upd (o.upd u a) b = o.upd u (a ++ b)

theorem UpdateOps.writeAll_eq {U : Type} {o : UpdateOps U} (h : o.Lawful) (u : U)
    (cs : List Bytes) : o.writer.writeAll u cs = some (o.upd u cs.flatten) := by
  induction cs generalizing u with
  | nil => simp [Writer.writeAll, h.nil]
  | cons c cs ih =>
    simp only [Writer.writeAll, writer] at ih ⊢
    rw [ih, h.append]
    rfl

theorem UpdateOps.writeUnwrap_eq {U : Type} {o : UpdateOps U} (h : o.Lawful) (u : U)
    (d : Display) : o.writer.writeUnwrap u d = d.outcome.check (o.upd u d.text) := by
  simp only [Writer.writeUnwrap, writeAll_eq h, Outcome.check, Display.text]
  cases d.outcome <;> rfl

theorem UpdateOps.parameter_eq {U : Type} {o : UpdateOps U} (h : o.Lawful) (u : U) (k : Bytes)
    (d : Display) :
    o.parameter u k d = d.outcome.check (o.upd u (k ++ b!"%3D" ++ d.text)) := by
  simp only [parameter, writeUnwrap_eq h, h.append, List.append_assoc]

theorem UpdateOps.delimiter_eq {U : Type} {o : UpdateOps U} (u : U) :
    o.delimiter u = .ok (o.upd u b!"%26") := rfl

theorem UpdateOps.requestMethod_eq {U : Type} {o : UpdateOps U} (h : o.Lawful) (u : U)
    (m : Bytes) : o.requestMethod u m = .ok (o.upd u (m ++ b!"&")) := by
  simp only [requestMethod, h.append]

theorem Display.concat_pair (d : Display) (s : Bytes) :
    (Display.concat [d, .ofBytes s]).outcome = d.outcome ∧
    (d.outcome = .ok → (Display.concat [d, .ofBytes s]).text = d.text ++ s) := by
  simp only [Display.concat_cons, Display.concat_nil]
  have hs : (Display.ofBytes s ++ ⟨[], .ok⟩ : Display) = Display.ofBytes s := by
    simp [Display.append_def, Display.append, Display.ofBytes]
  rw [hs]
  refine ⟨?_, fun h => by rw [Display.text_append_ok h]; simp⟩
  cases h : d.outcome with
  | ok => rw [Display.outcome_append_ok h]; rfl
  | err => rw [Display.append_not_ok (by simp [h]), h]
  | panic p => rw [Display.append_not_ok (by simp [h]), h]

theorem UpdateOps.uri_eq {U : Type} {o : UpdateOps U} (h : o.Lawful) (u : U) (d : Display) :
    o.uri u d = d.outcome.check (o.upd u (d.text ++ b!"&")) := by
  rw [uri, writeUnwrap_eq h, (Display.concat_pair d b!"&").1]
  cases ho : d.outcome with
  | ok => rw [(Display.concat_pair d b!"&").2 ho]
  | err => rfl
  | panic p => rfl

theorem hmacUpdate_lawful : hmacUpdate.Lawful :=
  ⟨fun u => by simp [hmacUpdate, Hmac.update], fun u a b => by simp [hmacUpdate, Hmac.update]⟩

theorem rsaUpdate_lawful (K : Type) : (rsaUpdate K).Lawful :=
  ⟨fun u => by simp [rsaUpdate], fun u a b => by simp [rsaUpdate]⟩

theorem textOnly_hmac (H : Bytes → Bytes) : SignTextOnly (hmacSign H) := by
  intro s k v v' h
  show hmacUpdate.parameter s k v = hmacUpdate.parameter s k v'
  rw [UpdateOps.parameter_eq hmacUpdate_lawful, UpdateOps.parameter_eq hmacUpdate_lawful, h.1, h.2]

theorem textOnly_rsaRef {K : Type} (H : Bytes → Bytes) (ops : RsaOps K) :
    SignTextOnly (rsaSignRef H ops) := by
  intro s k v v' h
  show (rsaUpdate K).parameter s k v = (rsaUpdate K).parameter s k v'
  rw [UpdateOps.parameter_eq (rsaUpdate_lawful K), UpdateOps.parameter_eq (rsaUpdate_lawful K),
    h.1, h.2]

theorem textOnly_rsaOwned {K : Type} (H : Bytes → Bytes) (ops : RsaOps K) :
    SignTextOnly (rsaSignOwned H ops) := textOnly_rsaRef H ops

theorem textOnly_plaintext {W : Type} (display : W → Display) :
    SignTextOnly (plaintextSign display) := fun _ _ _ _ _ => rfl

theorem textOnly_either {L R : Type} {l : Sign L} {r : Sign R} (hl : SignTextOnly l)
    (hr : SignTextOnly r) : SignTextOnly (eitherSign l r) := by
  intro s k v v' h
  cases s with
  | inl a => simp only [eitherSign, eitherMut, hl a k v v' h]
  | inr b => simp only [eitherSign, eitherMut, hr b k v v' h]

end OAuth
