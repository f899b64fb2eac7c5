import Verif.Properties.Injection
import Verif.Properties.Signature
import Verif.Spec.Sendable

/-!
# C80: the outputs can be sent where they are to be sent
-/

namespace OAuth

open Spec

variable {S : Type}

/-! ### Texts -/

theorem IsQuery.append {a b : Bytes} (ha : IsQuery a) (hb : IsQuery b) : IsQuery (a ++ b) := by
  induction ha with
  | nil => exact hb
  | char h _ ih => exact .char h ih
  | escape h l _ ih => exact .escape h l ih

theorem isQuery_of_chars {a : Bytes} (h : ∀ c ∈ a, queryChar c = true) : IsQuery a := by
  induction a with
  | nil => exact .nil
  | cons c a ih => exact .char (h c (by simp)) (ih fun x hx => h x (by simp [hx]))

theorem EncodedText.isQuery {t : Bytes} (h : EncodedText t) : IsQuery t := by
  have hu : ∀ c : UInt8, unreserved c = true → queryChar c = true := by
    apply forall_byte; decide +kernel
  have hh : ∀ c : UInt8, c ∈ hexChars → uriHex c = true := by
    apply forall_byte; decide +kernel
  induction h with
  | nil => exact .nil
  | char hb _ ih => exact .char (hu _ hb) ih
  | escape ha hb _ ih => exact .escape (hh _ ha) (hh _ hb) ih

/-- The characters of values: those of encoded text, and `&`. -/
def valueChar (c : UInt8) : Bool := encodedChar c || c == 0x26

theorem EncodedText.valueChars {t : Bytes} (h : EncodedText t) : ∀ c ∈ t, valueChar c = true := by
  intro c hc
  simp [valueChar, h.chars c hc]

theorem valueChar_visible : ∀ c : UInt8, valueChar c = true → 0x20 < c ∧ c ≤ 0x7E ∧ qdtext c = true := by
  apply forall_byte; decide +kernel

/-- A signature text that can be sent. -/
def SigText (t : Bytes) : Prop := IsQuery t ∧ ∀ c ∈ t, valueChar c = true

theorem sigText_encode (d : Bytes) : SigText (encode d) :=
  ⟨(encode_encodedText d).isQuery, (encode_encodedText d).valueChars⟩

theorem sigText_signingKey (cs : Bytes) (ts : Option Bytes) : SigText (signingKey cs ts) := by
  obtain ⟨a1, a2⟩ := sigText_encode cs
  obtain ⟨b1, b2⟩ := sigText_encode (ts.getD [])
  refine ⟨IsQuery.append (IsQuery.append a1 (.char (by decide) .nil)) b1, ?_⟩
  intro c hc
  simp only [signingKey, List.mem_append] at hc
  rcases hc with (hc | hc) | hc
  · exact a2 c hc
  · have : c = 0x26 := by simpa using hc
    subst this; decide
  · exact b2 c hc

theorem quotedText {v : Bytes} (h : ∀ c ∈ v, valueChar c = true) : QuotedText v v := by
  induction v with
  | nil => exact .nil
  | cons c v ih => exact .text (valueChar_visible c (h c (by simp))).2.2 (ih fun x hx => h x (by simp [hx]))

theorem isAuthParam {k v : Bytes} (hk : IsToken k) (hv : ∀ c ∈ v, valueChar c = true) :
    IsAuthParam true (k ++ b!"=\"" ++ v ++ b!"\"") k v :=
  ⟨[], [], 0x22 :: (v ++ [0x22]), by simp, hk, by simp [IsBlank], by simp [IsBlank],
    .inr ⟨v, rfl, quotedText hv, fun _ => rfl⟩⟩

theorem proto_token (q : Proto) : IsToken q.name := by
  cases q <;> exact ⟨by decide, by decide⟩

/-! ### Layouts -/

theorem header_list (sent : List (Bytes × Bytes)) {sig : Bytes}
    (h : ∀ p ∈ sent, IsToken p.1 ∧ ∀ c ∈ p.2, valueChar c = true) (hs : ∀ c ∈ sig, valueChar c = true) :
    IsParamList true ((sent.map headerItem).flatten ++ (b!"oauth_signature=\"" ++ (sig ++ b!"\"")))
      (sent ++ [(b!"oauth_signature", sig)]) := by
  have hsig : IsAuthParam true (b!"oauth_signature=\"" ++ (sig ++ b!"\"")) b!"oauth_signature" sig := by
    have := isAuthParam (k := b!"oauth_signature") ⟨by decide, by decide⟩ hs
    simpa using this
  have tail : ∀ sent : List (Bytes × Bytes),
      (∀ p ∈ sent, IsToken p.1 ∧ ∀ c ∈ p.2, valueChar c = true) →
      IsParamTail true (b!"," ++ ((sent.map headerItem).flatten ++ (b!"oauth_signature=\"" ++ (sig ++ b!"\""))))
        (sent ++ [(b!"oauth_signature", sig)]) := by
    intro sent
    induction sent with
    | nil =>
      intro _
      have := IsParamTail.cons (w := []) (w' := []) (rest := []) (items := []) (by simp [IsBlank])
        (by simp [IsBlank]) hsig .nil
      simpa using this
    | cons p sent ih =>
      intro h
      have hp := isAuthParam (h p (by simp)).1 (h p (by simp)).2
      have := IsParamTail.cons (w := []) (w' := []) (by simp [IsBlank])
        (by simp [IsBlank]) hp (ih fun x hx => h x (by simp [hx]))
      simpa [headerItem, List.append_assoc] using this
  cases sent with
  | nil =>
    have := IsParamList.cons hsig .nil
    simpa using this
  | cons p sent =>
    have hp := isAuthParam (h p (by simp)).1 (h p (by simp)).2
    have := IsParamList.cons hp (tail sent fun x hx => h x (by simp [hx]))
    simpa [headerItem, List.append_assoc] using this

theorem isQuery_join (l : List Bytes) (h : ∀ t ∈ l, IsQuery t) : IsQuery (join b!"&" l) := by
  match l with
  | [] => exact .nil
  | [t] => exact h t (by simp)
  | t :: u :: l =>
    exact IsQuery.append (IsQuery.append (h t (by simp)) (.char (by decide) .nil))
      (isQuery_join (u :: l) fun x hx => h x (by simp [hx]))

theorem form_query (sent : List (Bytes × Bytes)) {sig : Bytes}
    (h : ∀ p ∈ sent, IsQuery p.1 ∧ IsQuery p.2) (hs : IsQuery sig) : IsQuery (formText sent sig) := by
  apply isQuery_join
  intro t ht
  obtain ⟨p, hp, rfl⟩ := List.mem_map.mp ht
  rcases List.mem_append.mp hp with hp | hp
  · exact IsQuery.append (IsQuery.append (h p hp).1 (.char (by decide) .nil)) (h p hp).2
  · rw [List.mem_singleton.mp hp]
    have hk : IsQuery b!"oauth_signature" := isQuery_of_chars (by decide)
    exact IsQuery.append (IsQuery.append hk (.char (by decide) .nil)) hs

/-! ### Signature methods -/

/-- A signature method all whose signatures can be sent. -/
structure Sends (sm : SignatureMethod S) (name : Bytes) : Prop where
  const : ∃ un ut, ConstSign sm.sign name un ut
  safe : ∀ x ∈ name, unreserved x = true
  sig : ∀ cs ts s0 s sig (L : List SignCall), sm.signWith cs ts = .ok s0 → runSign sm.sign L s0 = .ok s →
    sm.sign.end s = .ok sig → SigText sig.text

theorem sends_hmac (H : Bytes → Bytes) : Sends (hmacMethod H) b!"HMAC-SHA1" where
  const := ⟨true, true, constSign_hmac H⟩
  safe := unreserved_hmacName
  sig := by
    intro cs ts s0 s sig L _ _ h
    cases h
    rw [(base64PercentEncodeDisplay_text _).1]
    exact sigText_encode _

theorem sends_rsaRef {K : Type} (H : Bytes → Bytes) (ops : RsaOps K) (key : K) :
    Sends (rsaRef H ops key) b!"RSA-SHA1" where
  const := ⟨true, true, constSign_rsaRef H ops⟩
  safe := unreserved_rsaName
  sig := by
    intro cs ts s0 s sig L _ _ h
    simp only [rsaRef, rsaSignRef] at h
    split at h
    · cases h
      rw [(base64PercentEncodeDisplay_text _).1]
      exact sigText_encode _
    · cases h

theorem sends_rsaOwned {K : Type} (H : Bytes → Bytes) (ops : RsaOps K) (key : K) :
    Sends (rsaOwned H ops key) b!"RSA-SHA1" where
  const := ⟨true, true, constSign_rsaOwned H ops⟩
  safe := unreserved_rsaName
  sig := by
    intro cs ts s0 s sig L _ _ h
    simp only [rsaOwned, rsaSignOwned, rsaSignRef] at h
    split at h
    · cases h
      rw [(base64PercentEncodeDisplay_text _).1]
      exact sigText_encode _
    · cases h

theorem sends_plaintext : Sends plaintext b!"PLAINTEXT" where
  const := ⟨true, true, constSign_plaintext _⟩
  safe := unreserved_plaintextName
  sig := by
    intro cs ts s0 s sig L h0 hL h
    have hrun : ∀ (L : List SignCall) (s s' : Bytes), runSign plaintext.sign L s = .ok s' → s' = s := by
      intro L
      induction L with
      | nil => intro s s' h; cases h; rfl
      | cons c L ih =>
        intro s s' h
        have hc : c.run plaintext.sign s = .ok s := by cases c <;> rfl
        simp only [runSign, hc, bind, Except.bind] at h
        exact ih _ _ h
    rw [hrun L s0 s hL] at h
    have hk : s0 = signingKey cs ts := by
      have := writeSigningKey_string cs ts []
      simp only [plaintext, plaintextWithBuf] at h0
      rw [this] at h0
      cases h0; rfl
    cases h
    rw [hk, Display.text_ofBytes]
    exact sigText_signingKey cs ts

/-! ### C80 -/

/-- C80: whatever the credentials, options, method, URI, request parameters, random bytes and clock, the
header made with a signature method of the crate is `OAuth` credentials by the grammar of RFC 7235 and
consists of visible ASCII characters; the form, and the query that is appended to the URI, are queries by
the grammar of RFC 3986. -/
theorem C80_sendable (cfg : Cfg) {b : Builder S} {name : Bytes} (hs : Sends b.signatureMethod name)
    {r : Request} {cs : List Call} (hr : IsTrace r cs) (method : Bytes) (w w' : World) (out : Bytes) :
    (∀ uri : Display, b.authorize cfg method uri r w = .ok (out, w') →
      IsFieldValue out ∧ ∃ params, IsCredentials out b!"OAuth" params ∧
        (∀ p ∈ params, p.1 = b!"oauth_signature" ∨ ∃ q : Proto, p.1 = q.name)) ∧
    (∀ uri : Display, b.toForm cfg method uri r w = .ok (out, w') → IsQuery out) ∧
    (∀ uri : Bytes, b.toQuery cfg stringWriter .ofBytes method uri r w = .ok (out, w') →
      ∃ query, out = uri ++ b!"?" ++ query ∧ IsQuery query) := by
  obtain ⟨un, ut, hc⟩ := hs.const
  have tok : ∀ {sent : List (Bytes × Bytes)},
      (∀ p ∈ sent, (∃ q : Proto, p.1 = q.name) ∧ EncodedText p.2) →
      ∀ p ∈ sent, IsToken p.1 ∧ ∀ c ∈ p.2, valueChar c = true := by
    intro sent h p hp
    obtain ⟨⟨q, hq⟩, he⟩ := h p hp
    exact ⟨hq ▸ proto_token q, he.valueChars⟩
  have qry : ∀ {sent : List (Bytes × Bytes)},
      (∀ p ∈ sent, (∃ q : Proto, p.1 = q.name) ∧ EncodedText p.2) →
      ∀ p ∈ sent, IsQuery p.1 ∧ IsQuery p.2 := by
    intro sent h p hp
    obtain ⟨⟨q, hq⟩, he⟩ := h p hp
    refine ⟨hq ▸ ?_, he.isQuery⟩
    cases q <;> exact isQuery_of_chars (by decide)
  refine ⟨fun uri h => ?_, fun uri h => ?_, fun uri h => ?_⟩
  · obtain ⟨sent, -, -, L, hsent, -, -, -, h1, -⟩ := C04_outputs cfg b hc hs.safe hr method uri w
    obtain ⟨s0, s, sig, e1, e2, e3, rfl⟩ := h1 out w' h
    obtain ⟨-, hsig⟩ := hs.sig _ _ _ _ _ _ e1 e2 e3
    have hlist := header_list sent (tok hsent) hsig
    refine ⟨⟨?_, ?_, ?_⟩, sent ++ [(b!"oauth_signature", sig.text)],
      ⟨b!" ", _, ?_, ⟨by decide, by decide⟩, by decide, by decide, hlist⟩, ?_⟩
    · have hv : ∀ c : UInt8, valueChar c = true → 0x20 ≤ c ∧ c ≤ 0x7E := by
        apply forall_byte; decide +kernel
      have ht : ∀ c : UInt8, tchar c = true → 0x20 ≤ c ∧ c ≤ 0x7E := by
        apply forall_byte; decide +kernel
      intro c hc
      simp only [headerText, List.mem_append, List.mem_flatten, List.mem_map] at hc
      rcases hc with (((hc | ⟨_, ⟨p, hp, rfl⟩, hc⟩) | hc) | hc) | hc
      · revert c; decide
      · obtain ⟨h1, h2⟩ := tok hsent p hp
        simp only [headerItem, List.mem_append] at hc
        rcases hc with ((hc | hc) | hc) | hc
        · exact ht c (h1.2 c hc)
        · revert c; decide
        · exact hv c (h2 c hc)
        · revert c; decide
      · revert c; decide
      · exact hv c (hsig c hc)
      · revert c; decide
    · simp [headerText]
    · rw [headerText, List.getLast?_append]
      simp
    · simp [headerText, List.append_assoc]
    · intro p hp
      rcases List.mem_append.mp hp with hp | hp
      · exact .inr (hsent p hp).1
      · exact .inl (by rw [List.mem_singleton.mp hp])
  · obtain ⟨sent, -, -, L, hsent, -, -, -, -, h2, -⟩ := C04_outputs cfg b hc hs.safe hr method uri w
    obtain ⟨s0, s, sig, e1, e2, e3, rfl⟩ := h2 out w' h
    exact form_query sent (qry hsent) (hs.sig _ _ _ _ _ _ e1 e2 e3).1
  · obtain ⟨sent, -, -, L, hsent, -, -, -, -, -, h3⟩ :=
      C04_outputs cfg b hc hs.safe hr method (.ofBytes uri) w
    obtain ⟨s0, s, sig, e1, e2, e3, rfl⟩ := h3 uri rfl out w' h
    exact ⟨_, rfl, form_query sent (qry hsent) (hs.sig _ _ _ _ _ _ e1 e2 e3).1⟩

/-- C80 for the signature methods of the crate. -/
theorem C80_methods {K : Type} (H : Bytes → Bytes) (ops : RsaOps K) (key : K) :
    Sends hmacSha1 b!"HMAC-SHA1" ∧ Sends plaintext b!"PLAINTEXT" ∧ Sends (rsaRef H ops key) b!"RSA-SHA1" ∧
      Sends (rsaOwned H ops key) b!"RSA-SHA1" :=
  ⟨sends_hmac _, sends_plaintext, sends_rsaRef H ops key, sends_rsaOwned H ops key⟩

/-- C80 for `to_form` and `to_query` without signing: if the keys are queries, so are the form and what is
appended to the URI, whatever the values. (Keys are not encoded.) -/
theorem C80_plain {r : Request} {cs : List Call} (h : IsTrace r cs) (hok : ∀ c ∈ cs, Call.ok c)
    (henc : ∀ k v, Call.parameterEncoded k v ∉ cs) (hkey : ∀ p ∈ cs.filterMap Call.pair?, IsQuery p.1)
    (uri : Bytes) (w : World) :
    ∃ form, IsQuery form ∧ (Free.toForm r).run w = .ok (form, w) ∧
      ((Free.toQuery uri r).run w = .ok (uri, w) ∨
        (Free.toQuery uri r).run w = .ok (uri ++ b!"?" ++ form, w)) := by
  obtain ⟨items, h1, h2, h3, h4⟩ := C04_plain_form h hok henc uri w
  refine ⟨_, ?_, h3, ?_⟩
  · apply isQuery_join
    intro t ht
    obtain ⟨p, hp, rfl⟩ := List.mem_map.mp ht
    refine IsQuery.append (IsQuery.append ?_ (.char (by decide) .nil)) (h1 p hp).isQuery
    have : p.1 ∈ (cs.filterMap Call.pair?).map (·.1) := h2 ▸ List.mem_map_of_mem hp
    obtain ⟨q, hq, he⟩ := List.mem_map.mp this
    rw [← he]
    exact hkey q hq
  · rw [h4]
    by_cases hi : items = []
    · rw [if_pos hi]; exact .inl rfl
    · rw [if_neg hi]; exact .inr rfl

/-- The hypotheses are met, with characters that would have to be encoded in a value. -/
example : ∃ out w', (Case.builder hmacSha1).authorize Case.cfg b!"GET" (.ofBytes Case.uri) Case.request
    Case.world = .ok (out, w') ∧ IsFieldValue out := by
  obtain ⟨out, w', h⟩ := Case.header
  exact ⟨out, w', h, ((C80_sendable Case.cfg (sends_hmac _) Case.trace b!"GET" Case.world w' out).1 _ h).1⟩

end OAuth
