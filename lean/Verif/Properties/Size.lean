import Verif.Properties.Writers
import Verif.Properties.Signature
import Verif.Spec.Size

/-!
# C81: how large a buffer must be
-/

namespace OAuth

open Spec

variable {S : Type}

theorem length_encode (s : Bytes) : (encode s).length = encodedLength s := by
  have hb : ∀ b : UInt8, (encodeByte b).length = if unreserved b then 1 else 3 := by
    apply forall_byte; decide +kernel
  induction s with
  | nil => rfl
  | cons b s ih =>
    rw [encode_cons, List.length_append, ih, hb]
    simp [encodedLength]

theorem length_headerText (params : List (Bytes × Bytes)) (sig : Bytes) :
    (headerText (params.map fun p => (p.1, encode p.2)) sig).length = headerLength params sig.length := by
  have h : ∀ params : List (Bytes × Bytes),
      ((params.map fun p => (p.1, encode p.2)).map headerItem).flatten.length =
      (params.map fun p => p.1.length + encodedLength p.2 + 4).sum := by
    intro params
    induction params with
    | nil => rfl
    | cons p params ih =>
      simp only [List.map_cons, List.flatten_cons, List.length_append, List.sum_cons, ih]
      simp [headerItem, length_encode]
      omega
  simp only [headerText, List.length_append, h, headerLength]
  simp
  omega

theorem length_join_amp (l : List Bytes) (t : Bytes) :
    (join b!"&" (l ++ [t])).length = (l.map fun x => x.length + 1).sum + t.length := by
  induction l with
  | nil => simp [join]
  | cons x l ih =>
    cases l with
    | nil => simp [join]; omega
    | cons y l =>
      rw [List.cons_append, List.cons_append, join, ← List.cons_append, List.length_append,
        List.length_append, ih]
      simp
      omega

theorem length_formText (params : List (Bytes × Bytes)) (sig : Bytes) :
    (formText (params.map fun p => (p.1, encode p.2)) sig).length = formLength params sig.length := by
  rw [formText, List.map_append, List.map_singleton, length_join_amp, formLength, List.map_map, List.map_map]
  congr 1
  · congr 1
    apply List.map_congr_left
    intro p _
    simp [formItem, length_encode]
    omega
  · simp [formItem]
    omega

/-- C81, the length: each parameter set adds its name, its encoded value and four bytes to a header, two
to a form; the request's own parameters, the method and the URI add nothing (a query is the URI, `?` and
such a form). -/
theorem C81_length {cfg : Cfg} {b : Builder S} {name : Bytes} {un ut : Bool}
    (hsg : ConstSign b.signatureMethod.sign name un ut) (hname : ∀ x ∈ name, unreserved x = true)
    {r : Request} {cs : List Call} (hr : IsTrace r cs) (hstd : Standard cs) (method : Bytes)
    (w w' : World) (out : Bytes) :
    (∀ uri, b.authorize cfg method uri r w = .ok (out, w') →
      ∃ s sig, b.signatureMethod.sign.end s = .ok sig ∧
        out.length = headerLength ((b.env name un ut).protocolParams w.nonce (w.time cfg)) sig.text.length) ∧
    (∀ uri, b.toForm cfg method uri r w = .ok (out, w') →
      ∃ s sig, b.signatureMethod.sign.end s = .ok sig ∧
        out.length = formLength ((b.env name un ut).protocolParams w.nonce (w.time cfg)) sig.text.length) ∧
    (∀ uri, b.toQuery cfg stringWriter .ofBytes method uri r w = .ok (out, w') →
      ∃ s sig, b.signatureMethod.sign.end s = .ok sig ∧
        out.length = uri.length + 1 +
          formLength ((b.env name un ut).protocolParams w.nonce (w.time cfg)) sig.text.length) := by
  refine ⟨fun uri h => ?_, fun uri h => ?_, fun uri h => ?_⟩
  · obtain ⟨s, sig, h1, h2, -⟩ := C09_header_parses hsg hname hr hstd method uri w w' out h
    exact ⟨s, sig, h1, by rw [h2]; exact length_headerText _ _⟩
  · obtain ⟨s, sig, h1, h2, -⟩ := (C12_form_layout hsg hname hr hstd method w w' out).1 uri h
    exact ⟨s, sig, h1, by rw [h2]; exact length_formText _ _⟩
  · obtain ⟨s, sig, form, h1, h2, h3, -⟩ := (C12_form_layout hsg hname hr hstd method w w' out).2 uri h
    refine ⟨s, sig, h1, ?_⟩
    rw [h2, h3, List.length_append, List.length_append]
    exact congrArg _ (length_formText _ _)

theorem writes_capacity (n : Nat) (l : List Bytes) (buf buf' : Bytes) (hb : buf.length ≤ n) :
    Writes (capacityWriter n) buf l buf' ↔ buf.length + l.flatten.length ≤ n ∧ buf' = buf ++ l.flatten := by
  induction l generalizing buf with
  | nil =>
    constructor
    · intro h; cases h; simp [hb]
    · rintro ⟨-, rfl⟩; simpa using Writes.done buf
  | cons c l ih =>
    constructor
    · intro h
      cases h with
      | step h rest =>
        simp only [capacityWriter] at h
        split at h
        · rename_i hc
          cases h
          obtain ⟨h1, h2⟩ := (ih _ (by simpa using hc)).mp rest
          refine ⟨?_, by simp [h2]⟩
          simp only [List.length_append, List.flatten_cons] at h1 ⊢
          omega
        · cases h
    · rintro ⟨h1, rfl⟩
      simp only [List.length_append, List.flatten_cons] at h1
      have hc : buf.length + c.length ≤ n := by omega
      refine .step (d1 := buf ++ c) (by simp [capacityWriter, hc]) ?_
      rw [ih _ (by simpa using hc)]
      refine ⟨?_, by simp⟩
      simp only [List.length_append]
      omega

/-- C81: with a buffer of fixed capacity, of any content, the functions return exactly if what the string
version returns fits, and then append it; otherwise they panic. -/
theorem capacity_of_writes {ref : Except Panic (Bytes × World)}
    {F : ∀ W, Writer W → W → Except Panic (W × World)} (h : WritesAllOrPanics ref F) {s : Bytes} {w' : World}
    (href : ref = .ok (s, w')) (n : Nat) (buf : Bytes) (hb : buf.length ≤ n) :
    F Bytes (capacityWriter n) buf =
      if buf.length + s.length ≤ n then .ok (buf ++ s, w') else .error .fmtUnwrap := by
  obtain ⟨writes, rfl, hw⟩ := h.1 s w' href
  obtain ⟨h1, h2⟩ := hw Bytes (capacityWriter n) buf
  by_cases hc : buf.length + writes.flatten.length ≤ n
  · rw [if_pos hc, h1, writes_capacity n _ _ _ hb]
    exact ⟨⟨hc, rfl⟩, rfl⟩
  · rw [if_neg hc]
    apply h2
    rintro ⟨buf', hw⟩
    exact hc ((writes_capacity n _ _ _ hb).mp hw).1

/-- C81 for headers, forms and queries. -/
theorem C81_capacity (cfg : Cfg) (b : Builder S) {r : Request} {cs : List Call} (hr : IsTrace r cs)
    (method : Bytes) (w w' : World) (s : Bytes) (n : Nat) (buf : Bytes) (hb : buf.length ≤ n) :
    (∀ uri, b.authorize cfg method uri r w = .ok (s, w') →
      b.authorizeWithBuf cfg (capacityWriter n) buf method uri r w =
        if buf.length + s.length ≤ n then .ok (buf ++ s, w') else .error .fmtUnwrap) ∧
    (∀ uri, b.toForm cfg method uri r w = .ok (s, w') →
      b.toFormWithBuf cfg (capacityWriter n) buf method uri r w =
        if buf.length + s.length ≤ n then .ok (buf ++ s, w') else .error .fmtUnwrap) ∧
    (b.toQuery cfg stringWriter .ofBytes method buf r w = .ok (buf ++ s, w') →
      b.toQuery cfg (capacityWriter n) .ofBytes method buf r w =
        if buf.length + s.length ≤ n then .ok (buf ++ s, w') else .error .fmtUnwrap) := by
  refine ⟨fun uri h => capacity_of_writes (C36_header cfg b hr method uri w).1 h n buf hb,
    fun uri h => capacity_of_writes (C36_form cfg b hr method uri w).1 h n buf hb, fun h => ?_⟩
  obtain ⟨h1, h2, h3⟩ := C36_query cfg b hr method (.ofBytes buf) w
  rw [(h2 (capacityWriter n) .ofBytes buf rfl).1]
  refine capacity_of_writes h1 ?_ n buf hb
  rw [(h2 stringWriter .ofBytes buf rfl).1] at h
  cases he : b.toQuery cfg stringWriter (fun _ => .ofBytes buf) method [] r w with
  | ok x =>
    obtain ⟨out, w1⟩ := x
    have := h3 buf out w1 he
    rw [h] at this
    simp only [Except.ok.injEq, Prod.mk.injEq, List.append_cancel_left_eq] at this
    rw [this.1, this.2]
  | error p =>
    rcases h1.2 p he Bytes stringWriter buf with h' | h' <;> cases h.symm.trans h'

theorem encodedLength_le (s : Bytes) : s.length ≤ encodedLength s ∧ encodedLength s ≤ 3 * s.length := by
  induction s with
  | nil => exact ⟨Nat.le_refl _, Nat.le_refl _⟩
  | cons b s ih =>
    simp only [encodedLength, List.map_cons, List.sum_cons, List.length_cons] at ih ⊢
    split <;> omega

/-- C81 with HMAC-SHA1: the encoded signature is 28 to 84 bytes long, so a buffer with room for a signature
of 84 bytes is enough whatever is signed. -/
theorem C81_hmac {cfg : Cfg} {b : Builder Hmac} (hb : b.signatureMethod = hmacSha1)
    {r : Request} {cs : List Call} (hr : IsTrace r cs) (hstd : Standard cs)
    (hcs : ∀ c ∈ cs, c.ok) (method : Bytes) (w w' : World) (out : Bytes) (uri : Display)
    (huri : uri.outcome = .ok) :
    let params := b.params cfg b!"HMAC-SHA1" w
    (b.authorize cfg method uri r w = .ok (out, w') →
      (∃ n, 28 ≤ n ∧ n ≤ 84 ∧ out.length = headerLength params n) ∧
      ∀ n buf, buf.length + headerLength params 84 ≤ n →
        b.authorizeWithBuf cfg (capacityWriter n) buf method uri r w = .ok (buf ++ out, w')) ∧
    (b.toForm cfg method uri r w = .ok (out, w') →
      (∃ n, 28 ≤ n ∧ n ≤ 84 ∧ out.length = formLength params n) ∧
      ∀ n buf, buf.length + formLength params 84 ≤ n →
        b.toFormWithBuf cfg (capacityWriter n) buf method uri r w = .ok (buf ++ out, w')) := by
  intro params
  have hs : b.Signs b!"HMAC-SHA1" true true (fun m => encode (base64Standard
      (hmac Sha1.hash (signingKey b.client.secret (b.token.map (·.secret))) m))) := by
    rw [Builder.Signs, hb]
    exact signs_hmac _ (fun m => by rw [sha1_length]; decide) _ _
  obtain ⟨h1, h2, -⟩ := signs_output hs hr hstd hcs method w w' out
  have hl : ∀ k m, 28 ≤ (encode (base64Standard (hmac Sha1.hash k m))).length ∧
      (encode (base64Standard (hmac Sha1.hash k m))).length ≤ 84 := by
    intro k m
    have h20 : (hmac Sha1.hash k m).length = 20 := by simp only [hmac, sha1_length]
    have h28 := base64Standard_length (hmac Sha1.hash k m)
    rw [h20] at h28
    have := encodedLength_le (base64Standard (hmac Sha1.hash k m))
    rw [length_encode]
    omega
  refine ⟨fun h => ?_, fun h => ?_⟩
  · have hlen := length_headerText params (encode (base64Standard (hmac Sha1.hash
      (signingKey b.client.secret (b.token.map (·.secret))) (b.base cfg b!"HMAC-SHA1" method uri cs w))))
    rw [← h1 uri huri h] at hlen
    have hl := hl (signingKey b.client.secret (b.token.map (·.secret)))
      (b.base cfg b!"HMAC-SHA1" method uri cs w)
    refine ⟨⟨_, hl.1, hl.2, hlen⟩, fun n buf hn => ?_⟩
    rw [(C81_capacity cfg b hr method w w' out n buf (by omega)).1 uri h, if_pos]
    rw [hlen]
    simp only [headerLength] at hn ⊢
    omega
  · have hlen := length_formText params (encode (base64Standard (hmac Sha1.hash
      (signingKey b.client.secret (b.token.map (·.secret))) (b.base cfg b!"HMAC-SHA1" method uri cs w))))
    rw [← h2 uri huri h] at hlen
    have hl := hl (signingKey b.client.secret (b.token.map (·.secret)))
      (b.base cfg b!"HMAC-SHA1" method uri cs w)
    refine ⟨⟨_, hl.1, hl.2, hlen⟩, fun n buf hn => ?_⟩
    rw [(C81_capacity cfg b hr method w w' out n buf (by omega)).2.1 uri h, if_pos]
    rw [hlen]
    simp only [formLength] at hn ⊢
    omega

/-- C81 with PLAINTEXT: the signature is as long as the encoded secrets and the `&` between them. -/
theorem C81_plaintext {cfg : Cfg} {b : Builder Bytes} (hb : b.signatureMethod = plaintext)
    {r : Request} {cs : List Call} (hr : IsTrace r cs) (hstd : Standard cs)
    (hcs : ∀ c ∈ cs, c.ok) (method : Bytes) (w w' : World) (out : Bytes) (uri : Display)
    (huri : uri.outcome = .ok) :
    let params := b.params cfg b!"PLAINTEXT" w
    let n := encodedLength b.client.secret + 1 + encodedLength ((b.token.map (·.secret)).getD [])
    (b.authorize cfg method uri r w = .ok (out, w') → out.length = headerLength params n) ∧
    (b.toForm cfg method uri r w = .ok (out, w') → out.length = formLength params n) := by
  intro params n
  have hs : b.Signs b!"PLAINTEXT" true true
      (fun _ => signingKey b.client.secret (b.token.map (·.secret))) := by
    rw [Builder.Signs, hb]
    exact signs_plaintext _ _
  obtain ⟨h1, h2, -⟩ := signs_output hs hr hstd hcs method w w' out
  have hn : (signingKey b.client.secret (b.token.map (·.secret))).length = n := by
    simp [signingKey, length_encode, n]
    omega
  refine ⟨fun h => ?_, fun h => ?_⟩
  · rw [h1 uri huri h, ← hn]
    exact length_headerText _ _
  · rw [h2 uri huri h, ← hn]
    exact length_formText _ _

/-- A value of five bytes, two of them encoded; a header with one parameter; a buffer that is full. -/
example : encodedLength b!"a b&c" = 9 := by decide
example : headerLength [(b!"a", b!"b c")] 4 = (b!"OAuth a=\"b%20c\",oauth_signature=\"abcd\"").length := by
  decide
example : formLength [(b!"a", b!"b c")] 4 = (b!"a=b%20c&oauth_signature=abcd").length := by decide
example : (capacityWriter 4).writeStr b!"ab" b!"cd" = some b!"abcd" ∧
    (capacityWriter 4).writeStr b!"ab" b!"cde" = none := by decide

/-- The shared case: its header fits in a buffer of 1000 bytes and not in one of 100. -/
example : ∃ out w', (Case.builder hmacSha1).authorize Case.cfg b!"GET" (.ofBytes Case.uri) Case.request
      Case.world = .ok (out, w') ∧
    (Case.builder hmacSha1).authorizeWithBuf Case.cfg (capacityWriter 1000) [] b!"GET" (.ofBytes Case.uri)
      Case.request Case.world = .ok (out, w') ∧
    (Case.builder hmacSha1).authorizeWithBuf Case.cfg (capacityWriter 100) [] b!"GET" (.ofBytes Case.uri)
      Case.request Case.world = .error .fmtUnwrap := by
  obtain ⟨out, w', h⟩ := Case.header
  have hp : (Case.builder hmacSha1).params Case.cfg b!"HMAC-SHA1" Case.world =
      [(b!"oauth_consumer_key", b!"client"), (b!"oauth_nonce", b!"AQgPFh0kKzI5"),
        (b!"oauth_signature_method", b!"HMAC-SHA1"), (b!"oauth_timestamp", b!"1600000000"),
        (b!"oauth_token", b!"token"), (b!"oauth_version", b!"1.0")] := by decide +kernel
  obtain ⟨⟨n, h1, -, h3⟩, h4⟩ := (C81_hmac (cfg := Case.cfg) (b := Case.builder hmacSha1) rfl Case.trace
    Case.standard (weave_ok Case.ok) b!"GET" Case.world w' out (.ofBytes Case.uri) rfl).1 h
  rw [hp] at h3 h4
  have hd : ∀ k, headerLength [(b!"oauth_consumer_key", b!"client"), (b!"oauth_nonce", b!"AQgPFh0kKzI5"),
        (b!"oauth_signature_method", b!"HMAC-SHA1"), (b!"oauth_timestamp", b!"1600000000"),
        (b!"oauth_token", b!"token"), (b!"oauth_version", b!"1.0")] k = 6 + 159 + (15 + k + 3) := by
    intro k; rfl
  refine ⟨out, w', h, by simpa using h4 1000 [] (by rw [hd]; simp), ?_⟩
  rw [(C81_capacity Case.cfg _ Case.trace b!"GET" Case.world w' out 100 [] (by simp)).1 _ h, if_neg]
  rw [h3, hd]
  simp
  omega

end OAuth
