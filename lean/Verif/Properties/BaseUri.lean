import Verif.Proofs.Uri
import Verif.Properties.Rfc

/-
C56: the URI that is signed, and the base string URI of RFC 5849.
-/

namespace OAuth

open Spec

variable {S : Type}

theorem rfcBase_uri_iff (method : Bytes) (x y : Bytes) (ps : List (Bytes × Bytes)) :
    rfcBase method x ps = rfcBase method y ps ↔ x = y := by
  unfold rfcBase
  constructor
  · intro h
    exact encode_injective (List.append_cancel_left (List.append_cancel_right
      (List.append_cancel_right h)))
  · rintro rfl; rfl

/-- C56, exactly: for an http or https URI, the base string is that of RFC 5849 (with the base string URI
of section 3.4.1.2) if and only if the URI is in normal form and encoding keeps the order of values. -/
theorem C56_base_string_iff (cfg : Cfg) (b : Builder S) (name : Bytes) {supplied current : List Pair}
    (hb : Built supplied current) {method : Bytes} (hp : Plain supplied method) {uri : Display}
    {u : Uri} (hu : u.Valid) (huri : uri.text = u.text) (w : World) :
    b.base cfg name method uri (weave allProto current) w =
      rfcBase method u.baseUri (b.params cfg name w ++ shown Display.text supplied) ↔
    u.Normal ∧ EncodingKeepsOrder supplied := by
  rw [← baseUri_iff hu, ← huri]
  constructor
  · intro h
    have h1 : uri.text = u.baseUri := by
      have h2 := h
      unfold Builder.base baseString rfcBase at h2
      rw [hp.methodUpper, encode_of_unreserved hp.methodUnreserved] at h2
      simp only [List.append_assoc, List.append_cancel_left_eq, List.cons_append, List.nil_append,
        List.cons.injEq, true_and] at h2
      have h3 := congrArg (splitFirst 0x26) h2
      rw [splitFirst_append (not_mem_encode _ (by decide)),
        splitFirst_append (not_mem_encode _ (by decide))] at h3
      exact encode_injective (congrArg Prod.fst (Option.some.inj h3))
    refine ⟨h1, ?_⟩
    rw [← h1] at h
    exact (C07_base_string_iff cfg b name hb hp uri w).mp h
  · rintro ⟨h1, h2⟩
    rw [← h1]
    exact (C07_base_string_iff cfg b name hb hp uri w).mpr h2

/-- The URI of the shared case, in its components. -/
def Case.parsedUri : Uri := { scheme := b!"http", host := b!"example.com", path := b!"/a" }

theorem Case.parsedUri_valid : Case.parsedUri.Valid :=
  ⟨by decide, fun x hx => (by cases hx), .inl (by decide), fun p hp => (by cases hp), by decide, by decide,
    fun x hx => (by cases hx)⟩

theorem Case.parsedUri_normal : Case.parsedUri.Normal :=
  ⟨by decide, rfl, by decide, fun p hp => (by cases hp), by decide, rfl, rfl⟩

example : (Case.builder hmacSha1).base Case.cfg b!"HMAC-SHA1" b!"GET" (.ofBytes Case.uri) Case.calls
      Case.world =
    rfcBase b!"GET" b!"http://example.com/a"
      ((Case.builder hmacSha1).params Case.cfg b!"HMAC-SHA1" Case.world ++
        [(b!"a", b!"1 é"), (b!"p", b!"&=+"), (b!"p", b!"~%")]) :=
  (C56_base_string_iff Case.cfg (Case.builder hmacSha1) _ Case.built (Case.plain _ (by decide))
    Case.parsedUri_valid (by decide) Case.world).mpr ⟨Case.parsedUri_normal, Case.keepsOrder⟩

/-- C56, the claim: a server that follows RFC 5849, including the base string URI, accepts the header
returned for an http or https URI without query and fragment (the documentation rules out the query). -/
def C56_claim : Prop :=
  ∀ (cfg : Cfg) (b : Builder Hmac), b.signatureMethod = hmacSha1 →
  ∀ (supplied current : List Pair), Built supplied current → AllOk supplied →
    EncodingKeepsOrder supplied →
  ∀ (method : Bytes), Plain supplied method → ∀ (u : Uri), u.Valid → u.query = none →
    u.fragment = none →
  ∀ (uri : Display), uri.outcome = .ok → uri.text = u.text → ∀ (w w' : World) (out : Bytes),
    b.authorize cfg method uri (ParameterList.request cfg current) w = .ok (out, w') →
    rfcVerify Sha1.hash b.client.secret (b.token.map (·.secret)) method u.baseUri out
      (shown Display.text supplied) = true

/-- C56, where it holds: for a URI in normal form. What is missing is the others: the crate signs the
URI as it is given. -/
theorem C56_rfc_server_accepts_partial {cfg : Cfg} {b : Builder Hmac}
    (hb : b.signatureMethod = hmacSha1) {supplied current : List Pair}
    (hbuilt : Built supplied current) (hok : AllOk supplied) {method : Bytes}
    (hp : Plain supplied method) (hkeeps : EncodingKeepsOrder supplied) {u : Uri} (hu : u.Valid)
    (hn : u.Normal) {uri : Display} (huri : uri.outcome = .ok) (htext : uri.text = u.text)
    {w w' : World} {out : Bytes}
    (h : b.authorize cfg method uri (ParameterList.request cfg current) w = .ok (out, w'))
    {received : List (Bytes × Bytes)} (hrec : received.Perm (shown Display.text supplied)) :
    rfcVerify Sha1.hash b.client.secret (b.token.map (·.secret)) method u.baseUri out received =
      true := by
  have := C07_rfc_server_accepts_partial hb hbuilt hok hp hkeeps huri h hrec
  rwa [htext, (baseUri_iff hu).mpr hn] at this

example : ∃ out w', (Case.builder hmacSha1).authorize Case.cfg b!"GET" (.ofBytes Case.uri) Case.request
      Case.world = .ok (out, w') ∧
    rfcVerify Sha1.hash b!"client/secret" (some b!"token secret") b!"GET" Case.parsedUri.baseUri out
      [(b!"p", b!"~%"), (b!"a", b!"1 é"), (b!"p", b!"&=+")] = true := by
  obtain ⟨out, w', h⟩ := Case.header
  exact ⟨out, w', h, C56_rfc_server_accepts_partial (b := Case.builder hmacSha1) rfl Case.built Case.ok
    (Case.plain _ (by decide)) Case.keepsOrder Case.parsedUri_valid Case.parsedUri_normal rfl (by decide) h
    (by decide)⟩

/-- C56, for other URIs: the server accepts only if the two different base strings have the same MAC. -/
theorem C56_not_normal {cfg : Cfg} {b : Builder Hmac} (hb : b.signatureMethod = hmacSha1)
    {supplied current : List Pair} (hbuilt : Built supplied current) (hok : AllOk supplied)
    {method : Bytes} (hp : Plain supplied method) {u : Uri} (hu : u.Valid) (hn : ¬ u.Normal)
    {uri : Display} (huri : uri.outcome = .ok) (htext : uri.text = u.text) {w w' : World} {out : Bytes}
    (h : b.authorize cfg method uri (ParameterList.request cfg current) w = .ok (out, w')) :
    let mac := hmac Sha1.hash (signingKey b.client.secret (b.token.map (·.secret)))
    let signed := b.base cfg b!"HMAC-SHA1" method uri (weave allProto current) w
    let expected := rfcBase method u.baseUri (b.params cfg b!"HMAC-SHA1" w ++ shown Display.text supplied)
    signed ≠ expected ∧
      (rfcVerify Sha1.hash b.client.secret (b.token.map (·.secret)) method u.baseUri out
        (shown Display.text supplied) = true ↔ mac signed = mac expected) := by
  intro mac signed expected
  refine ⟨fun e => hn ((C56_base_string_iff cfg b _ hbuilt hp hu htext w).mp e).1, ?_⟩
  have hok' : AllOk current := fun x hx => hok x ((C19_always_sorted hbuilt).1.mem_iff.mp hx)
  obtain ⟨b64, h1, -, h2⟩ := (C26_hmac_sha1_signature hb (isTrace_parameterList cfg current)
    (standard_weave current) (weave_ok hok') method w w' out).1 uri huri h
  obtain ⟨c1, c2⟩ := collect_params cfg b b!"HMAC-SHA1" w b64 hp.notSignature
  unfold rfcVerify
  rw [h2]
  simp only [c1, c2, h1, beq_iff_eq, Option.some.injEq]
  rfl

/-- The same URI with its port spelled out. -/
example : let u : Uri := { Case.parsedUri with port := some b!"80" }
    u.Valid ∧ ¬ u.Normal ∧ u.text = b!"http://example.com:80/a" ∧
    ∃ out w', (Case.builder hmacSha1).authorize Case.cfg b!"GET" (.ofBytes u.text) Case.request Case.world =
      .ok (out, w') :=
  ⟨{ Case.parsedUri_valid with port := fun p hp => (by cases hp; decide) },
    fun h => (h.port _ rfl).2 (by decide), by decide, Case.ok_of_isSome (by decide +kernel)⟩

/-- URIs in normal form, with what is easily mistaken for something else in them. -/
example : let u : Uri :=
      { scheme := b!"https", host := b!"[2001:db8::1]", port := some b!"80", path := b!"/a:b@c//" }
    u.Valid ∧ u.Normal ∧ u.text = b!"https://[2001:db8::1]:80/a:b@c//" :=
  ⟨⟨by decide, fun x hx => (by cases hx), .inr ⟨b!"2001:db8::1", by decide, by decide⟩,
      fun p hp => (by cases hp; decide), by decide, by decide, fun x hx => (by cases hx)⟩,
    ⟨by decide, by decide, by decide, fun p hp => (by cases hp; decide), by decide, rfl, rfl⟩, by decide⟩

/-- The example of RFC 5849 section 3.4.1.2: the port and the case of the host are not signed. -/
example : let u : Uri :=
      { scheme := b!"http", host := b!"EXAMPLE.COM", port := some b!"80", path := b!"/r%20v/X",
        query := some b!"id=123" }
    u.text = b!"http://EXAMPLE.COM:80/r%20v/X?id=123" ∧ u.baseUri = b!"http://example.com/r%20v/X" ∧
      ¬ u.Normal :=
  ⟨by decide, by decide, fun h => (by cases h.query)⟩

/-- C56 is false, e.g. of `http://a.b`, without the slash. -/
theorem C56_violated : ¬ C56_claim := by
  intro h
  let cfg : Cfg := ⟨true, true, .std⟩
  let b : Builder Hmac := ⟨hmacSha1, .new b!"k" b!"s", none, .new⟩
  let u : Uri := { scheme := b!"http", host := b!"a.b", path := [] }
  have hu : u.Valid :=
    ⟨by decide, fun x hx => (by cases hx), .inl (by decide), fun p hp => (by cases hp), by decide,
      by decide, fun x hx => (by cases hx)⟩
  have hok : AllOk [] := by simp [AllOk]
  have hbuilt : Built [] [] := .fromSorted (by decide +kernel)
  have hplain : Plain [] b!"GET" :=
    ⟨by simp, by simp, by simp, by decide, by decide⟩
  obtain ⟨hf, -⟩ := (C16_parameter_list_never_panics cfg hbuilt hok b.client none
    .new b!"GET" (.inl (by decide)) World.example (⟨fun _ _ => some []⟩ : RsaOps Unit) ()
    (fun _ => rfl)).1
  obtain ⟨⟨⟨out, w'⟩, hres⟩, -⟩ := hf (.ofBytes b!"http://a.b") rfl (by decide)
  have h1 := h cfg b rfl [] [] hbuilt hok (by intro x hx; cases hx) b!"GET" hplain u hu rfl rfl
    (.ofBytes b!"http://a.b") rfl (by decide) World.example w' out hres
  obtain ⟨b64, e1, -, e2⟩ := (C26_hmac_sha1_signature (b := b) rfl (isTrace_parameterList cfg [])
    (standard_weave []) (weave_ok hok) b!"GET" World.example w' out).1 (.ofBytes b!"http://a.b") rfl hres
  obtain ⟨c1, c2⟩ := collect_params cfg b b!"HMAC-SHA1" World.example b64 hplain.notSignature
  unfold rfcVerify at h1
  rw [e2] at h1
  rw [show shown Display.text [] = ([] : List (Bytes × Bytes)) from rfl] at h1 c1
  simp only [c1, c2, e1, beq_iff_eq, Option.some.injEq] at h1
  exact absurd h1 (by decide +kernel)

end OAuth
