import Verif.Properties.Panics

/-
C11: `Builder::to_form` and `to_query` are documented to write "the OAuth protocol parameters to an
x-www-form-urlencoded string along with the other request parameters". They do not write the latter.
-/

namespace OAuth

open Spec

variable {S : Type}

/-- The claim: whatever `to_form` returns for a parameter list, and whatever `to_query` appends,
contains every pair of the list. -/
def C11_claim : Prop :=
  ∀ (cfg : Cfg) (b : Builder Hmac), b.signatureMethod = hmacSha1 →
  ∀ (pairs : List Pair), AllOk pairs → (∀ p ∈ pairs, ∀ x ∈ p.1, unreserved x = true) →
  ∀ (method : Bytes) (w w' : World) (out : Bytes),
    (∀ uri : Display, b.toForm cfg method uri (ParameterList.request cfg pairs) w = .ok (out, w') →
      ∃ ps, parseForm out = some ps ∧ ∀ p ∈ pairs, (p.1, p.2.text) ∈ ps) ∧
    (∀ uri : Bytes, b.toQuery cfg stringWriter .ofBytes method uri
        (ParameterList.request cfg pairs) w = .ok (out, w') →
      ∃ form ps, out = uri ++ b!"?" ++ form ∧ parseForm form = some ps ∧
        ∀ p ∈ pairs, (p.1, p.2.text) ∈ ps)

/-- C11 as it really is, for every request and signing algorithm: all names in the form are names of
protocol parameters or `oauth_signature`; the pairs of the request have no influence on which. -/
theorem C11_only_protocol_parameters {cfg : Cfg} {b : Builder S} {name : Bytes} {un ut : Bool}
    (hsg : ConstSign b.signatureMethod.sign name un ut) (hname : ∀ x ∈ name, unreserved x = true)
    {r : Request} {cs : List Call} (hr : IsTrace r cs) (hstd : Standard cs) (method : Bytes)
    (w w' : World) (out : Bytes) (uri : Display)
    (h : b.toForm cfg method uri r w = .ok (out, w')) :
    ∃ s sig, b.signatureMethod.sign.end s = .ok sig ∧ (∃ ps, out = formText ps sig.text) ∧
      ∀ d, FormSafe sig.text d →
      ∃ ps, parseForm out = some ps ∧
        ∀ p ∈ ps, p.1 = b!"oauth_signature" ∨ ∃ q : Proto, p.1 = q.name := by
  obtain ⟨s, sig, h1, ht, h2⟩ :=
    (C12_form_layout hsg hname hr hstd method w w' out).1 uri h
  refine ⟨s, sig, h1, ⟨_, ht⟩, fun d hd => ⟨_, h2 d hd, ?_⟩⟩
  intro p hp
  rcases List.mem_append.mp hp with hp | hp
  · obtain ⟨q, -, hq⟩ := List.mem_filterMap.mp hp
    obtain ⟨v, -, rfl⟩ := Option.map_eq_some_iff.mp hq
    exact .inr ⟨q, rfl⟩
  · rw [List.mem_singleton] at hp
    subst hp
    exact .inl rfl

/-- The shared case. -/
example : ∃ out w', (Case.builder hmacSha1).toForm Case.cfg b!"POST" (.ofBytes Case.uri) Case.request
      Case.world = .ok (out, w') ∧ ∃ ps, parseForm out = some ps ∧
        ∀ p ∈ ps, p.1 = b!"oauth_signature" ∨ ∃ q : Proto, p.1 = q.name := by
  obtain ⟨out, w', h⟩ := Case.form
  obtain ⟨s, sig, h1, -, h2⟩ := C11_only_protocol_parameters (constSign_hmac _) unreserved_hmacName Case.trace
    Case.standard _ _ _ _ _ h
  cases h1
  exact ⟨out, w', h, h2 _ (by rw [(base64PercentEncodeDisplay_text _).1]; exact formSafe_encode _)⟩

/-- C11, exactly: a parameter of the request is in the form, or in the query, if and only if it is the
same as one of the protocol parameters or the signature. -/
theorem C11_iff {cfg : Cfg} {b : Builder S} {name : Bytes} {un ut : Bool}
    (hsg : ConstSign b.signatureMethod.sign name un ut) (hname : ∀ x ∈ name, unreserved x = true)
    {r : Request} {cs : List Call} (hr : IsTrace r cs) (hstd : Standard cs) (method : Bytes)
    (w w' : World) (out : Bytes) (p : Bytes × Bytes) :
    (∀ uri, b.toForm cfg method uri r w = .ok (out, w') →
      ∃ s sig, b.signatureMethod.sign.end s = .ok sig ∧ (∃ ps, out = formText ps sig.text) ∧
      ∀ d, FormSafe sig.text d →
        ∃ ps, parseForm out = some ps ∧ (p ∈ ps ↔
          p ∈ (b.env name un ut).protocolParams w.nonce (w.time cfg) ∨ p = (b!"oauth_signature", d))) ∧
    (∀ uri, b.toQuery cfg stringWriter .ofBytes method uri r w = .ok (out, w') →
      ∃ s sig form, b.signatureMethod.sign.end s = .ok sig ∧ out = uri ++ b!"?" ++ form ∧
        (∃ ps, form = formText ps sig.text) ∧ ∀ d, FormSafe sig.text d →
        ∃ ps, parseForm form = some ps ∧ (p ∈ ps ↔
          p ∈ (b.env name un ut).protocolParams w.nonce (w.time cfg) ∨
            p = (b!"oauth_signature", d))) := by
  obtain ⟨hf, hq⟩ := C12_form_layout hsg hname hr hstd method w w' out
  constructor
  · intro uri h
    obtain ⟨s, sig, h1, ht, h2⟩ := hf uri h
    exact ⟨s, sig, h1, ⟨_, ht⟩, fun d hd => ⟨_, h2 d hd, by simp⟩⟩
  · intro uri h
    obtain ⟨s, sig, form, h1, h2, ht, h3⟩ := hq uri h
    exact ⟨s, sig, form, h1, h2, ⟨_, ht⟩, fun d hd => ⟨_, h3 d hd, by simp⟩⟩

/-- The shared case: its first parameter is neither in the form nor in the query. -/
example : ∃ form query w1 w2,
    (Case.builder hmacSha1).toForm Case.cfg b!"POST" (.ofBytes Case.uri) Case.request Case.world =
      .ok (form, w1) ∧
    (Case.builder hmacSha1).toQuery Case.cfg stringWriter .ofBytes b!"GET" Case.uri Case.request Case.world =
      .ok (Case.uri ++ b!"?" ++ query, w2) ∧
    (∃ ps, parseForm form = some ps ∧ (b!"a", b!"1 é") ∉ ps) ∧
    ∃ ps, parseForm query = some ps ∧ (b!"a", b!"1 é") ∉ ps := by
  have hp : (b!"a", b!"1 é") ∉ ((Case.builder hmacSha1).env b!"HMAC-SHA1" true true).protocolParams
      Case.world.nonce (Case.world.time Case.cfg) := by decide +kernel
  obtain ⟨form, w1, hf⟩ := Case.form
  obtain ⟨out, w2, hq⟩ := Case.query
  obtain ⟨s, sig, h1, -, h2⟩ := (C11_iff (constSign_hmac _) unreserved_hmacName Case.trace
    Case.standard _ _ _ _ (b!"a", b!"1 é")).1 _ hf
  obtain ⟨s', sig', query, h1', rfl, -, h2'⟩ := (C11_iff (constSign_hmac _) unreserved_hmacName Case.trace
    Case.standard _ _ _ _ (b!"a", b!"1 é")).2 _ hq
  cases h1
  cases h1'
  obtain ⟨ps, h3, h4⟩ := h2 _ (by rw [(base64PercentEncodeDisplay_text _).1]; exact formSafe_encode _)
  obtain ⟨ps', h3', h4'⟩ := h2' _ (by rw [(base64PercentEncodeDisplay_text _).1]; exact formSafe_encode _)
  exact ⟨form, query, w1, w2, hf, hq,
    ⟨ps, h3, fun h => (h4.mp h).elim hp fun h => (by cases h)⟩,
    ⟨ps', h3', fun h => (h4'.mp h).elim hp fun h => (by cases h)⟩⟩

/-- C11 is false: `status=hi` is not in the form made for it. -/
theorem C11_violated : ¬ C11_claim := by
  intro h
  let cfg : Cfg := ⟨true, true, .std⟩
  let b : Builder Hmac := ⟨hmacSha1, .new b!"k" b!"s", none, .new⟩
  let pairs : List Pair := [(b!"status", .ofBytes b!"hi")]
  have hok : AllOk pairs := by simp [pairs, AllOk, Display.ofBytes]
  obtain ⟨hf, -⟩ := (C16_parameter_list_never_panics cfg (Built.new .merge pairs) hok b.client none
    .new b!"POST" (.inl (by decide)) World.example (⟨fun _ _ => some []⟩ : RsaOps Unit) ()
    (fun _ => rfl)).1
  obtain ⟨-, ⟨⟨out, w'⟩, hres⟩⟩ := hf (.ofBytes b!"http://a/") rfl (by decide)
  have hmerge : ParameterList.new .merge pairs = pairs := by decide +kernel
  rw [hmerge] at hres
  obtain ⟨ps, hps, hmem⟩ := (h cfg b rfl pairs hok (by decide) b!"POST" World.example w' out).1 _ hres
  have hc := C12_form_layout (cfg := cfg) (b := b) (constSign_hmac _) unreserved_hmacName
    (isTrace_parameterList cfg pairs) (standard_weave pairs) b!"POST" World.example w' out
  obtain ⟨s, sig, h1, -, h2⟩ := hc.1 _ hres
  have hsafe : ∃ d, FormSafe sig.text d := by
    cases h1
    rw [(base64PercentEncodeDisplay_text _).1]
    exact ⟨_, formSafe_encode _⟩
  obtain ⟨d, hd⟩ := hsafe
  have h3 := h2 d hd
  rw [hps] at h3
  cases h3
  have := hmem (b!"status", .ofBytes b!"hi") (by simp [pairs])
  rcases List.mem_append.mp this with hp | hp
  · obtain ⟨q, -, hq⟩ := List.mem_filterMap.mp hp
    obtain ⟨v, -, hv⟩ := Option.map_eq_some_iff.mp hq
    have e : q.name = b!"status" := congrArg Prod.fst hv
    exact absurd e ((by decide : ∀ q ∈ allProto, q.name ≠ b!"status") q (by cases q <;> decide))
  · rw [List.mem_singleton] at hp
    have e : b!"status" = b!"oauth_signature" := congrArg Prod.fst hp
    exact absurd e (by decide)

/-- C11, the part that holds: the protocol parameters that are set and the signature are all in the
form, and in the query; and with a request without pairs, so is "every pair of the request". What is
missing is the pairs of a request that has some. -/
theorem C11_protocol_parameters_partial {cfg : Cfg} {b : Builder S} {name : Bytes} {un ut : Bool}
    (hsg : ConstSign b.signatureMethod.sign name un ut) (hname : ∀ x ∈ name, unreserved x = true)
    {r : Request} {cs : List Call} (hr : IsTrace r cs) (hstd : Standard cs) (method : Bytes)
    (w w' : World) (out : Bytes) :
    (∀ uri, b.toForm cfg method uri r w = .ok (out, w') →
      ∃ s sig, b.signatureMethod.sign.end s = .ok sig ∧ (∃ ps, out = formText ps sig.text) ∧
      ∀ d, FormSafe sig.text d →
        ∃ ps, parseForm out = some ps ∧ (b!"oauth_signature", d) ∈ ps ∧
          ∀ q v, (b.env name un ut).value w.nonce (w.time cfg) q = some v → (q.name, v) ∈ ps) ∧
    (∀ uri, b.toQuery cfg stringWriter .ofBytes method uri r w = .ok (out, w') →
      ∃ s sig form, b.signatureMethod.sign.end s = .ok sig ∧ out = uri ++ b!"?" ++ form ∧
        (∃ ps, form = formText ps sig.text) ∧ ∀ d, FormSafe sig.text d →
        ∃ ps, parseForm form = some ps ∧ (b!"oauth_signature", d) ∈ ps ∧
          ∀ q v, (b.env name un ut).value w.nonce (w.time cfg) q = some v → (q.name, v) ∈ ps) := by
  obtain ⟨hf, hq⟩ := C12_form_layout hsg hname hr hstd method w w' out
  have hmem : ∀ d q v, (b.env name un ut).value w.nonce (w.time cfg) q = some v →
      (q.name, v) ∈ (b.env name un ut).protocolParams w.nonce (w.time cfg) ++
        [(b!"oauth_signature", d)] := by
    intro d q v hv
    refine List.mem_append_left _ (List.mem_filterMap.mpr ⟨q, by cases q <;> decide, ?_⟩)
    rw [hv]; rfl
  refine ⟨fun uri h => ?_, fun uri h => ?_⟩
  · obtain ⟨s, sig, h1, ht, h2⟩ := hf uri h
    exact ⟨s, sig, h1, ⟨_, ht⟩, fun d hd => ⟨_, h2 d hd, by simp, hmem d⟩⟩
  · obtain ⟨s, sig, form, h1, h0, ht, h2⟩ := hq uri h
    exact ⟨s, sig, form, h1, h0, ⟨_, ht⟩, fun d hd => ⟨_, h2 d hd, by simp, hmem d⟩⟩

/-- A concrete form, with PLAINTEXT: the pairs of the request are missing. -/
example : (((Builder.new (.new b!"k" b!"s") plaintext).setTimestamp (some ⟨1, by decide, by decide⟩)
    |>.setNonce (some b!"n")).toForm ⟨true, true, .std⟩ b!"POST" (.ofBytes b!"http://a/")
      (AssertSorted.request ⟨true, true, .std⟩ examplePairs) World.example).toOption.map (·.1) =
    some b!"oauth_consumer_key=k&oauth_nonce=n&oauth_signature_method=PLAINTEXT&oauth_timestamp=1&oauth_signature=s&" := by
  decide +kernel

end OAuth
