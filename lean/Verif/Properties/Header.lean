import Verif.Properties.BaseString

/-
C09, C10, C11, C12: what is sent, and that it is what is signed.
-/

namespace OAuth

open Spec

variable {S : Type}

/-- A signature text that can stand in a header: no quote, no comma, and it decodes to `d`. -/
structure HeaderSafe (t d : Bytes) : Prop where
  quote : (0x22 : UInt8) ∉ t
  comma : (0x2C : UInt8) ∉ t
  dec : decode t = some d

/-- A signature text that can stand in a form: no ampersand, and it decodes to `d`. -/
structure FormSafe (t d : Bytes) : Prop where
  amp : (0x26 : UInt8) ∉ t
  dec : decode t = some d

theorem headerSafe_encode (d : Bytes) : HeaderSafe (encode d) d :=
  ⟨not_mem_encode _ (by decide), not_mem_encode _ (by decide), decode_encode _⟩

theorem formSafe_encode (d : Bytes) : FormSafe (encode d) d :=
  ⟨not_mem_encode _ (by decide), decode_encode _⟩

theorem parse_headerText (ps : List (Bytes × Bytes × Bytes)) {t d : Bytes} (ht : HeaderSafe t d)
    (h : ∀ p ∈ ps, (∀ b ∈ p.1, unreserved b = true) ∧ (0x22 : UInt8) ∉ p.2.1 ∧
      (0x2C : UInt8) ∉ p.2.1 ∧ (0x26 : UInt8) ∉ p.2.1 ∧ decode p.2.1 = some p.2.2) :
    parseHeader (headerText (ps.map fun p => (p.1, p.2.1)) t) =
      some (ps.map (fun p => (p.1, p.2.2)) ++ [(b!"oauth_signature", d)]) := by
  have := parseHeader_eq ps b!"oauth_signature" t d
    (fun p hp => ⟨(h p hp).1, (h p hp).2.1, (h p hp).2.2.1, (h p hp).2.2.2.2⟩) (by decide)
    ht.quote ht.comma ht.dec
  rw [← this, headerText]
  simp [List.map_map, Function.comp_def]

theorem parse_formText (ps : List (Bytes × Bytes × Bytes)) {t d : Bytes} (ht : FormSafe t d)
    (h : ∀ p ∈ ps, (∀ b ∈ p.1, unreserved b = true) ∧ (0x22 : UInt8) ∉ p.2.1 ∧
      (0x2C : UInt8) ∉ p.2.1 ∧ (0x26 : UInt8) ∉ p.2.1 ∧ decode p.2.1 = some p.2.2) :
    parseForm (formText (ps.map fun p => (p.1, p.2.1)) t) =
      some (ps.map (fun p => (p.1, p.2.2)) ++ [(b!"oauth_signature", d)]) := by
  have := parseForm_join (ps ++ [(b!"oauth_signature", t, d)]) (by
    intro p hp
    rcases List.mem_append.mp hp with hp | hp
    · exact ⟨(h p hp).1, (h p hp).2.2.2.1, (h p hp).2.2.2.2⟩
    · simp only [List.mem_singleton] at hp
      subst hp
      exact ⟨show ∀ b ∈ b!"oauth_signature", unreserved b = true by decide, ht.amp, ht.dec⟩)
  rw [List.map_append, List.map_append] at this
  rw [show ([(b!"oauth_signature", t, d)].map fun p : Bytes × Bytes × Bytes => (p.1, p.2.2)) =
    [(b!"oauth_signature", d)] from rfl] at this
  rw [← this, formText]
  simp [List.map_map, Function.comp_def, formItem]

/-- The protocol parameters, encoded. -/
def encodedParams (e : Env) (n : Bytes) (t : Nat) : List (Bytes × Bytes) :=
  (e.protocolParams n t).map fun p => (p.1, encode p.2)

theorem encodedParams_ok (e : Env) (n : Bytes) (t : Nat) :
    ∃ ps : List (Bytes × Bytes × Bytes),
      encodedParams e n t = ps.map (fun p => (p.1, p.2.1)) ∧
      e.protocolParams n t = ps.map (fun p => (p.1, p.2.2)) ∧
      ∀ p ∈ ps, (∀ b ∈ p.1, unreserved b = true) ∧ (0x22 : UInt8) ∉ p.2.1 ∧
        (0x2C : UInt8) ∉ p.2.1 ∧ (0x26 : UInt8) ∉ p.2.1 ∧ decode p.2.1 = some p.2.2 := by
  refine ⟨(e.protocolParams n t).map fun p => (p.1, encode p.2, p.2), ?_, ?_, ?_⟩
  · simp [encodedParams]
  · simp [Function.comp_def]
  · intro p hp
    obtain ⟨q, hq, rfl⟩ := List.mem_map.mp hp
    obtain ⟨r, _, hr⟩ := List.mem_filterMap.mp hq
    obtain ⟨v, _, rfl⟩ := Option.map_eq_some_iff.mp hr
    exact ⟨proto_name_unreserved r, not_mem_encode _ (by decide), not_mem_encode _ (by decide),
      not_mem_encode _ (by decide), decode_encode _⟩

/-- C09, for every signing algorithm (also user-defined ones): the header is `OAuth ` and the items of
the protocol parameters that are set, in order, each once, with `oauth_signature` last; if the
signature's text is URL-encoded, parsing the header gives exactly these parameters. `w.nonce` and
`w.time` are the values generated when none is configured; request parameters do not occur. -/
theorem C09_header_parses {cfg : Cfg} {b : Builder S} {name : Bytes} {un ut : Bool}
    (hsg : ConstSign b.signatureMethod.sign name un ut) (hname : ∀ x ∈ name, unreserved x = true)
    {r : Request} {cs : List Call} (hr : IsTrace r cs) (hstd : Standard cs) (method : Bytes)
    (uri : Display) (w w' : World) (out : Bytes)
    (h : b.authorize cfg method uri r w = .ok (out, w')) :
    ∃ s sig, b.signatureMethod.sign.end s = .ok sig ∧
      out = headerText (encodedParams (b.env name un ut) w.nonce (w.time cfg)) sig.text ∧
      ∀ d, HeaderSafe sig.text d → parseHeader out =
        some ((b.env name un ut).protocolParams w.nonce (w.time cfg) ++
          [(b!"oauth_signature", d)]) := by
  rw [authorize_runWith, runWith_ok_iff hsg hr] at h
  obtain ⟨-, -, s0, s, sig, -, -, h2, -, rfl⟩ := h
  have e : ((Data.authorization b!"OAuth ").sendAll
      (itemsFrom cfg (b.env name un ut) w cs)).finish sig.text =
      headerText (encodedParams (b.env name un ut) w.nonce (w.time cfg)) sig.text := by
    rw [sendAll_header, Data.finish, itemsFrom_sent cfg _ hname]
    have := standard_sent cfg (b.env name un ut) w hstd
    unfold sentIn at this
    rw [this]
    rfl
  refine ⟨s, sig, h2, e, ?_⟩
  intro d hd
  obtain ⟨ps, h1, h3, h4⟩ := encodedParams_ok (b.env name un ut) w.nonce (w.time cfg)
  rw [e, h1, h3]
  exact parse_headerText ps hd h4

/-- The shared case (`Proofs/Cases.lean`), with HMAC-SHA1. -/
example : ∃ out w', (Case.builder hmacSha1).authorize Case.cfg b!"GET" (.ofBytes Case.uri) Case.request
      Case.world = .ok (out, w') ∧ ∃ sig, out = headerText
        [(b!"oauth_consumer_key", b!"client"), (b!"oauth_nonce", b!"AQgPFh0kKzI5"),
          (b!"oauth_signature_method", b!"HMAC-SHA1"), (b!"oauth_timestamp", b!"1600000000"),
          (b!"oauth_token", b!"token"), (b!"oauth_version", b!"1.0")] sig := by
  obtain ⟨out, w', h⟩ := Case.header
  obtain ⟨s, sig, -, h2, -⟩ := C09_header_parses (constSign_hmac _) (by decide) Case.trace Case.standard
    _ _ _ _ _ h
  exact ⟨out, w', h, sig.text, by rw [h2]; congr 1⟩

/-- The protocol parameters of an environment, spelled out. -/
theorem C09_protocol_params (e : Env) (n : Bytes) (t : Nat) :
    e.protocolParams n t =
      (e.options.callback.map fun v => (b!"oauth_callback", v)).toList ++
      [(b!"oauth_consumer_key", e.consumerKey)] ++
      (if e.useNonce then [(b!"oauth_nonce", e.options.nonce.getD n)] else []) ++
      [(b!"oauth_signature_method", e.name)] ++
      (if e.useTimestamp then
        [(b!"oauth_timestamp", decimal ((e.options.timestamp.map (·.val)).getD t))] else []) ++
      (e.token.map fun v => (b!"oauth_token", v)).toList ++
      (e.options.verifier.map fun v => (b!"oauth_verifier", v)).toList ++
      (if e.options.version then [(b!"oauth_version", b!"1.0")] else []) := by
  simp only [Env.protocolParams, allProto, List.filterMap_cons, List.filterMap_nil, Env.value,
    Proto.name]
  cases e.options.callback <;> cases e.token <;> cases e.options.verifier <;>
    cases e.options.version <;> cases e.useNonce <;> cases e.useTimestamp <;> rfl

example : ((Case.pinned hmacSha1).env b!"HMAC-SHA1" true true).protocolParams [] 0 =
    [(b!"oauth_callback", b!"oob"), (b!"oauth_consumer_key", b!"client"), (b!"oauth_nonce", b!"nonce"),
      (b!"oauth_signature_method", b!"HMAC-SHA1"), (b!"oauth_timestamp", b!"1234567890"),
      (b!"oauth_token", b!"token"), (b!"oauth_verifier", b!"v&w"), (b!"oauth_version", b!"1.0")] := by
  decide +kernel

/-- C10, for every request and every signing algorithm: what is signed, parsed as a base string, is the
method, the URI and one pair per emitted parameter, of which those of protocol calls are exactly the
ones parsed from the header, form or query, in the same order. -/
theorem C10_signed_is_sent {cfg : Cfg} {b : Builder S} {name : Bytes} {un ut : Bool}
    (hsg : ConstSign b.signatureMethod.sign name un ut) (hname : ∀ x ∈ name, unreserved x = true)
    {r : Request} {cs : List Call} (hr : IsTrace r cs) (hsafe : ∀ c ∈ cs, c.safe) (method : Bytes)
    (hmethod : (0x26 : UInt8) ∉ method) (uri : Display) (w : World) :
    ∃ (L : List SignCall) (signed sent : List (Bytes × Bytes)),
      parseBase ((L.map (SignCall.render name)).flatten) = some (method, uri.text, signed) ∧
      signed.Perm (sent ++
        (cs.filter (fun c => c.proto?.isNone)).filterMap (Call.effective (b.env name un ut) [] 0)) ∧
      sent.Sublist signed ∧
      (∀ out w', b.authorize cfg method uri r w = .ok (out, w') →
        ∃ s0 s sig, b.signatureMethod.signWith b.client.secret (b.token.map (·.secret)) = .ok s0 ∧
          runSign b.signatureMethod.sign L s0 = .ok s ∧ b.signatureMethod.sign.end s = .ok sig ∧
          ∀ d, HeaderSafe sig.text d →
            parseHeader out = some (sent ++ [(b!"oauth_signature", d)])) ∧
      (∀ out w', b.toForm cfg method uri r w = .ok (out, w') →
        ∃ s0 s sig, b.signatureMethod.signWith b.client.secret (b.token.map (·.secret)) = .ok s0 ∧
          runSign b.signatureMethod.sign L s0 = .ok s ∧ b.signatureMethod.sign.end s = .ok sig ∧
          ∀ d, FormSafe sig.text d →
            parseForm out = some (sent ++ [(b!"oauth_signature", d)])) ∧
      (∀ u, uri = .ofBytes u →
        ∀ out w', b.toQuery cfg stringWriter .ofBytes method u r w = .ok (out, w') →
        ∃ s0 s sig query, b.signatureMethod.signWith b.client.secret (b.token.map (·.secret)) = .ok s0 ∧
          runSign b.signatureMethod.sign L s0 = .ok s ∧ b.signatureMethod.sign.end s = .ok sig ∧
          out = u ++ b!"?" ++ query ∧ ∀ d, FormSafe sig.text d →
            parseForm query = some (sent ++ [(b!"oauth_signature", d)])) := by
  obtain ⟨run, L, hrun, hL, hauth, hform, hquery⟩ := C06_base_string cfg b hsg hname hr method uri w
  have hsafe' : ∀ x ∈ run, x.1.safe := by
    intro x hx
    exact hsafe _ (by rw [← hrun]; exact List.mem_map.mpr ⟨x, hx, rfl⟩)
  obtain ⟨ps, p1, p2, p3⟩ := signed_effective (b.env name un ut) run hsafe'
  obtain ⟨qs, q1, q2, q3⟩ := sent_effective (b.env name un ut) run
  refine ⟨L, ps.map (fun p => (p.1, p.2.2)), qs.map (fun p => (p.1, p.2.2)), ?_, ?_, ?_, ?_, ?_, ?_⟩
  · rw [hL, p1]
    exact parseBase_eq method uri.text hmethod ps p3
  · rw [← p2, ← q2]
    have hindep : (cs.filter (fun c => c.proto?.isNone)).filterMap
        (Call.effective (b.env name un ut) [] 0) =
        (run.filter (fun x => x.1.proto?.isNone)).filterMap
          (fun x => x.1.effective (b.env name un ut) x.2.1 x.2.2) := by
      rw [← hrun]
      clear hL hauth hform hquery hsafe' p1 p2 q1 q2 hrun
      induction run with
      | nil => rfl
      | cons x run ih =>
        obtain ⟨c, n, t⟩ := x
        cases c with
        | parameter k v =>
          rw [List.map_cons, List.filter_cons_of_pos rfl, List.filter_cons_of_pos rfl,
            List.filterMap_cons, List.filterMap_cons, ih]; rfl
        | parameterEncoded k v =>
          rw [List.map_cons, List.filter_cons_of_pos rfl, List.filter_cons_of_pos rfl,
            List.filterMap_cons, List.filterMap_cons, ih]; rfl
        | oauth p =>
          rw [List.map_cons, List.filter_cons_of_neg (by simp [Call.proto?]),
            List.filter_cons_of_neg (by simp [Call.proto?]), ih]
    rw [hindep, protoOnly, ← List.filterMap_append]
    refine List.Perm.filterMap _ ?_
    have hneg : (fun x : Call × Bytes × Nat => x.1.proto?.isNone) =
        fun x => !x.1.proto?.isSome := by
      funext x; cases x.1.proto? <;> rfl
    rw [hneg]
    exact (List.filter_append_perm _ run).symm
  · rw [← p2, ← q2]
    exact (List.filter_sublist).filterMap _
  · intro out w' h
    obtain ⟨s0, s, sig, h0, h1, h2, rfl⟩ := hauth out w' h
    refine ⟨s0, s, sig, h0, h1, h2, fun d hd => ?_⟩
    rw [q1]
    exact parse_headerText qs hd q3
  · intro out w' h
    obtain ⟨s0, s, sig, h0, h1, h2, rfl⟩ := hform out w' h
    refine ⟨s0, s, sig, h0, h1, h2, fun d hd => ?_⟩
    rw [q1]
    exact parse_formText qs hd q3
  · intro u hu out w' h
    obtain ⟨s0, s, sig, h0, h1, h2, rfl⟩ := hquery u hu out w' h
    refine ⟨s0, s, sig, _, h0, h1, h2, rfl, fun d hd => ?_⟩
    rw [q1]
    exact parse_formText qs hd q3

theorem Case.safe : ∀ c ∈ Case.calls, c.safe := by
  intro c hc
  have : ∀ c ∈ Case.calls, (match c with
      | .parameter k _ => k.all unreserved
      | .parameterEncoded _ _ => false
      | .oauth _ => true) = true := by decide +kernel
  have := this c hc
  cases c with
  | parameter k v => exact List.all_eq_true.mp this
  | parameterEncoded k v => cases this
  | oauth p => trivial

example := C10_signed_is_sent (cfg := Case.cfg) (b := Case.builder hmacSha1) (constSign_hmac _) (by decide)
  Case.trace Case.safe b!"GET" (by decide) (.ofBytes Case.uri) Case.world

/-- C12, for every signing algorithm: the form is the protocol parameters that are set, in order, and
the signature last, joined by `&`; the query is the URI, one `?`, and such a form. Parsing gives the
protocol parameters and the signature. -/
theorem C12_form_layout {cfg : Cfg} {b : Builder S} {name : Bytes} {un ut : Bool}
    (hsg : ConstSign b.signatureMethod.sign name un ut) (hname : ∀ x ∈ name, unreserved x = true)
    {r : Request} {cs : List Call} (hr : IsTrace r cs) (hstd : Standard cs) (method : Bytes)
    (w w' : World) (out : Bytes) :
    (∀ uri, b.toForm cfg method uri r w = .ok (out, w') →
      ∃ s sig, b.signatureMethod.sign.end s = .ok sig ∧
        out = join b!"&" ((encodedParams (b.env name un ut) w.nonce (w.time cfg) ++
          [(b!"oauth_signature", sig.text)]).map fun kv => kv.1 ++ b!"=" ++ kv.2) ∧
        ∀ d, FormSafe sig.text d → parseForm out =
          some ((b.env name un ut).protocolParams w.nonce (w.time cfg) ++
            [(b!"oauth_signature", d)])) ∧
    (∀ uri, b.toQuery cfg stringWriter .ofBytes method uri r w = .ok (out, w') →
      ∃ s sig form, b.signatureMethod.sign.end s = .ok sig ∧
        out = uri ++ b!"?" ++ form ∧
        form = join b!"&" ((encodedParams (b.env name un ut) w.nonce (w.time cfg) ++
          [(b!"oauth_signature", sig.text)]).map fun kv => kv.1 ++ b!"=" ++ kv.2) ∧
        ∀ d, FormSafe sig.text d → parseForm form =
          some ((b.env name un ut).protocolParams w.nonce (w.time cfg) ++
            [(b!"oauth_signature", d)])) := by
  have hsent : sentOf (itemsFrom cfg (b.env name un ut) w cs) =
      encodedParams (b.env name un ut) w.nonce (w.time cfg) := by
    rw [itemsFrom_sent cfg _ hname]
    exact standard_sent cfg (b.env name un ut) w hstd
  have hparse : ∀ t d, FormSafe t d → parseForm (join b!"&"
      ((encodedParams (b.env name un ut) w.nonce (w.time cfg) ++
          [(b!"oauth_signature", t)]).map fun kv => kv.1 ++ b!"=" ++ kv.2)) =
      some ((b.env name un ut).protocolParams w.nonce (w.time cfg) ++
            [(b!"oauth_signature", d)]) := by
    intro t d hd
    obtain ⟨ps, h1, h3, h4⟩ := encodedParams_ok (b.env name un ut) w.nonce (w.time cfg)
    rw [h1, h3]
    exact parse_formText ps hd h4
  refine ⟨?_, ?_⟩
  · intro uri h
    rw [toForm_runWith, runWith_ok_iff hsg hr] at h
    obtain ⟨-, -, s0, s, sig, -, -, h2, -, rfl⟩ := h
    rw [(sendAll_finish_form _ _ _).1, hsent]
    exact ⟨s, sig, h2, rfl, hparse _⟩
  · intro uri h
    rw [toQuery_runWith, runWith_ok_iff hsg hr] at h
    obtain ⟨-, -, s0, s, sig, -, -, h2, -, rfl⟩ := h
    rw [(sendAll_finish_form _ _ _).2, hsent]
    exact ⟨s, sig, _, h2, rfl, rfl, hparse _⟩

/-! ### A concrete case -/

/-- A builder with every option set and delimiters in its values. -/
def exampleBuilder {S : Type} (sm : SignatureMethod S) : Builder S :=
  ((((((Builder.new (.new b!"consumer key" b!"s,e\"c") sm).setToken
    (some (.new b!"to&ken" b!"t=s"))).setCallback (some b!"https://example.com/?a=\"b\",c")).setVerifier
    (some b!"v%")).setNonce (some b!"no nce")).setTimestamp
    (some ⟨1234567890, by decide, by decide⟩)).setVersion true

/-- The header with PLAINTEXT. -/
def exampleHeader : Bytes :=
  b!"OAuth oauth_callback=\"https%3A%2F%2Fexample.com%2F%3Fa%3D%22b%22%2Cc\",oauth_consumer_key=\"consumer%20key\",oauth_nonce=\"no%20nce\",oauth_signature_method=\"PLAINTEXT\",oauth_timestamp=\"1234567890\",oauth_token=\"to%26ken\",oauth_verifier=\"v%25\",oauth_version=\"1.0\",oauth_signature=\"s%2Ce%22c&t%3Ds\""

example : (((exampleBuilder plaintext).authorize ⟨true, true, .std⟩ b!"GET"
    (.ofBytes b!"https://example.com/") (AssertSorted.request ⟨true, true, .std⟩ examplePairs)).run
      World.example).toOption.map (·.1) = some exampleHeader := by decide +kernel

example : HeaderSafe b!"s%2Ce%22c&t%3Ds" b!"s,e\"c&t=s" := ⟨by decide, by decide, by decide +kernel⟩

example : parseHeader exampleHeader = some
    [(b!"oauth_callback", b!"https://example.com/?a=\"b\",c"),
     (b!"oauth_consumer_key", b!"consumer key"), (b!"oauth_nonce", b!"no nce"),
     (b!"oauth_signature_method", b!"PLAINTEXT"), (b!"oauth_timestamp", b!"1234567890"),
     (b!"oauth_token", b!"to&ken"), (b!"oauth_verifier", b!"v%"), (b!"oauth_version", b!"1.0"),
     (b!"oauth_signature", b!"s,e\"c&t=s")] := by decide +kernel

/-- The calls of the concrete request are safe and standard. -/
example : Standard (weave allProto examplePairs) ∧ ∀ c ∈ weave allProto examplePairs, c.safe := by
  refine ⟨standard_weave _, ?_⟩
  intro c hc
  rcases weave_no_encoded _ _ c hc with ⟨p, rfl⟩ | ⟨kv, hkv, rfl⟩
  · trivial
  · have : ∀ p ∈ examplePairs, ∀ b ∈ p.1, unreserved b = true := by decide
    exact this kv hkv

end OAuth
