import Verif.Properties.Exact
import Verif.Properties.ServerAccepts

/-! C43, exactly: for which clients, credentials and clocks the example server runs the handler for a
request that the crate signed with HMAC-SHA1. The server joins the secrets as they are, the client (as
RFC 5849 §3.4.2 says) after encoding them, so the two keys are the same exactly when no secret needs
encoding. -/

namespace OAuth

open Spec
open Server (Lib HttpRequest Response OAuthParams Parameter Received)

/-- The signature of a request that arrives is the only parameter of its name. -/
theorem first_signature {S : Type} (cfg : Cfg) (b : Builder S) (name : Bytes) (w : World) (sig : Bytes)
    {own : List Parameter} (hown : ∀ x ∈ own, x.1 ≠ b!"oauth_signature") :
    first b!"oauth_signature" (sortPairs (b.params cfg name w ++ [(b!"oauth_signature", sig)] ++ own)) =
      some sig := by
  refine Server.first_sort (by simp) ?_
  intro v' hv'
  rcases List.mem_append.mp hv' with h1 | h1
  · rcases List.mem_append.mp h1 with h1 | h1
    · obtain ⟨q, -, hq⟩ := List.mem_filterMap.mp h1
      obtain ⟨u, hu, he⟩ := Option.map_eq_some_iff.mp hq
      simp only [Prod.mk.injEq] at he
      have : q.name ≠ b!"oauth_signature" := by cases q <;> decide
      exact absurd he.1 this
    · simpa using h1
  · exact absurd rfl (hown _ h1)

/-- C43, exactly: whoever signs, and whatever the endpoint expects, the handler is run if and only if the
identifiers and the verifier are those expected, the timestamp is not too old, and the two sides compute the
same HMAC of the base string: the client under the secrets encoded, the server under those it knows,
unencoded. Otherwise the answer is 400 or 401, whatever the handler. -/
theorem C43_runs_iff {L : Lib} {cfg : Cfg} (scfg : Cfg) {b : Builder Hmac}
    (hb : b.signatureMethod = hmacSha1) {supplied current : List Pair} (hbuilt : Built supplied current)
    (hok : AllOk supplied) {method : Bytes} (hp : Plain supplied method)
    {r : Request} (hr : IsTrace r (weave allProto current)) {uri : Display} (huri : uri.outcome = .ok)
    {w w' : World} {out : Bytes} (h : b.authorize cfg method uri r w = .ok (out, w'))
    {req : HttpRequest} (harr : Arrives L req method uri.text out (shown Display.text supplied))
    (hvalues : ∀ p ∈ b.params cfg b!"HMAC-SHA1" w, IsText p.2 ∧ (p.2 = [] → L.emptyOk = true))
    (hsmall : b.sentTime cfg w + 30 < 2 ^ 64) (now : Nat) (client : Credentials Bytes)
    (token : Option (Credentials Bytes)) (verifier : Option Bytes) :
    (∃ seen o, ∀ f, Server.verifyAndThen L scfg (some now) req client token verifier f = .ok (f seen o)) ∧
        (b.client.identifier = client.identifier ∧
          b.token.map (·.identifier) = token.map (·.identifier) ∧ b.options.verifier = verifier ∧
          now ≤ b.sentTime cfg w + 30 ∧
          hmac Sha1.hash (signingKey b.client.secret (b.token.map (·.secret)))
              (b.base cfg b!"HMAC-SHA1" method uri (weave allProto current) w) =
            hmac Sha1.hash (sharedKey client token)
              (b.base cfg b!"HMAC-SHA1" method uri (weave allProto current) w)) ∨
      (∃ c, (c = 400 ∨ c = 401) ∧ ∀ f,
          Server.verifyAndThen L scfg (some now) req client token verifier f = .ok (.ofStatus c)) ∧
        ¬ (b.client.identifier = client.identifier ∧
          b.token.map (·.identifier) = token.map (·.identifier) ∧ b.options.verifier = verifier ∧
          now ≤ b.sentTime cfg w + 30 ∧
          hmac Sha1.hash (signingKey b.client.secret (b.token.map (·.secret)))
              (b.base cfg b!"HMAC-SHA1" method uri (weave allProto current) w) =
            hmac Sha1.hash (sharedKey client token)
              (b.base cfg b!"HMAC-SHA1" method uri (weave allProto current) w)) := by
  have hb64l := clientSignature_length cfg b method uri (weave allProto current) w
  obtain ⟨own, hown, hrec⟩ := arrives_received hb hbuilt hok hr huri h harr hvalues
  have hownp : ∀ x ∈ own, ∀ p : Proto, x.1 ≠ p.name := by
    intro x hx p
    obtain ⟨y, hy, rfl⟩ := List.mem_map.mp (hown.mem_iff.mp hx)
    exact hp.notProto y hy p
  have howns : ∀ x ∈ own, x.1 ≠ b!"oauth_signature" := by
    intro x hx
    obtain ⟨y, hy, rfl⟩ := List.mem_map.mp (hown.mem_iff.mp hx)
    exact hp.notSignature y hy
  have hval := first_sent cfg b b!"HMAC-SHA1" w
    (b.clientSignature cfg method uri (weave allProto current) w) hownp
  have hsig := first_signature cfg b b!"HMAC-SHA1" w
    (b.clientSignature cfg method uri (weave allProto current) w) howns
  have hparams : ∀ x ∈ b.params cfg b!"HMAC-SHA1" w, (x.1 != b!"oauth_signature") = true := by
    intro x hx
    obtain ⟨q, -, hq⟩ := List.mem_filterMap.mp hx
    obtain ⟨u, hu, rfl⟩ := Option.map_eq_some_iff.mp hq
    have : q.name ≠ b!"oauth_signature" := by cases q <;> decide
    simpa using this
  have hbase : rawOrderBase req.method (b!"http://127.0.0.1:8080" ++ req.path)
      (unsigned (b.params cfg b!"HMAC-SHA1" w ++ [(b!"oauth_signature",
        b.clientSignature cfg method uri (weave allProto current) w)] ++ own)) =
      b.base cfg b!"HMAC-SHA1" method uri (weave allProto current) w := by
    rw [Server.base_rawOrder cfg b _ hbuilt hp uri w, harr.path, harr.method]
    refine rawOrderBase_perm _ _ ?_
    unfold unsigned
    have hownu : ∀ x ∈ own, (x.1 != b!"oauth_signature") = true := fun x hx => by simpa using howns x hx
    rw [List.filter_append, List.filter_append, List.filter_eq_self.mpr hparams,
      List.filter_eq_self.mpr hownu]
    simpa using hown.append_left _
  generalize hps : b.params cfg b!"HMAC-SHA1" w ++ [(b!"oauth_signature",
    b.clientSignature cfg method uri (weave allProto current) w)] ++ own = ps at *
  have h1 := hval .consumerKey
  have h2 := hval .signatureMethod
  have h3 := hval .timestamp
  have h4 := hval .token
  have h5 := hval .nonce
  have h6 := hval .verifier
  simp only [Proto.name, Env.value, Builder.env, if_true] at h1 h2 h3 h4 h5 h6
  have hu : Server.parseU64 (decimal ((b.options.timestamp.map (·.val)).getD (w.time cfg))) =
      some (b.sentTime cfg w) :=
    Server.parseU64_decimal (by have := hsmall; unfold Builder.sentTime at this; omega)
  have hmem : ∀ {k v : Bytes}, first k (sortPairs ps) = some v → ∃ p ∈ ps, p.1 = k :=
    fun hf => ⟨_, ((first_iff _ _ _).mp hf).1, rfl⟩
  have hiff : Accepted L scfg now req ps client token verifier ↔
      (b.client.identifier = client.identifier ∧
          b.token.map (·.identifier) = token.map (·.identifier) ∧ b.options.verifier = verifier ∧
          now ≤ b.sentTime cfg w + 30 ∧
          hmac Sha1.hash (signingKey b.client.secret (b.token.map (·.secret)))
              (b.base cfg b!"HMAC-SHA1" method uri (weave allProto current) w) =
            hmac Sha1.hash (sharedKey client token)
              (b.base cfg b!"HMAC-SHA1" method uri (weave allProto current) w)) := by
    constructor
    · intro ha
      have e1 := (first_iff _ _ _).mpr ha.client
      have e4 := (first_iff _ _ _).mpr ha.token
      have e6 := (first_iff _ _ _).mpr ha.verifier
      rw [h1, Option.some.injEq] at e1
      rw [h4] at e4
      rw [h6] at e6
      refine ⟨e1, e4, e6, ?_, ?_⟩
      · rcases ha.timestamp with e | ⟨v, t, e, ht, hw⟩
        · rw [(first_iff _ _ _).mpr e] at h3
          cases h3
        · rw [(first_iff _ _ _).mpr e, Option.some.injEq] at h3
          rw [h3] at ht
          have ht := (Server.parseU64_iff _ _).mpr ht
          rw [hu, Option.some.injEq] at ht
          omega
      · obtain ⟨s, m, es, em, hm⟩ := ha.signature
        have es := (first_iff _ _ _).mpr es
        have em := (first_iff _ _ _).mpr em
        rw [hsig, Option.some.injEq] at es
        rw [h2, Option.some.injEq] at em
        subst es em
        rcases hm with hm | ⟨-, -, -, -, hm⟩
        · exact absurd hm (by decide)
        · rw [hbase, Builder.clientSignature, L.base64Decode_encode, Option.some.injEq] at hm
          exact hm
    · rintro ⟨e1, e4, e6, e3, es⟩
      refine ⟨(first_iff _ _ _).mp (by rw [h1, e1]), (first_iff _ _ _).mp (by rw [h4, e4]),
        (first_iff _ _ _).mp (by rw [h6, e6]), .inr ⟨_, _, (first_iff _ _ _).mp h3,
          (Server.parseU64_iff _ _).mp hu, .inl ⟨hsmall, e3⟩⟩,
        _, _, (first_iff _ _ _).mp hsig, (first_iff _ _ _).mp h2, .inr ⟨rfl, hmem h3, hmem h5,
          by omega, ?_⟩⟩
      rw [hbase, Builder.clientSignature, L.base64Decode_encode, es]
  have hno : ¬ Overflows scfg ps := by
    rintro ⟨-, -, -, -, v, t, e, ht, hw⟩
    rw [(first_iff _ _ _).mpr e, Option.some.injEq] at h3
    rw [h3] at ht
    have ht := (Server.parseU64_iff _ _).mpr ht
    rw [hu, Option.some.injEq] at ht
    omega
  rcases verify_exact hrec scfg now client token verifier with ⟨ho, -⟩ | ⟨-, ha, o, hv⟩ | ⟨-, ha, c, hc, hv⟩
  · exact absurd ho hno
  · exact .inl ⟨⟨_, o, hv⟩, hiff.mp ha⟩
  · exact .inr ⟨⟨c, hc, hv⟩, fun h => ha (hiff.mpr h)⟩

/-- The encoding of a text is at least as long, and as long only if nothing needs encoding. -/
theorem encode_length_eq {x : Bytes} :
    x.length ≤ (encode x).length ∧ ((encode x).length = x.length → ∀ c ∈ x, unreserved c = true) := by
  induction x with
  | nil => exact ⟨Nat.le_refl _, fun _ c hc => nomatch hc⟩
  | cons a x ih =>
    have hc : ∀ a : UInt8, (unreserved a = true ∧ (encodeByte a).length = 1) ∨
        (encodeByte a).length = 3 := by apply forall_byte; decide +kernel
    have hl : (encode (a :: x)).length = (encodeByte a).length + (encode x).length := by
      simp [encode]
    rw [hl, List.length_cons]
    rcases hc a with ⟨hu, h1⟩ | h3
    · refine ⟨by omega, fun he c hc => ?_⟩
      rcases List.mem_cons.mp hc with rfl | hc
      · exact hu
      · exact ih.2 (by omega) c hc
    · exact ⟨by omega, fun he => by omega⟩

/-- C43: the key of the server is the key RFC 5849 §3.4.2 says exactly when no secret has a character that
needs encoding. -/
theorem C43_keys_iff (client : Credentials Bytes) (token : Option (Credentials Bytes)) :
    sharedKey client token = signingKey client.secret (token.map (·.secret)) ↔
      (∀ c ∈ client.secret, unreserved c = true) ∧
        ∀ t, token = some t → ∀ c ∈ t.secret, unreserved c = true := by
  constructor
  · intro h
    have hl := congrArg List.length h
    have h1 := encode_length_eq (x := client.secret)
    cases token with
    | none =>
      simp only [sharedKey, signingKey, Option.map_none, Option.getD_none, List.length_append] at hl
      exact ⟨h1.2 (by simp [encode] at hl; simpa [encode] using hl.symm), fun t ht => nomatch ht⟩
    | some t =>
      have h2 := encode_length_eq (x := t.secret)
      simp only [sharedKey, signingKey, Option.map_some, Option.getD_some, List.length_append] at hl
      refine ⟨h1.2 (by omega), ?_⟩
      rintro t' ⟨⟩
      exact h2.2 (by omega)
  · rintro ⟨h1, h2⟩
    rw [← macKey_sharedKey, Server.macKey_eq h1 h2]

/-- Secrets without and with a character that needs encoding. -/
example : sharedKey ⟨b!"client", b!"client_secret"⟩ (some ⟨b!"token", b!"a-b.c~d"⟩) =
      signingKey b!"client_secret" (some b!"a-b.c~d") ∧
    sharedKey ⟨b!"client", b!"client_secret"⟩ (some ⟨b!"token", b!"a/b="⟩) ≠
      signingKey b!"client_secret" (some b!"a/b=") :=
  ⟨(C43_keys_iff ⟨b!"client", b!"client_secret"⟩ (some ⟨b!"token", b!"a-b.c~d"⟩)).mpr
      ⟨by decide, by rintro t ⟨⟩; decide⟩, by decide⟩

namespace SecretsCase

/-- Credentials of a token whose secret is in base64, as those of many servers are. -/
def token : Credentials Bytes := ⟨b!"token", b!"a/b="⟩

/-- A client that has them. -/
def builder : Builder Hmac :=
  (((Builder.new Server.CLIENT hmacSha1).setToken (some token)).setNonce (some b!"n")).setTimestamp
    (some ⟨1700000000, by decide, by decide⟩)

theorem values : ∀ p ∈ builder.params Case.cfg b!"HMAC-SHA1" Case.world,
    IsText p.2 ∧ (p.2 = [] → (Server.exampleLib true).emptyOk = true) := by
  have hp : builder.params Case.cfg b!"HMAC-SHA1" Case.world =
    [(b!"oauth_consumer_key", b!"client"), (b!"oauth_nonce", b!"n"),
      (b!"oauth_signature_method", b!"HMAC-SHA1"), (b!"oauth_timestamp", b!"1700000000"),
      (b!"oauth_token", b!"token")] := by decide +kernel
  rw [hp]
  intro p h
  refine ⟨.ascii ?_, fun _ => rfl⟩
  revert p
  decide +kernel

/-- The two sides compute different signatures. -/
theorem differ : hmac Sha1.hash (signingKey builder.client.secret (builder.token.map (·.secret)))
      (builder.base Case.cfg b!"HMAC-SHA1" b!"POST" (.ofBytes b!"http://127.0.0.1:8080/echo")
        (weave allProto Case.pairs) Case.world) ≠
    hmac Sha1.hash (sharedKey Server.CLIENT (some token))
      (builder.base Case.cfg b!"HMAC-SHA1" b!"POST" (.ofBytes b!"http://127.0.0.1:8080/echo")
        (weave allProto Case.pairs) Case.world) := by decide +kernel

end SecretsCase

/-- C43: with such a token, known to both sides, in time and arriving unchanged, the request is refused. -/
theorem C43_reserved_secret : ∃ out w', SecretsCase.builder.authorize Case.cfg b!"POST"
      (.ofBytes b!"http://127.0.0.1:8080/echo") Case.request Case.world = .ok (out, w') ∧
    Arrives (Server.exampleLib true) (AcceptsCase.sent out) b!"POST" b!"http://127.0.0.1:8080/echo" out
      (shown Display.text Case.pairs) ∧
    SecretsCase.builder.client = Server.CLIENT ∧ SecretsCase.builder.token = some SecretsCase.token ∧
    ∀ scfg now, ∃ c, (c = 400 ∨ c = 401) ∧ ∀ f, Server.verifyAndThen (Server.exampleLib true) scfg
      (some now) (AcceptsCase.sent out) Server.CLIENT (some SecretsCase.token) none f =
        .ok (.ofStatus c) := by
  obtain ⟨out, w', h⟩ : ∃ out w', SecretsCase.builder.authorize Case.cfg b!"POST"
      (.ofBytes b!"http://127.0.0.1:8080/echo") Case.request Case.world = .ok (out, w') :=
    Case.ok_of_isSome (by decide +kernel)
  have harr : Arrives (Server.exampleLib true) (AcceptsCase.sent out) b!"POST"
      b!"http://127.0.0.1:8080/echo" out (shown Display.text Case.pairs) :=
    ⟨rfl, rfl, ⟨_, rfl⟩, _, rfl, show (Server.pairsOf b!"a=1%20%C3%A9&p=%26%3D%2B" ++
      Server.pairsOf b!"p=~%25").Perm _ by decide +kernel⟩
  refine ⟨out, w', h, harr, rfl, rfl, fun scfg now => ?_⟩
  rcases C43_runs_iff scfg rfl (.fromSorted (l := Case.pairs) (by decide +kernel)) Case.ok
    (Case.plain b!"POST" (by decide)) Case.trace rfl h harr SecretsCase.values (by decide +kernel) now
    Server.CLIENT (some SecretsCase.token) none with ⟨-, -, -, -, -, hm⟩ | ⟨hc, -⟩
  · exact absurd hm SecretsCase.differ
  · exact hc

/-- The client of `AcceptsCase`, in time and too late. -/
example (out : Bytes) (w' : World) (h : AcceptsCase.builder.authorize Case.cfg b!"POST"
      (.ofBytes b!"http://127.0.0.1:8080/echo") Case.request Case.world = .ok (out, w')) :
    (∃ seen o, ∀ f, Server.verifyAndThen (Server.exampleLib true) Case.cfg (some 1700000030)
        (AcceptsCase.sent out) Server.CLIENT (some Server.TOKEN) none f = .ok (f seen o)) ∧
      ∃ c, (c = 400 ∨ c = 401) ∧ ∀ f, Server.verifyAndThen (Server.exampleLib true) Case.cfg
        (some 1700000031) (AcceptsCase.sent out) Server.CLIENT (some Server.TOKEN) none f =
          .ok (.ofStatus c) := by
  have harr : Arrives (Server.exampleLib true) (AcceptsCase.sent out) b!"POST"
      b!"http://127.0.0.1:8080/echo" out (shown Display.text Case.pairs) :=
    ⟨rfl, rfl, ⟨_, rfl⟩, _, rfl, show (Server.pairsOf b!"a=1%20%C3%A9&p=%26%3D%2B" ++
      Server.pairsOf b!"p=~%25").Perm _ by decide +kernel⟩
  have key := fun now => C43_runs_iff Case.cfg rfl (.fromSorted (l := Case.pairs) (by decide +kernel)) Case.ok
    (Case.plain b!"POST" (by decide)) Case.trace rfl h harr AcceptsCase.agreed.values (by decide +kernel) now
    Server.CLIENT (some Server.TOKEN) none
  constructor
  · rcases key 1700000030 with ⟨hr, -⟩ | ⟨-, hn⟩
    · exact hr
    · refine absurd ⟨rfl, rfl, rfl, by decide +kernel, ?_⟩ hn
      congr 1
  · rcases key 1700000031 with ⟨-, -, -, -, hle, -⟩ | ⟨hc, -⟩
    · exact absurd hle (by decide +kernel)
    · exact hc

end OAuth
