import Verif.Properties.Form
import Verif.Properties.Server

/-
C43: the example server accepts what the client signs.
-/

namespace OAuth

open Spec
open Server (Lib HttpRequest Response OAuthParams Parameter Received)

variable {S : Type}

/-- Which protocol parameters there are among those sent, a signature and the request's own pairs. -/
theorem first_mem_sent (cfg : Cfg) (b : Builder S) (name : Bytes) (w : World) (sig : Bytes)
    {own : List Parameter} (hown : ∀ x ∈ own, ∀ p : Proto, x.1 ≠ p.name) (p : Proto) {v : Bytes} :
    (p.name, v) ∈ b.params cfg name w ++ [(b!"oauth_signature", sig)] ++ own ↔
      (b.env name true true).value w.nonce (w.time cfg) p = some v := by
  have hn : p.name ≠ b!"oauth_signature" := by cases p <;> decide
  have hall : p ∈ allProto := by cases p <;> decide
  have hinj : ∀ q : Proto, q.name = p.name → q = p := by
    intro q h
    revert h
    cases q <;> cases p <;> decide
  constructor
  · intro h
    rcases List.mem_append.mp h with h | h
    · rcases List.mem_append.mp h with h | h
      · obtain ⟨q, -, hq⟩ := List.mem_filterMap.mp h
        obtain ⟨u, hu, he⟩ := Option.map_eq_some_iff.mp hq
        simp only [Prod.mk.injEq] at he
        have := hinj q he.1
        rw [this] at hu
        rw [hu, he.2]
      · simp only [List.mem_singleton, Prod.mk.injEq] at h
        exact absurd h.1 hn
    · exact absurd rfl (hown _ h p)
  · intro h
    refine List.mem_append_left _ (List.mem_append_left _ ?_)
    refine List.mem_filterMap.mpr ⟨p, hall, ?_⟩
    rw [h]; rfl

/-- The value of a protocol parameter among those sent, a signature and the request's own pairs. -/
theorem first_sent (cfg : Cfg) (b : Builder S) (name : Bytes) (w : World) (sig : Bytes)
    {own : List Parameter} (hown : ∀ x ∈ own, ∀ p : Proto, x.1 ≠ p.name) (p : Proto) :
    first p.name (sortPairs (b.params cfg name w ++ [(b!"oauth_signature", sig)] ++ own)) =
      (b.env name true true).value w.nonce (w.time cfg) p := by
  have hiff := fun v => first_mem_sent cfg b name w sig hown p (v := v)
  cases hv : (b.env name true true).value w.nonce (w.time cfg) p with
  | none =>
    refine Server.first_sort_none ?_
    rintro ⟨k, v⟩ hq rfl
    rw [(hiff v).mp hq] at hv
    cases hv
  | some v =>
    refine Server.first_sort ((hiff v).mpr hv) ?_
    intro v' hv'
    have := (hiff v').mp hv'
    rw [hv] at this
    cases this
    rfl

/-- The timestamp sent. -/
def Builder.sentTime (cfg : Cfg) (b : Builder S) (w : World) : Nat :=
  (b.options.timestamp.map (·.val)).getD (w.time cfg)

/-- What a request that arrives at the server has in common with what was signed: the header returned,
method and path, and the request's own pairs in form or query, in any order. -/
structure Arrives (L : Lib) (req : HttpRequest) (method uri header : Bytes)
    (own : List (Bytes × Bytes)) : Prop where
  method : req.method = method
  path : uri = b!"http://127.0.0.1:8080" ++ req.path
  header : ∃ others, req.authorization = header :: others
  own : ∃ form, Server.formOf req = some form ∧
    (Server.pairsOf form ++ Server.pairsOf (req.query.getD [])).Perm own

/-- The credentials and options of a client that the endpoint expects, and that both sides take for the
same: secrets that need no encoding, values that are valid text and (if the parser library does not take
them) not empty, and a timestamp in the window. -/
structure Agreed (L : Lib) (cfg : Cfg) (b : Builder Hmac) (w : World) (now : Nat)
    (expClient : Credentials Bytes) (expToken : Option (Credentials Bytes)) (expVerifier : Option Bytes) :
    Prop where
  client : b.client = expClient
  token : b.token = expToken
  verifier : b.options.verifier = expVerifier
  clientSecret : ∀ x ∈ expClient.secret, unreserved x = true
  tokenSecret : ∀ t, expToken = some t → ∀ x ∈ t.secret, unreserved x = true
  values : ∀ p ∈ b.params cfg b!"HMAC-SHA1" w, IsText p.2 ∧ (p.2 = [] → L.emptyOk = true)
  recent : now ≤ b.sentTime cfg w + 30
  small : b.sentTime cfg w + 30 < 2 ^ 64

/-- The base64 text of the signature the client computes. -/
def Builder.clientSignature (cfg : Cfg) (b : Builder Hmac) (method : Bytes) (uri : Display) (cs : List Call)
    (w : World) : Bytes :=
  base64Standard (hmac Sha1.hash (signingKey b.client.secret (b.token.map (·.secret)))
    (b.base cfg b!"HMAC-SHA1" method uri cs w))

theorem clientSignature_length (cfg : Cfg) (b : Builder Hmac) (method : Bytes) (uri : Display)
    (cs : List Call) (w : World) : (b.clientSignature cfg method uri cs w).length = 28 := by
  have hl20 : ∀ k m, (hmac Sha1.hash k m).length = 20 := fun k m => by simp only [hmac, sha1_length]
  simp only [Builder.clientSignature, base64Standard_length, hl20]

/-- What the server receives of a request that arrives. -/
theorem arrives_received {L : Lib} {cfg : Cfg} {b : Builder Hmac}
    (hb : b.signatureMethod = hmacSha1) {supplied current : List Pair} (hbuilt : Built supplied current)
    (hok : AllOk supplied) {method : Bytes}
    {r : Request} (hr : IsTrace r (weave allProto current)) {uri : Display} (huri : uri.outcome = .ok)
    {w w' : World} {out : Bytes} (h : b.authorize cfg method uri r w = .ok (out, w'))
    {req : HttpRequest} (harr : Arrives L req method uri.text out (shown Display.text supplied))
    (hvalues : ∀ p ∈ b.params cfg b!"HMAC-SHA1" w, IsText p.2 ∧ (p.2 = [] → L.emptyOk = true)) :
    ∃ own, own.Perm (shown Display.text supplied) ∧
      Received L req (b.params cfg b!"HMAC-SHA1" w ++ [(b!"oauth_signature",
        b.clientSignature cfg method uri (weave allProto current) w)] ++ own) := by
  have hs : b.Signs b!"HMAC-SHA1" true true (fun m => encode (base64Standard
      (hmac Sha1.hash (signingKey b.client.secret (b.token.map (·.secret))) m))) := by
    rw [Builder.Signs, hb]
    exact signs_hmac _ (fun m => by rw [sha1_length]; decide) _ _
  have hok' : AllOk current := fun x hx => hok x ((C19_always_sorted hbuilt).1.mem_iff.mp hx)
  have ho := (signs_output hs hr (standard_weave current) (weave_ok hok') method w w' out).1 uri huri h
  let b64 := b.clientSignature cfg method uri (weave allProto current) w
  have hb64l : b64.length = 28 := clientSignature_length cfg b method uri _ w
  obtain ⟨text, e, hl⟩ := Server.headerText_list (emptyOk := L.emptyOk) (sig := encode b64)
    (params_spec cfg b w) (fun p hp' => (hvalues p hp').2) (Server.encode_qdtext _) (by
      intro h0
      have := Server.encode_eq_nil h0
      rw [this] at hb64l
      cases hb64l)
  -- what is received
  obtain ⟨others, hauth⟩ := harr.header
  obtain ⟨form, hform, hown⟩ := harr.own
  have hb64v : ∀ d, ∀ x ∈ base64Standard d, x.toNat < 0x80 := by
    intro d x hx
    have h64 : ∀ n : Fin 64, (base64Symbol false n.val).toNat < 0x80 := by decide +kernel
    simp only [base64Standard, base64Encode_eq, List.mem_append, List.mem_map, if_true] at hx
    rcases hx with ⟨n, hn, rfl⟩ | hx
    · exact h64 ⟨n, base64Sixes_lt d n hn⟩
    · rw [List.eq_of_mem_replicate hx]; decide
  have hdec : (((b.params cfg b!"HMAC-SHA1" w).map (fun p => (p.1, encode p.2)) ++
      [(b!"oauth_signature", encode b64)]).map fun p => (Server.dec p.1, Server.dec p.2)) =
      b.params cfg b!"HMAC-SHA1" w ++ [(b!"oauth_signature", b64)] := by
    rw [List.map_append, List.map_map]
    congr 1
    · refine (List.map_congr_left ?_).trans (List.map_id _)
      intro p hp'
      simp only [Function.comp_apply, id_eq]
      rw [Server.dec_unreserved (params_spec cfg b w p hp').2, Server.dec_encode (hvalues p hp').1]
    · simp only [List.map_cons, List.map_nil]
      rw [Server.dec_unreserved (by decide), Server.dec_encode (v := b64) (.ascii (hb64v _))]
  have ho : out = headerText ((b.params cfg b!"HMAC-SHA1" w).map fun p => (p.1, encode p.2))
      (encode b64) := ho
  have hrec : Received L req (b.params cfg b!"HMAC-SHA1" w ++ [(b!"oauth_signature", b64)] ++
      (Server.pairsOf form ++ Server.pairsOf (req.query.getD []))) := by
    refine ⟨form, _, hform, ?_, rfl⟩
    rw [hauth, ho, e, ← hdec]
    exact .params hl
  exact ⟨_, hown, hrec⟩

/-- C43: the server runs the handler for a request signed with HMAC-SHA1, and the handler sees all
parameters sent (sorted) and the protocol parameters. -/
theorem C43_server_accepts {L : Lib} {cfg scfg : Cfg} {b : Builder Hmac}
    (hb : b.signatureMethod = hmacSha1) {supplied current : List Pair} (hbuilt : Built supplied current)
    (hok : AllOk supplied) {method : Bytes} (hp : Plain supplied method)
    {r : Request} (hr : IsTrace r (weave allProto current)) {uri : Display} (huri : uri.outcome = .ok)
    {w w' : World} {out : Bytes} (h : b.authorize cfg method uri r w = .ok (out, w'))
    {req : HttpRequest} (harr : Arrives L req method uri.text out (shown Display.text supplied))
    {now : Nat} {client : Credentials Bytes} {token : Option (Credentials Bytes)}
    {verifier : Option Bytes} (hag : Agreed L cfg b w now client token verifier)
    (f : List Parameter → OAuthParams → Response) :
    ∃ sig o, Server.verifyAndThen L scfg (some now) req client token verifier f =
        .ok (f (sortPairs (b.params cfg b!"HMAC-SHA1" w ++ [(b!"oauth_signature", sig)] ++
          shown Display.text supplied)) o) ∧
      o.callback = b.options.callback ∧ o.consumerKey = client.identifier ∧
      o.token = token.map (·.identifier) ∧ o.verifier = verifier ∧
      o.timestamp = some (b.sentTime cfg w) := by
  let b64 := b.clientSignature cfg method uri (weave allProto current) w
  have hb64l : b64.length = 28 := clientSignature_length cfg b method uri _ w
  obtain ⟨own, hown, hrec⟩ := arrives_received hb hbuilt hok hr huri h harr hag.values
  have hsorted : sortPairs (b.params cfg b!"HMAC-SHA1" w ++ [(b!"oauth_signature", b64)] ++ own) =
      sortPairs (b.params cfg b!"HMAC-SHA1" w ++ [(b!"oauth_signature", b64)] ++
        shown Display.text supplied) := Server.sortPairs_perm (hown.append_left _)
  obtain ⟨cb, hcb1, hcb2, hv⟩ := Server.verifyAndThen_of_received hrec
  rw [hsorted] at hcb2 hv
  have hownp : ∀ x ∈ shown Display.text supplied, ∀ p : Proto, x.1 ≠ p.name := by
    intro x hx p
    obtain ⟨y, hy, rfl⟩ := List.mem_map.mp hx
    exact hp.notProto y hy p
  have hval := first_sent cfg b b!"HMAC-SHA1" w b64 hownp
  have hsigf : first b!"oauth_signature" (sortPairs (b.params cfg b!"HMAC-SHA1" w ++
      [(b!"oauth_signature", b64)] ++ shown Display.text supplied)) = some b64 := by
    refine Server.first_sort (by simp) ?_
    intro v' hv'
    rcases List.mem_append.mp hv' with h1 | h1
    · rcases List.mem_append.mp h1 with h1 | h1
      · obtain ⟨q, -, hq⟩ := List.mem_filterMap.mp h1
        obtain ⟨u, hu, he⟩ := Option.map_eq_some_iff.mp hq
        simp only [Prod.mk.injEq] at he
        have : q.name ≠ b!"oauth_signature" := by cases q <;> decide
        exact absurd he.1 this
      · simpa using h1
    · obtain ⟨y, hy, he⟩ := List.mem_map.mp h1
      simp only [Prod.mk.injEq] at he
      exact absurd he.1 (hp.notSignature y hy)
  have hcb : cb = b.options.callback := by
    have hc := hval .callback
    simp only [Env.value, Builder.env] at hc
    cases cb with
    | none => rw [← hc]; exact (hcb2 rfl).symm
    | some v =>
      have hm : (Proto.callback.name, v) ∈ b.params cfg b!"HMAC-SHA1" w ++
          [(b!"oauth_signature", b64)] ++ shown Display.text supplied :=
        (hown.append_left _).mem_iff.mp (hcb1 v rfl)
      rw [← hc]
      exact ((first_mem_sent cfg b b!"HMAC-SHA1" w b64 hownp .callback).mp hm ▸ hval .callback).symm
  let o : OAuthParams :=
    { consumerKey := b.client.identifier, token := b.token.map (·.identifier),
      signatureMethod := b!"HMAC-SHA1", timestamp := some (b.sentTime cfg w),
      nonce := some (b.options.nonce.getD w.nonce), signature := b64, callback := cb,
      verifier := b.options.verifier }
  have hrp : Server.readParams cb (fun k => first k (sortPairs (b.params cfg b!"HMAC-SHA1" w ++
      [(b!"oauth_signature", b64)] ++ shown Display.text supplied))) = .ok o := by
    have h1 := hval .consumerKey
    have h2 := hval .signatureMethod
    have h3 := hval .timestamp
    have h4 := hval .token
    have h5 := hval .nonce
    have h6 := hval .verifier
    simp only [Proto.name] at h1 h2 h3 h4 h5 h6
    simp only [Server.readParams, h1, h2, h3, h4, h5, h6, hsigf]
    simp only [Env.value, Builder.env, if_true]
    rw [Server.parseU64_decimal (by have := hag.small; unfold Builder.sentTime at this; omega)]
    rfl
  have hparams : ∀ x ∈ b.params cfg b!"HMAC-SHA1" w, (x.1 != b!"oauth_signature") = true := by
    intro x hx
    obtain ⟨q, -, hq⟩ := List.mem_filterMap.mp hx
    obtain ⟨u, hu, rfl⟩ := Option.map_eq_some_iff.mp hq
    have : q.name ≠ b!"oauth_signature" := by cases q <;> decide
    simpa using this
  have hownu : ∀ x ∈ shown Display.text supplied, (x.1 != b!"oauth_signature") = true := by
    intro x hx
    obtain ⟨y, hy, rfl⟩ := List.mem_map.mp hx
    simpa using hp.notSignature y hy
  have hi : Server.inner L scfg (some now) req (sortPairs (b.params cfg b!"HMAC-SHA1" w ++
      [(b!"oauth_signature", b64)] ++ shown Display.text supplied)) o client token verifier =
      .ok (.ok ()) := by
    refine (Server.inner_ok_iff L scfg now req _ o client token verifier).mpr
      ⟨?_, by rw [← hag.client], by rw [← hag.token], hag.verifier, .inr ⟨rfl, ?_⟩⟩
    · intro t ht
      simp only [o, Option.some.injEq] at ht
      subst ht
      exact ⟨_, by rw [Server.addWindow, if_pos hag.small], hag.recent⟩
    · refine (Server.checkHmacSha1_ok_iff L req (sortPairs_spec _).2 o client token).mpr
        ⟨rfl, rfl, by simp only [o, hb64l]; omega, ?_⟩
      simp only [o, b64, Builder.clientSignature]
      rw [L.base64Decode_encode, Server.macKey_eq hag.clientSecret hag.tokenSecret, ← hag.client,
        ← hag.token, Server.base_rawOrder cfg b _ hbuilt hp uri w, harr.path, harr.method]
      congr 2
      refine rawOrderBase_perm _ _ ?_
      refine List.Perm.trans ?_ ((sortPairs_spec _).1.filter _).symm
      rw [List.filter_append, List.filter_append, List.filter_eq_self.mpr hparams,
        List.filter_eq_self.mpr hownu]
      simp
  refine ⟨b64, o, ?_, hcb, by simp only [o, hag.client], by simp only [o, hag.token], hag.verifier, rfl⟩
  rw [hv, hrp]
  simp only [hi]

/-! ### A request that arrives -/

namespace AcceptsCase

/-- A client that the server knows. -/
def builder : Builder Hmac :=
  (((Builder.new Server.CLIENT hmacSha1).setToken (some Server.TOKEN)).setNonce (some b!"n")).setTimestamp
    (some ⟨1700000000, by decide, by decide⟩)

/-- The request, with its last parameter in the query and the others in the form. -/
def sent (header : Bytes) : HttpRequest where
  method := b!"POST"
  path := b!"/echo"
  query := some b!"p=~%25"
  authorization := [header]
  contentType := some b!"application/x-www-form-urlencoded"
  body := some b!"a=1%20%C3%A9&p=%26%3D%2B"

theorem agreed : Agreed (Server.exampleLib true) Case.cfg builder Case.world 1700000030 Server.CLIENT
    (some Server.TOKEN) none where
  client := rfl
  token := rfl
  verifier := rfl
  clientSecret := by decide
  tokenSecret := by intro t ht; cases ht; decide
  values := by
    have hp : builder.params Case.cfg b!"HMAC-SHA1" Case.world =
      [(b!"oauth_consumer_key", b!"client"), (b!"oauth_nonce", b!"n"),
        (b!"oauth_signature_method", b!"HMAC-SHA1"), (b!"oauth_timestamp", b!"1700000000"),
        (b!"oauth_token", b!"token")] := by decide +kernel
    rw [hp]
    intro p h
    refine ⟨.ascii ?_, fun _ => rfl⟩
    revert p
    decide +kernel
  recent := by decide +kernel
  small := by decide +kernel

/-- `C43_server_accepts` for it: the server answers whatever the handler answers. -/
example (f : List Parameter → OAuthParams → Response) : ∃ header qs o,
    Server.verifyAndThen (Server.exampleLib true) ⟨true, true, .std⟩ (some 1700000030) (sent header)
      Server.CLIENT (some Server.TOKEN) none f = .ok (f qs o) ∧ o.timestamp = some 1700000000 := by
  obtain ⟨out, w', h⟩ : ∃ out w', builder.authorize Case.cfg b!"POST"
      (.ofBytes b!"http://127.0.0.1:8080/echo") Case.request Case.world = .ok (out, w') :=
    Case.ok_of_isSome (by decide +kernel)
  have harr : Arrives (Server.exampleLib true) (sent out) b!"POST" b!"http://127.0.0.1:8080/echo" out
      (shown Display.text Case.pairs) :=
    ⟨rfl, rfl, ⟨_, rfl⟩, _, rfl, show (Server.pairsOf b!"a=1%20%C3%A9&p=%26%3D%2B" ++
      Server.pairsOf b!"p=~%25").Perm _ by decide +kernel⟩
  obtain ⟨sig, o, h1, -, -, -, -, h2⟩ := C43_server_accepts (scfg := ⟨true, true, .std⟩) rfl
    (.fromSorted (l := Case.pairs) (by decide +kernel)) Case.ok (Case.plain b!"POST" (by decide)) Case.trace rfl h
    (by simpa using harr) agreed f
  exact ⟨out, _, o, h1, h2⟩

end AcceptsCase

end OAuth
