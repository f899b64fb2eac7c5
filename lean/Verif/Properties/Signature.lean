import Verif.Properties.FormParameters

/-
C25, C26, C27, C28, C46, C47: signature values.
-/

namespace OAuth

open Spec

variable {S : Type}

/-! ### C25 -/

/-- C25: however a key text is split into writes, the buffer accepts it without panic, and the HMAC
made from it, fed any messages, is the RFC 2104 HMAC of the concatenated messages under the
concatenated key: below, at and above the block size. `H` is any hash of at most 64 bytes. -/
theorem C25_streaming_hmac_key (H : Bytes → Bytes) (hH : ∀ m, (H m).length ≤ 64)
    (writes msgs : List Bytes) :
    ∃ k, SigningKey.writer.writeAll .new writes = some k ∧
      (msgs.foldl Hmac.update (k.intoHmac H)).finalize H = hmac H writes.flatten msgs.flatten := by
  obtain ⟨k, h1, h2, h3⟩ := SigningKey.writeAll_spec SigningKey.inv_new.1 writes
  refine ⟨k, h1, ?_⟩
  rw [SigningKey.intoHmac_spec H hH h2, h3, SigningKey.inv_new.2, List.nil_append]
  have : ∀ (msgs : List Bytes) (h : Hmac),
      msgs.foldl Hmac.update h = ⟨h.derKey, h.msg ++ msgs.flatten⟩ := by
    intro msgs
    induction msgs with
    | nil => intro h; simp
    | cons m ms ih => intro h; simp [List.foldl_cons, ih, Hmac.update]
  rw [this]
  exact finalize_eq H _ _

/-- Any digest of at most 64 bytes, here a checksum. -/
example := C25_streaming_hmac_key (fun m => [m.foldl (· + ·) 0]) (fun _ => by simp) [b!"key", b!"", b!"&"]
  [b!"message"]

/-- C25, for SHA-1. -/
theorem C25_streaming_hmac_sha1_key (writes msgs : List Bytes) :
    ∃ k, SigningKey.writer.writeAll .new writes = some k ∧
      (msgs.foldl Hmac.update (k.intoHmac Sha1.hash)).finalize Sha1.hash =
        hmac Sha1.hash writes.flatten msgs.flatten :=
  C25_streaming_hmac_key _ (fun m => by rw [sha1_length]; decide) writes msgs

/-- Keys of 63, 64 and 65 bytes, each in two writes: the last one overflows the buffer. -/
example : (SigningKey.writer.writeAll .new [List.replicate 60 1, [2, 3, 4]]).map SigningKey.textOf =
    some (List.replicate 60 1 ++ [2, 3, 4]) := by decide +kernel
example : SigningKey.writer.writeAll .new [List.replicate 60 1, [2, 3, 4, 5]] =
    some (.key (List.replicate 60 1 ++ [2, 3, 4, 5]) 64) := by decide +kernel
example : SigningKey.writer.writeAll .new [List.replicate 60 1, [2, 3, 4, 5, 6]] =
    some (.digest (List.replicate 60 1 ++ [2, 3, 4, 5, 6])) := by decide +kernel

/-! ### C26 -/

/-- What is returned, for a signature method that emits a function `sig` of the base string. -/
theorem signs_output {cfg : Cfg} {b : Builder S} {name : Bytes} {sig : Bytes → Bytes}
    (hs : b.Signs name true true sig) {r : Request} {cs : List Call} (hr : IsTrace r cs)
    (hstd : Standard cs) (hcs : ∀ c ∈ cs, c.ok) (method : Bytes) (w w' : World) (out : Bytes) :
    (∀ uri : Display, uri.outcome = .ok → b.authorize cfg method uri r w = .ok (out, w') →
      out = headerText ((b.params cfg name w).map fun p => (p.1, encode p.2))
        (sig (b.base cfg name method uri cs w))) ∧
    (∀ uri : Display, uri.outcome = .ok → b.toForm cfg method uri r w = .ok (out, w') →
      out = formText ((b.params cfg name w).map fun p => (p.1, encode p.2))
        (sig (b.base cfg name method uri cs w))) ∧
    (∀ uri : Bytes, b.toQuery cfg stringWriter .ofBytes method uri r w = .ok (out, w') →
      out = uri ++ b!"?" ++ formText ((b.params cfg name w).map fun p => (p.1, encode p.2))
        (sig (b.base cfg name method (.ofBytes uri) cs w))) := by
  have hb : ∀ uri : Display, baseString method uri.text (signedIn cfg (b.env name true true) w cs) =
      b.base cfg name method uri cs w := by
    intro uri
    rw [(annotate_const cfg (b.env name true true) w cs hstd.nodup).1]
    rfl
  have hp := standard_sent cfg (b.env name true true) w hstd
  refine ⟨fun uri huri h => ?_, fun uri huri h => ?_, fun uri h => ?_⟩
  · have hruns := runWith_runs hs hr _ _ (by rwa [authorize_runWith] at h)
    rw [authorize_signs hs hr hcs method huri hruns] at h
    cases h
    rw [hb, hp]; rfl
  · have hruns := runWith_runs hs hr _ _ (by rwa [toForm_runWith] at h)
    rw [toForm_signs hs hr hcs method huri hruns] at h
    cases h
    rw [hb, hp]; rfl
  · have hruns := runWith_runs hs hr _ _ (by rwa [toQuery_runWith] at h)
    rw [toQuery_signs hs hr hcs method hruns] at h
    cases h
    have := hb (.ofBytes uri)
    rw [Display.text_ofBytes] at this
    rw [this, hp]; rfl

/-- Parsing what is returned, if the signature is encoded. -/
theorem parse_output (cfg : Cfg) (b : Builder S) (name : Bytes) (w : World) (d : Bytes) :
    parseHeader (headerText ((b.params cfg name w).map fun p => (p.1, encode p.2)) (encode d)) =
      some (b.params cfg name w ++ [(b!"oauth_signature", d)]) ∧
    parseForm (formText ((b.params cfg name w).map fun p => (p.1, encode p.2)) (encode d)) =
      some (b.params cfg name w ++ [(b!"oauth_signature", d)]) := by
  obtain ⟨ps, h1, h3, h4⟩ := encodedParams_ok (b.env name true true) w.nonce (w.time cfg)
  unfold encodedParams at h1
  unfold Builder.params
  rw [h1, h3]
  exact ⟨parse_headerText ps (headerSafe_encode d) h4, parse_formText ps (formSafe_encode d) h4⟩

/-- C26: with HMAC-SHA1, whatever the request, credentials, URI and options, the value of the
`oauth_signature` parameter parsed from the header (form, query) is the base64 text of the 20 bytes of
HMAC-SHA1 of the base string under the key made of both secrets. -/
theorem C26_hmac_sha1_signature {cfg : Cfg} {b : Builder Hmac} (hb : b.signatureMethod = hmacSha1)
    {r : Request} {cs : List Call} (hr : IsTrace r cs) (hstd : Standard cs)
    (hcs : ∀ c ∈ cs, c.ok) (method : Bytes) (w : World) :
    let params := b.params cfg b!"HMAC-SHA1" w
    let mac := fun uri => hmac Sha1.hash (signingKey b.client.secret (b.token.map (·.secret)))
      (b.base cfg b!"HMAC-SHA1" method uri cs w)
    ∀ (w' : World) (out : Bytes),
    (∀ uri : Display, uri.outcome = .ok → b.authorize cfg method uri r w = .ok (out, w') →
      ∃ b64, base64DecodePad base64Alphabet b64 = some (mac uri) ∧ (mac uri).length = 20 ∧
        parseHeader out = some (params ++ [(b!"oauth_signature", b64)])) ∧
    (∀ uri : Display, uri.outcome = .ok → b.toForm cfg method uri r w = .ok (out, w') →
      ∃ b64, base64DecodePad base64Alphabet b64 = some (mac uri) ∧ (mac uri).length = 20 ∧
        parseForm out = some (params ++ [(b!"oauth_signature", b64)])) ∧
    (∀ uri : Bytes, b.toQuery cfg stringWriter .ofBytes method uri r w = .ok (out, w') →
      ∃ b64 form, base64DecodePad base64Alphabet b64 = some (mac (.ofBytes uri)) ∧
        (mac (.ofBytes uri)).length = 20 ∧ out = uri ++ b!"?" ++ form ∧
        parseForm form = some (params ++ [(b!"oauth_signature", b64)])) := by
  intro params mac w' out
  have hs : b.Signs b!"HMAC-SHA1" true true (fun m => encode (base64Standard
      (hmac Sha1.hash (signingKey b.client.secret (b.token.map (·.secret))) m))) := by
    rw [Builder.Signs, hb]
    exact signs_hmac _ (fun m => by rw [sha1_length]; decide) _ _
  obtain ⟨h1, h2, h3⟩ := signs_output hs hr hstd hcs method w w' out
  have hd : ∀ x, base64DecodePad base64Alphabet (base64Standard x) = some x := base64_decodePad false
  have hl : ∀ uri, (mac uri).length = 20 := fun uri => by simp only [mac, hmac, sha1_length]
  refine ⟨fun uri huri h => ?_, fun uri huri h => ?_, fun uri h => ?_⟩
  · refine ⟨base64Standard (mac uri), hd _, hl _, ?_⟩
    rw [h1 uri huri h]
    exact (parse_output cfg b _ w _).1
  · refine ⟨base64Standard (mac uri), hd _, hl _, ?_⟩
    rw [h2 uri huri h]
    exact (parse_output cfg b _ w _).2
  · refine ⟨base64Standard (mac (.ofBytes uri)), _, hd _, hl _, h3 uri h, ?_⟩
    exact (parse_output cfg b _ w _).2

/-- The shared case: the premises, and what follows for the header. -/
example := C26_hmac_sha1_signature (cfg := Case.cfg) (b := Case.builder hmacSha1) rfl Case.trace Case.standard
  (weave_ok Case.ok) b!"GET" Case.world

/-! ### C27 -/

/-- C27, the claim for headers: parsing gives the RFC 5849 section 3.4.4 signature. -/
def C27_header_claim : Prop :=
  ∀ (cfg : Cfg) (b : Builder Bytes), b.signatureMethod = plaintext →
  ∀ (pairs : List Pair), AllOk pairs → ∀ (method : Bytes) (uri : Display), uri.outcome = .ok →
  ∀ (w w' : World) (out : Bytes),
    b.authorize cfg method uri (ParameterList.request cfg pairs) w = .ok (out, w') →
    parseHeader out = some (b.params cfg b!"PLAINTEXT" w ++
      [(b!"oauth_signature", signingKey b.client.secret (b.token.map (·.secret)))])

theorem signs_of_plaintext {b : Builder Bytes} (hb : b.signatureMethod = plaintext) :
    b.Signs b!"PLAINTEXT" true true
      (fun _ => signingKey b.client.secret (b.token.map (·.secret))) := by
  rw [Builder.Signs, hb]
  exact signs_plaintext _ _

theorem decode_append {x y a b : Bytes} (hx : decode x = some a) (hy : decode y = some b) :
    decode (x ++ y) = some (a ++ b) := by
  fun_induction decode x generalizing a with
  | case1 => cases hx; simpa using hy
  | case2 h l rest c d r hr hd hc ih =>
    simp only [Option.some.injEq] at hx
    subst hx
    simp only [List.cons_append, decode, hc, hd, ih hr]
  | case3 h l rest hn => simp at hx
  | case4 rest hn => simp at hx
  | case5 c rest hn hc ih =>
    simp only [Option.map_eq_some_iff] at hx
    obtain ⟨r, hr, rfl⟩ := hx
    rw [List.cons_append, decode]
    · simp [hc, ih hr]
    · intro h l t e1 e2
      exact absurd e1 hc

theorem decode_signingKey (cs : Bytes) (ts : Option Bytes) :
    decode (signingKey cs ts) = some (cs ++ b!"&" ++ ts.getD []) :=
  decode_append (decode_append (decode_encode cs) (by decide)) (decode_encode _)

theorem headerSafe_signingKey (cs : Bytes) (ts : Option Bytes) :
    HeaderSafe (signingKey cs ts) (cs ++ b!"&" ++ ts.getD []) where
  quote := by
    simp only [signingKey, List.mem_append, not_or]
    exact ⟨⟨not_mem_encode _ (by decide), by decide⟩, not_mem_encode _ (by decide)⟩
  comma := by
    simp only [signingKey, List.mem_append, not_or]
    exact ⟨⟨not_mem_encode _ (by decide), by decide⟩, not_mem_encode _ (by decide)⟩
  dec := decode_signingKey cs ts

/-- C27, what the header really conveys: the two secrets joined with `&`, not encoded. This is the
RFC signature if the secrets are made of unreserved characters; what is missing is other secrets,
and forms and queries. -/
theorem C27_header_partial {cfg : Cfg} {b : Builder Bytes} (hb : b.signatureMethod = plaintext)
    {r : Request} {cs : List Call} (hr : IsTrace r cs) (hstd : Standard cs) (hcs : ∀ c ∈ cs, c.ok)
    (method : Bytes) {uri : Display} (huri : uri.outcome = .ok) {w w' : World} {out : Bytes}
    (h : b.authorize cfg method uri r w = .ok (out, w')) :
    parseHeader out = some (b.params cfg b!"PLAINTEXT" w ++ [(b!"oauth_signature",
      b.client.secret ++ b!"&" ++ (b.token.map (·.secret)).getD [])]) ∧
    ((∀ x ∈ b.client.secret, unreserved x = true) →
      (∀ t, b.token = some t → ∀ x ∈ t.secret, unreserved x = true) →
      parseHeader out = some (b.params cfg b!"PLAINTEXT" w ++
        [(b!"oauth_signature", signingKey b.client.secret (b.token.map (·.secret)))])) := by
  have h1 := (signs_output (signs_of_plaintext hb) hr hstd hcs method w w' out).1 uri huri h
  have h2 : parseHeader out = some (b.params cfg b!"PLAINTEXT" w ++ [(b!"oauth_signature",
      b.client.secret ++ b!"&" ++ (b.token.map (·.secret)).getD [])]) := by
    obtain ⟨ps, e1, e3, e4⟩ := encodedParams_ok (b.env b!"PLAINTEXT" true true) w.nonce (w.time cfg)
    unfold encodedParams at e1
    rw [h1]
    unfold Builder.params
    rw [e1, e3]
    exact parse_headerText ps (headerSafe_signingKey _ _) e4
  refine ⟨h2, fun hc ht => ?_⟩
  rw [h2, signingKey, encode_of_unreserved hc]
  rw [encode_of_unreserved (s := (b.token.map (·.secret)).getD [])]
  cases hb : b.token with
  | none => simp
  | some t => simpa using ht t hb

/-- The shared case, whose secrets have reserved characters: the receiver reads them as they are. -/
example : ∃ out w', (Case.builder plaintext).authorize Case.cfg b!"GET" (.ofBytes Case.uri) Case.request
      Case.world = .ok (out, w') ∧ ∃ ps, parseHeader out =
        some (ps ++ [(b!"oauth_signature", b!"client/secret&token secret")]) := by
  obtain ⟨out, w', h⟩ := Case.plaintextHeader
  exact ⟨out, w', h, _, (C27_header_partial rfl Case.trace Case.standard (weave_ok Case.ok) _ rfl h).1⟩

/-- C27 is false for headers: with client secret `%` the server reads `%&`, not `%25&`. -/
theorem C27_header_violated : ¬ C27_header_claim := by
  intro h
  let cfg : Cfg := ⟨true, true, .std⟩
  let b : Builder Bytes := ⟨plaintext, .new b!"k" b!"%", none, .new⟩
  have hok : AllOk [] := by simp [AllOk]
  obtain ⟨hf, -⟩ := (C16_parameter_list_never_panics cfg (Built.new .merge []) hok b.client none
    .new b!"POST" (.inl (by decide)) World.example (⟨fun _ _ => some []⟩ : RsaOps Unit) ()
    (fun _ => rfl)).2.1
  obtain ⟨⟨⟨out, w'⟩, hres⟩, -⟩ := hf (.ofBytes b!"http://a/") rfl (by decide)
  rw [show ParameterList.new .merge [] = [] by decide +kernel] at hres
  have h1 := h cfg b rfl [] hok b!"POST" _ rfl World.example w' out hres
  have h2 := (C27_header_partial (b := b) rfl (isTrace_parameterList cfg []) (standard_weave [])
    (weave_ok hok) b!"POST" (uri := .ofBytes b!"http://a/") rfl hres).1
  rw [h1] at h2
  simp only [Option.some.injEq, List.append_cancel_left_eq, List.cons.injEq, Prod.mk.injEq,
    true_and, and_true] at h2
  exact absurd h2 (by decide)

theorem allSome_none {α β : Type} {f : α → Option β} {l : List α} {a : α} (ha : a ∈ l)
    (hf : f a = none) : allSome f l = none := by
  induction l with
  | nil => simp at ha
  | cons x l ih =>
    rcases List.mem_cons.mp ha with rfl | h
    · simp [allSome, hf]
    · simp only [allSome, ih h]
      cases f x <;> rfl

theorem splitFirst_none {sep : UInt8} {s : Bytes} (h : sep ∉ s) : splitFirst sep s = none := by
  induction s with
  | nil => rfl
  | cons b s ih =>
    simp only [List.mem_cons, not_or] at h
    simp [splitFirst, Ne.symm h.1, ih h.2]

theorem join_append_amp (l : List Bytes) (x y : Bytes) :
    join b!"&" (l ++ [x ++ b!"&" ++ y]) = join b!"&" (l ++ [x, y]) := by
  induction l with
  | nil => rfl
  | cons p l ih =>
    rw [List.cons_append, List.cons_append, join_cons_ne _ _ _ (by simp),
      join_cons_ne _ _ _ (by simp), ih]

/-- C27 is false for forms and queries, whatever the secrets: the `&` of the signature splits it, and
the token secret becomes an item of its own, without `=`. -/
theorem C27_form_violated {cfg : Cfg} {b : Builder Bytes} (hb : b.signatureMethod = plaintext)
    {r : Request} {cs : List Call} (hr : IsTrace r cs) (hstd : Standard cs) (hcs : ∀ c ∈ cs, c.ok)
    (method : Bytes) {w w' : World} {out : Bytes} :
    let broken := fun form : Bytes => parseForm form = none ∧
      splitAll 0x26 form = (b.params cfg b!"PLAINTEXT" w).map (fun p => p.1 ++ b!"=" ++ encode p.2) ++
        [b!"oauth_signature=" ++ encode b.client.secret,
          encode ((b.token.map (·.secret)).getD [])]
    (∀ uri : Display, uri.outcome = .ok → b.toForm cfg method uri r w = .ok (out, w') → broken out) ∧
    (∀ uri : Bytes, b.toQuery cfg stringWriter .ofBytes method uri r w = .ok (out, w') →
      ∃ form, out = uri ++ b!"?" ++ form ∧ broken form) := by
  intro broken
  obtain ⟨-, h2, h3⟩ := signs_output (signs_of_plaintext hb) hr hstd hcs method w w' out
  have key : broken (formText ((b.params cfg b!"PLAINTEXT" w).map fun p => (p.1, encode p.2))
      (signingKey b.client.secret (b.token.map (·.secret)))) := by
    have hsplit : splitAll 0x26 (formText ((b.params cfg b!"PLAINTEXT" w).map fun p =>
        (p.1, encode p.2)) (signingKey b.client.secret (b.token.map (·.secret)))) =
        (b.params cfg b!"PLAINTEXT" w).map (fun p => p.1 ++ b!"=" ++ encode p.2) ++
        [b!"oauth_signature=" ++ encode b.client.secret,
          encode ((b.token.map (·.secret)).getD [])] := by
      have e : formText ((b.params cfg b!"PLAINTEXT" w).map fun p => (p.1, encode p.2))
          (signingKey b.client.secret (b.token.map (·.secret))) =
          join [0x26] ((b.params cfg b!"PLAINTEXT" w).map (fun p => p.1 ++ b!"=" ++ encode p.2) ++
            [b!"oauth_signature=" ++ encode b.client.secret,
              encode ((b.token.map (·.secret)).getD [])]) := by
        rw [← join_append_amp]
        simp [formText, List.map_map, Function.comp_def, formItem, signingKey]
      rw [e]
      apply splitAll_join (by simp)
      intro p hp
      simp only [List.mem_append, List.mem_map, List.mem_cons, List.not_mem_nil, or_false] at hp
      rcases hp with ⟨q, hq, rfl⟩ | rfl | rfl
      · obtain ⟨x, -, hx⟩ := List.mem_filterMap.mp hq
        obtain ⟨v, -, rfl⟩ := Option.map_eq_some_iff.mp hx
        simp only [List.mem_append, not_or]
        exact ⟨⟨not_mem_of_unreserved (proto_name_unreserved x) (by decide), by decide⟩,
          not_mem_encode _ (by decide)⟩
      · simp only [List.mem_append, not_or]
        exact ⟨by decide, not_mem_encode _ (by decide)⟩
      · exact not_mem_encode _ (by decide)
    refine ⟨?_, hsplit⟩
    rw [parseForm, if_neg, hsplit]
    · refine allSome_none (a := encode ((b.token.map (·.secret)).getD [])) (by simp) ?_
      rw [parseItem, splitFirst_none (not_mem_encode _ (by decide))]
    · intro h0
      rw [h0] at hsplit
      have := congrArg List.length hsplit
      simp [splitAll] at this
  refine ⟨fun uri huri h => ?_, fun uri h => ?_⟩
  · rw [h2 uri huri h]; exact key
  · exact ⟨_, h3 uri h, key⟩

/-- A concrete header whose secrets need no encoding, and one whose secrets do. -/
example : parseHeader b!"OAuth oauth_signature=\"a&b\"" = some [(b!"oauth_signature", b!"a&b")] := by
  decide +kernel
example : parseHeader exampleHeader ≠ none ∧ signingKey b!"s,e\"c" (some b!"t=s") ≠ b!"s,e\"c&t=s" := by
  decide +kernel

/-! ### C28 -/

/-- C28: with RSA-SHA1, owned or borrowed, whatever the shared secrets, a run (that gets past the URI,
clock and order checks) returns iff the private key operation succeeds on the digest of the base
string; then `oauth_signature` is the base64 text of its result. Otherwise it panics in that
operation. -/
theorem C28_rsa_sha1_signature {K : Type} (ops : RsaOps K) (key : K) {cfg : Cfg}
    {b : Builder (RsaSign K)}
    (hb : b.signatureMethod = rsaOwned Sha1.hash ops key ∨
      b.signatureMethod = rsaRef Sha1.hash ops key)
    {r : Request} {cs : List Call} (hr : IsTrace r cs) (hstd : Standard cs)
    (hcs : ∀ c ∈ cs, c.ok)
    (hsorted : (cs.map Call.key).Pairwise (fun x y => bytesLe x y = true)) (method : Bytes)
    (hclock : cfg.clock ≠ .none ∨ b.options.timestamp ≠ none) (w : World) {uri : Display}
    (huri : uri.outcome = .ok) (hq : (0x3F : UInt8) ∉ uri.text) :
    let base := b.base cfg b!"RSA-SHA1" method uri cs w
    let params := b.params cfg b!"RSA-SHA1" w
    (ops.sign key (Sha1.hash base) = none →
      b.authorize cfg method uri r w = .error .rsa ∧ b.toForm cfg method uri r w = .error .rsa) ∧
    (∀ sig, ops.sign key (Sha1.hash base) = some sig →
      ∃ b64, base64DecodePad base64Alphabet b64 = some sig ∧
      (∃ out w', b.authorize cfg method uri r w = .ok (out, w') ∧
        parseHeader out = some (params ++ [(b!"oauth_signature", b64)])) ∧
      (∃ out w', b.toForm cfg method uri r w = .ok (out, w') ∧
        parseForm out = some (params ++ [(b!"oauth_signature", b64)]))) := by
  intro base params
  have hc : ConstSign b.signatureMethod.sign b!"RSA-SHA1" true true := by
    rcases hb with h | h <;> rw [h]
    · exact constSign_rsaOwned _ _
    · exact constSign_rsaRef _ _
  have habs : Absorbs b.signatureMethod.sign b!"RSA-SHA1" (fun s m => { s with msg := s.msg ++ m }) := by
    rcases hb with h | h <;> rw [h]
    · exact absorbs_rsaOwned _ _
    · exact absorbs_rsaRef _ _
  have h0 : b.signatureMethod.signWith b.client.secret (b.token.map (·.secret)) =
      .ok (⟨[], key⟩ : RsaSign K) := by
    rcases hb with h | h <;> rw [h] <;> rfl
  have hend : ∀ m, b.signatureMethod.sign.end (⟨m, key⟩ : RsaSign K) =
      match ops.sign key (Sha1.hash m) with
      | some sig => .ok (base64PercentEncodeDisplay sig)
      | none => .error .rsa := by
    intro m
    rcases hb with h | h <;> rw [h] <;> rfl
  have hruns : Runs cfg (b.env b!"RSA-SHA1" true true) w uri cs :=
    runs_of hq huri (by rcases hclock with h | h; exact .inl h; exact .inr (.inl h)) hsorted w
  have hbase : baseString method uri.text (signedIn cfg (b.env b!"RSA-SHA1" true true) w cs) =
      base := by
    rw [(annotate_const cfg (b.env b!"RSA-SHA1" true true) w cs hstd.nodup).1]
    rfl
  have hp := standard_sent cfg (b.env b!"RSA-SHA1" true true) w hstd
  constructor
  · intro hn
    have he : ∀ data, b.runWith cfg data method uri r w = .error .rsa := by
      intro data
      refine runWith_end_error hc unreserved_rsaName habs h0 hr hcs data method huri hruns ?_
      simp only [List.nil_append, hbase, hend, hn]
    rw [authorize_runWith, toForm_runWith]
    exact ⟨he _, he _⟩
  · intro sig hsig
    refine ⟨base64Standard sig, base64_decodePad false sig, ?_⟩
    have he : ∀ data, b.runWith cfg data method uri r w = .ok
        ((data.sendAll (itemsFrom cfg (b.env b!"RSA-SHA1" true true) w cs)).finish
          (encode (base64Standard sig)), cs.foldl (advance (b.env b!"RSA-SHA1" true true)) w) := by
      intro data
      rw [runWith_absorbs hc unreserved_rsaName habs hr hcs _ _ huri]
      refine ⟨hruns, rfl, ⟨[], key⟩, base64PercentEncodeDisplay sig, h0, ?_,
        (base64PercentEncodeDisplay_text _).2, ?_⟩
      · simp only [List.nil_append, hbase, hend, hsig]
      · rw [(base64PercentEncodeDisplay_text _).1]
    constructor
    · refine ⟨_, _, by rw [authorize_runWith]; exact he _, ?_⟩
      rw [sendAll_header, Data.finish, itemsFrom_sent cfg _ unreserved_rsaName]
      unfold sentIn at hp
      rw [hp]
      exact (parse_output cfg b _ w _).1
    · refine ⟨_, _, by rw [toForm_runWith]; exact he _, ?_⟩
      rw [(sendAll_finish_form _ _ _).1, itemsFrom_sent cfg _ unreserved_rsaName]
      unfold sentIn at hp
      rw [hp]
      exact (parse_output cfg b _ w _).2

/-- A toy key operation, failing for one key: a concrete header. -/
example : (((exampleBuilder (rsaRef (fun _ => b!"digest") ⟨fun (k : Nat) d => if k = 0 then none
      else some (0xFB :: d)⟩ 1)).authorize ⟨true, true, .std⟩ b!"GET" (.ofBytes b!"https://example.com/")
      (AssertSorted.request ⟨true, true, .std⟩ examplePairs)) World.example).toOption.map
        (fun r => r.1.drop (r.1.length - 36)) =
    some b!"oauth_signature=\"%2B2RpZ2VzdA%3D%3D\"" := by decide +kernel

/-! ### C46, C47 -/

/-- A base string determines method, URI and the pairs conveyed. -/
theorem parseBase_base {cfg : Cfg} {b : Builder S} {name method : Bytes} {uri : Display}
    {cs : List Call} {w : World} (hm : (0x26 : UInt8) ∉ method) (hcs : ∀ c ∈ cs, c.safe) :
    parseBase (b.base cfg name method uri cs w) = some (method, uri.text,
      cs.filterMap (Call.effective (b.env name true true) w.nonce (w.time cfg))) := by
  obtain ⟨ps, h1, h2, h3⟩ := signed_effective (b.env name true true)
    (cs.map fun c => (c, w.nonce, w.time cfg)) (by
      intro x hx
      obtain ⟨c, hc, rfl⟩ := List.mem_map.mp hx
      exact hcs c hc)
  rw [List.filterMap_map] at h1 h2
  have h1' : cs.filterMap (Call.signed? (b.env name true true) w.nonce (w.time cfg)) =
    ps.map fun p => (p.1, encode p.2.1) := h1
  have h2' : cs.filterMap (Call.effective (b.env name true true) w.nonce (w.time cfg)) =
    ps.map fun p => (p.1, p.2.2) := h2
  rw [Builder.base, h1', h2']
  exact parseBase_eq method uri.text hm ps h3

/-- C46: the base strings of two runs are equal only if method, URI text and the sequence of conveyed
(key, value) pairs are equal; for methods without `&` and keys made of unreserved characters. The runs
may differ in everything: configuration, options, requests, nonces and times. -/
theorem C46_base_string_binds {S' : Type} {cfg cfg' : Cfg} {b : Builder S} {b' : Builder S'}
    {name name' method method' : Bytes} {uri uri' : Display} {cs cs' : List Call} {w w' : World}
    (hm : (0x26 : UInt8) ∉ method) (hm' : (0x26 : UInt8) ∉ method')
    (hcs : ∀ c ∈ cs, c.safe) (hcs' : ∀ c ∈ cs', c.safe)
    (h : b.base cfg name method uri cs w = b'.base cfg' name' method' uri' cs' w') :
    method = method' ∧ uri.text = uri'.text ∧
      cs.filterMap (Call.effective (b.env name true true) w.nonce (w.time cfg)) =
        cs'.filterMap (Call.effective (b'.env name' true true) w'.nonce (w'.time cfg')) := by
  have h1 := parseBase_base (cfg := cfg) (b := b) (name := name) (uri := uri) (w := w) hm hcs
  rw [h, parseBase_base hm' hcs'] at h1
  simpa [eq_comm] using h1

/-- The hypotheses are needed: a key with `=` in it can be re-partitioned. -/
example : signedItem (b!"a%3Db", encode (encode b!"c")) = signedItem (b!"a", b!"b%3Dc") := by decide

/-- C47: the signing key text determines both secrets, an absent token secret being an empty one. -/
theorem C47_signing_key_injective (cs cs' : Bytes) (ts ts' : Option Bytes) :
    writeSigningKey stringWriter [] cs ts = writeSigningKey stringWriter [] cs' ts' ↔
      cs = cs' ∧ ts.getD [] = ts'.getD [] := by
  simp only [writeSigningKey_string, List.nil_append, Except.ok.injEq]
  constructor
  · intro h
    have hs : ∀ a b, splitFirst 0x26 (signingKey a b) = some (encode a, encode (b.getD [])) := by
      intro a b
      have e : signingKey a b = encode a ++ 0x26 :: encode (b.getD []) := by simp [signingKey]
      rw [e, splitFirst_append (not_mem_encode _ (by decide))]
    have h' := hs cs ts
    rw [h, hs] at h'
    simp only [Option.some.injEq, Prod.mk.injEq] at h'
    have inj : ∀ {x y : Bytes}, encode x = encode y → x = y := by
      intro x y hxy
      have := decode_encode x
      rw [hxy, decode_encode] at this
      simpa using this.symm
    exact ⟨(inj h'.1).symm, (inj h'.2).symm⟩
  · rintro ⟨rfl, h⟩
    simp [signingKey, h]

example : writeSigningKey stringWriter [] b!"a&" (some b!"b") ≠
    writeSigningKey stringWriter [] b!"a" (some b!"&b") := by
  rw [Ne, C47_signing_key_injective]; decide

theorem signingKey_inj {cs cs' : Bytes} {ts ts' : Option Bytes}
    (h : signingKey cs ts = signingKey cs' ts') : cs = cs' ∧ ts.getD [] = ts'.getD [] :=
  (C47_signing_key_injective cs cs' ts ts').mp (by simp only [writeSigningKey_string, h])

/-- C47, seen from outside: two builders that sign with PLAINTEXT return the same header, or the same
form, only if they have the same secrets; whatever the requests, URIs, options and builds. -/
theorem C47_plaintext_output {cfg cfg' : Cfg} {b b' : Builder Bytes} (hb : b.signatureMethod = plaintext)
    (hb' : b'.signatureMethod = plaintext) {r r' : Request} {cs cs' : List Call} (hr : IsTrace r cs)
    (hr' : IsTrace r' cs') (hstd : Standard cs) (hstd' : Standard cs') (hcs : ∀ c ∈ cs, c.ok)
    (hcs' : ∀ c ∈ cs', c.ok) {method method' : Bytes} {uri uri' : Display} (huri : uri.outcome = .ok)
    (huri' : uri'.outcome = .ok) {w w1 w' w1' : World} {out : Bytes}
    (h : (b.authorize cfg method uri r w = .ok (out, w1) ∧
        b'.authorize cfg' method' uri' r' w' = .ok (out, w1')) ∨
      (b.toForm cfg method uri r w = .ok (out, w1) ∧
        b'.toForm cfg' method' uri' r' w' = .ok (out, w1'))) :
    b.client.secret = b'.client.secret ∧
      (b.token.map (·.secret)).getD [] = (b'.token.map (·.secret)).getD [] := by
  obtain ⟨a1, a2, -⟩ := signs_output (cfg := cfg) (signs_of_plaintext hb) hr hstd hcs method w w1 out
  obtain ⟨c1, c2, -⟩ := signs_output (cfg := cfg') (signs_of_plaintext hb') hr' hstd' hcs' method' w' w1' out
  have cut : ∀ {q : UInt8} {x y s t : Bytes}, q ∉ s → q ∉ t → x ++ q :: s = y ++ q :: t → s = t := by
    intro q x y s t hs ht e
    have e' := congrArg (fun l => splitFirst q l.reverse) e
    simp only [List.reverse_append, List.reverse_cons, List.append_assoc, List.singleton_append] at e'
    rw [splitFirst_append (by simpa using hs), splitFirst_append (by simpa using ht)] at e'
    simp only [Option.some.injEq, Prod.mk.injEq] at e'
    exact List.reverse_inj.mp e'.1
  rcases h with ⟨h, h'⟩ | ⟨h, h'⟩
  · have e := (a1 uri huri h).symm.trans (c1 uri' huri' h')
    refine signingKey_inj ?_
    unfold headerText at e
    have e1 := List.append_cancel_right e
    refine cut (q := 0x22) (headerSafe_signingKey _ _).quote (headerSafe_signingKey _ _).quote
      (x := b!"OAuth " ++ (((b.params cfg b!"PLAINTEXT" w).map fun p => (p.1, encode p.2)).map
        headerItem).flatten ++ b!"oauth_signature=")
      (y := b!"OAuth " ++ (((b'.params cfg' b!"PLAINTEXT" w').map fun p => (p.1, encode p.2)).map
        headerItem).flatten ++ b!"oauth_signature=") ?_
    simpa using e1
  · have e1 := ((C27_form_violated hb hr hstd hcs method).1 uri huri h).2
    have e2 := ((C27_form_violated hb' hr' hstd' hcs' method').1 uri' huri' h').2
    have e := e1.symm.trans e2
    have inj : ∀ {x y : Bytes}, encode x = encode y → x = y := by
      intro x y hxy
      have := decode_encode x
      rw [hxy, decode_encode] at this
      simpa using this.symm
    have hl := congrArg List.reverse e
    simp only [List.reverse_append, List.reverse_cons, List.reverse_nil, List.nil_append,
      List.cons_append, List.cons.injEq] at hl
    exact ⟨inj (by simpa using hl.2.1), inj hl.1⟩

/-- The shared case with other secrets gives another header. -/
example {out : Bytes} {w1 w2 : World}
    (h1 : (Case.builder plaintext).authorize Case.cfg b!"GET" (.ofBytes Case.uri) Case.request Case.world =
      .ok (out, w1)) :
    (Case.otherSecrets plaintext).authorize Case.cfg b!"GET" (.ofBytes Case.uri) Case.request Case.world ≠
      .ok (out, w2) := fun h2 =>
  absurd (C47_plaintext_output rfl rfl Case.trace Case.trace Case.standard Case.standard (weave_ok Case.ok)
    (weave_ok Case.ok) rfl rfl (.inl ⟨h1, h2⟩)).1 (by decide)

/-- C47 for HMAC-SHA1: as long as the signing key fits in a block of the hash function, the state that
the signer starts with determines the secrets: padding a key with zeros never gives another key. (Longer
keys are hashed first.) -/
theorem C47_hmac_state {cs cs' : Bytes} {ts ts' : Option Bytes}
    (hl : (signingKey cs ts).length ≤ 64) (hl' : (signingKey cs' ts').length ≤ 64) :
    hmacSha1.signWith cs ts = hmacSha1.signWith cs' ts' ↔ cs = cs' ∧ ts.getD [] = ts'.getD [] := by
  have hH : ∀ m, (Sha1.hash m).length ≤ 64 := fun m => by rw [sha1_length]; decide
  have hz : ∀ cs ts, (0 : UInt8) ∉ signingKey cs ts := by
    intro cs ts
    simp only [signingKey, List.mem_append, not_or]
    exact ⟨⟨not_mem_encode _ (by decide), by decide⟩, not_mem_encode _ (by decide)⟩
  have hpad : ∀ (k : Bytes) (n : Nat), (0 : UInt8) ∉ k →
      (k ++ List.replicate n 0).takeWhile (· != 0) = k := by
    intro k n hk
    rw [List.takeWhile_append_of_pos (fun x hx => by
      have : x ≠ 0 := fun e => hk (e ▸ hx)
      simpa using this)]
    cases n <;> simp [List.replicate_succ]
  simp only [hmacSha1, hmac_signWith _ hH, Except.ok.injEq, Hmac.mk.injEq, and_true]
  constructor
  · intro h
    simp only [hmacBlockKey, if_neg (Nat.not_lt.mpr hl), if_neg (Nat.not_lt.mpr hl')] at h
    have h' := congrArg (List.takeWhile (· != 0)) h
    rw [hpad _ _ (hz _ _), hpad _ _ (hz _ _)] at h'
    exact signingKey_inj h'
  · rintro ⟨rfl, h⟩
    simp only [signingKey, h]

example : hmacSha1.signWith b!"a" (some b!"b\x00") ≠ hmacSha1.signWith b!"a" (some b!"b") := by
  rw [Ne, C47_hmac_state (by decide) (by decide)]; decide

end OAuth
