import Verif.Proofs.ServerExample
import Verif.Proofs.Verify
import Verif.Properties.Form

/-
C43, C44, C45, C48: the example server.
-/

namespace OAuth

open Spec
open Server (Lib HttpRequest Response OAuthParams Parameter Received)

variable {S : Type}

/-! ### C48 -/

/-- C48: on every text, the iterator yields the items of a longest list of the grammar at its beginning,
in order, and leaves exactly the rest. `plainItems` drops the distinction between borrowed and owned
values. -/
theorem C48_items_in_order (emptyOk : Bool) (s : Bytes) :
    ∃ items text rest,
      (Server.hash s (Server.authParam emptyOk)).drain (s.length + 1) =
        .ok (items, ⟨rest, Server.authParam emptyOk, Server.comma, .done⟩) ∧
      s = text ++ rest ∧ IsParamList emptyOk text (Server.plainItems items) ∧
      ¬ Continues emptyOk (Server.plainItems items) rest :=
  Server.drain_head emptyOk _ s (by omega)

/-- What is read of a list that breaks off. -/
example := C48_items_in_order true b!"a=b , c = \"d\\\" \" ,e"

/-- C48: a text is consumed completely exactly if it is a list of the grammar, and then the items are
those of the list; they are unique. -/
theorem C48_consumed_iff (emptyOk : Bool) (s : Bytes) (ps : List (Bytes × Bytes)) :
    (∃ items, (Server.hash s (Server.authParam emptyOk)).drain (s.length + 1) =
        .ok (items, ⟨[], Server.authParam emptyOk, Server.comma, .done⟩) ∧
      Server.plainItems items = ps) ↔ IsParamList emptyOk s ps := by
  constructor
  · rintro ⟨items, h, rfl⟩
    obtain ⟨items', text, rest, h1, h2, h3, -⟩ := C48_items_in_order emptyOk s
    rw [h] at h1
    cases h1
    rw [List.append_nil] at h2
    rw [h2]
    exact h3
  · intro h
    exact Server.drain_complete h _ (by omega)

/-- C48: the server takes a parameter list from the headers exactly if they conform; anything else it
rejects. It does not panic. -/
theorem C48_headers (L : Lib) (vs : List Bytes) :
    (∀ ps, Server.collectAuthParams L vs = .ok (some ps) ↔
      HeaderParams L.emptyOk Server.dec vs ps) ∧
    (Server.collectAuthParams L vs = .ok none ↔ ∀ ps, ¬ HeaderParams L.emptyOk Server.dec vs ps) := by
  refine ⟨Server.collectAuthParams_iff L vs, ?_⟩
  obtain ⟨r, h1, h2⟩ := Server.collectAuthParams_sound L vs
  constructor
  · intro h ps hps
    rw [(Server.collectAuthParams_iff L vs ps).mpr hps] at h
    cases h
  · intro h
    cases r with
    | none => exact h1
    | some ps => exact absurd (h2 ps rfl) (h ps)

/-- What the server reads of a header: texts that need no quoting, of parameters with values that are
not empty (unless empty quoted strings are taken). -/
theorem params_spec (cfg : Cfg) (b : Builder S) {name : Bytes} (w : World) :
    ∀ p ∈ b.params cfg name w, p.1 ≠ [] ∧ ∀ x ∈ p.1, unreserved x = true := by
  intro p hp
  obtain ⟨q, -, hq⟩ := List.mem_filterMap.mp hp
  obtain ⟨v, -, rfl⟩ := Option.map_eq_some_iff.mp hq
  have hq : q.name ≠ [] := by cases q <;> decide
  exact ⟨hq, proto_name_unreserved q⟩

/-- C48: the header the client returns is consumed completely, for any signature method that emits a
function `sig` of the base string made of characters that need no quoting (all of this crate's do, see
below), if no protocol parameter is empty (or empty quoted strings are taken). The items are the
parameters sent. -/
theorem C48_client_header {cfg : Cfg} {b : Builder S} {name : Bytes} {sig : Bytes → Bytes}
    (hs : b.Signs name true true sig) (hsig : ∀ m, sig m ≠ [] ∧ ∀ x ∈ sig m, qdtext x = true)
    {r : Request} {cs : List Call} (hr : IsTrace r cs)
    (hstd : Standard cs) (hcs : ∀ c ∈ cs, c.ok) {method : Bytes} {uri : Display}
    (huri : uri.outcome = .ok) {w w' : World} {out : Bytes}
    (h : b.authorize cfg method uri r w = .ok (out, w')) {emptyOk : Bool}
    (hne : ∀ p ∈ b.params cfg name w, p.2 = [] → emptyOk = true) :
    ∃ text items, out = b!"OAuth " ++ text ∧
      (Server.hash text (Server.authParam emptyOk)).drain (text.length + 1) =
        .ok (items, ⟨[], Server.authParam emptyOk, Server.comma, .done⟩) ∧
      Server.plainItems items = (b.params cfg name w).map (fun p => (p.1, encode p.2)) ++
        [(b!"oauth_signature", sig (b.base cfg name method uri cs w))] := by
  have ho := (signs_output hs hr hstd hcs method w w' out).1 uri huri h
  obtain ⟨h1, h2⟩ := hsig (b.base cfg name method uri cs w)
  obtain ⟨text, e, hl⟩ := Server.headerText_list (emptyOk := emptyOk) (params_spec cfg b w) hne h2 h1
  obtain ⟨items, h3, h4⟩ := (C48_consumed_iff emptyOk text _).mpr hl
  exact ⟨text, items, by rw [ho, e], h3, h4⟩

theorem qdtext_signingKey (cs : Bytes) (ts : Option Bytes) :
    signingKey cs ts ≠ [] ∧ ∀ x ∈ signingKey cs ts, qdtext x = true := by
  refine ⟨by simp [signingKey], ?_⟩
  intro x hx
  simp only [signingKey, List.mem_append, List.mem_singleton] at hx
  rcases hx with (hx | rfl) | hx
  · exact Server.encode_qdtext _ x hx
  · decide
  · exact Server.encode_qdtext _ x hx

/-- C48: the hypothesis on signature methods holds of HMAC-SHA1 and PLAINTEXT with any secrets, and of
RSA-SHA1 if signatures are not empty. -/
theorem C48_client_methods (clientSecret : Bytes) (tokenSecret : Option Bytes) {K : Type}
    (ops : RsaOps K) (key : K) (sign : Bytes → Bytes)
    (hk : ∀ m, ops.sign key (Sha1.hash m) = some (sign (Sha1.hash m))) (hne : ∀ d, sign d ≠ []) :
    let readable (S : Type) (sm : SignatureMethod S) (name : Bytes) : Prop :=
      ∃ sig, Signs sm clientSecret tokenSecret name true true sig ∧
        ∀ m, sig m ≠ [] ∧ ∀ x ∈ sig m, qdtext x = true
    readable _ hmacSha1 b!"HMAC-SHA1" ∧ readable _ plaintext b!"PLAINTEXT" ∧
      readable _ (rsaOwned Sha1.hash ops key) b!"RSA-SHA1" ∧
      readable _ (rsaRef Sha1.hash ops key) b!"RSA-SHA1" := by
  intro readable
  have hb : ∀ d : Bytes, d ≠ [] → encode (base64Standard d) ≠ [] ∧
      ∀ x ∈ encode (base64Standard d), qdtext x = true := by
    intro d hd
    refine ⟨fun h => ?_, Server.encode_qdtext _⟩
    have h1 := base64Standard_length d
    rw [Server.encode_eq_nil h] at h1
    have h2 : 0 < d.length := List.length_pos_iff.mpr hd
    simp only [List.length_nil] at h1
    omega
  refine ⟨⟨_, signs_hmac _ (fun m => by rw [sha1_length]; decide) _ _, fun m => hb _ ?_⟩,
    ⟨_, signs_plaintext _ _, fun m => qdtext_signingKey _ _⟩,
    ⟨_, signs_rsaOwned _ ops key sign hk _ _, fun m => hb _ (hne _)⟩,
    ⟨_, signs_rsaRef _ ops key sign hk _ _, fun m => hb _ (hne _)⟩⟩
  intro h
  have : (hmac Sha1.hash (signingKey clientSecret tokenSecret) m).length = 20 := by
    simp only [hmac, sha1_length]
  rw [h] at this
  cases this

/-- A signature method of each kind, and the header of the shared case. -/
example := C48_client_methods b!"client/secret" (some b!"token secret")
  (⟨fun _ d => some (1 :: d)⟩ : RsaOps Unit) () (fun d => 1 :: d) (fun _ => rfl) (fun _ h => by cases h)

example : ∃ out w' text items, (Case.builder hmacSha1).authorize Case.cfg b!"GET" (.ofBytes Case.uri)
      Case.request Case.world = .ok (out, w') ∧ out = b!"OAuth " ++ text ∧
    (Server.hash text (Server.authParam true)).drain (text.length + 1) =
      .ok (items, ⟨[], Server.authParam true, Server.comma, .done⟩) ∧
    (Server.plainItems items).length = 7 := by
  obtain ⟨out, w', h⟩ := Case.header
  obtain ⟨⟨sig, hs, hsig⟩, -⟩ := C48_client_methods b!"client/secret" (some b!"token secret")
    (⟨fun _ d => some (1 :: d)⟩ : RsaOps Unit) () (fun d => 1 :: d) (fun _ => rfl) (fun _ h => by cases h)
  obtain ⟨text, items, h1, h2, h3⟩ := C48_client_header (emptyOk := true) (b := Case.builder hmacSha1) hs hsig
    Case.trace Case.standard (weave_ok Case.ok) rfl h (fun _ _ _ => rfl)
  refine ⟨out, w', text, items, h, h1, h2, ?_⟩
  rw [h3, List.length_append, List.length_map, List.length_singleton]
  decide +kernel

/-! Without empty quoted strings, a header with an empty value is rejected. -/

theorem quotedText_nil {q v : Bytes} (h : QuotedText q v) : v = [] → q = [] := by
  intro hv
  cases h with
  | nil => rfl
  | text _ _ => cases hv
  | pair _ _ => cases hv

theorem paramTail_values {s : Bytes} {items : List (Bytes × Bytes)} (h : IsParamTail false s items) :
    ∀ p ∈ items, p.2 ≠ [] := by
  induction h with
  | nil => simp
  | cons _ _ ht _ ih =>
    intro p hp
    rcases List.mem_cons.mp hp with rfl | hp
    · obtain ⟨_, _, v, _, _, _, _, hv⟩ := ht
      rcases hv with ⟨h1, rfl⟩ | ⟨q, _, hq, hne⟩
      · exact h1.1
      · intro h0
        exact absurd (hne (quotedText_nil hq h0)) (by decide)
    · exact ih p hp

theorem paramList_values {s : Bytes} {items : List (Bytes × Bytes)} (h : IsParamList false s items) :
    ∀ p ∈ items, p.2 ≠ [] := by
  cases h with
  | nil => simp
  | cons ht htail =>
    intro p hp
    rcases List.mem_cons.mp hp with rfl | hp
    · obtain ⟨_, _, v, _, _, _, _, hv⟩ := ht
      rcases hv with ⟨h1, rfl⟩ | ⟨q, _, hq, hne⟩
      · exact h1.1
      · intro h0
        exact absurd (hne (quotedText_nil hq h0)) (by decide)
    · exact paramTail_values htail p hp

theorem authParam_mono {t k v : Bytes} (h : IsAuthParam false t k v) : IsAuthParam true t k v := by
  obtain ⟨w, w', vt, e, h1, h2, h3, hv⟩ := h
  refine ⟨w, w', vt, e, h1, h2, h3, ?_⟩
  rcases hv with hv | ⟨q, h4, h5, -⟩
  · exact .inl hv
  · exact .inr ⟨q, h4, h5, fun _ => rfl⟩

theorem paramTail_mono {s : Bytes} {items : List (Bytes × Bytes)} (h : IsParamTail false s items) :
    IsParamTail true s items := by
  induction h with
  | nil => exact .nil
  | cons h1 h2 h3 _ ih => exact .cons h1 h2 (authParam_mono h3) ih

theorem paramList_mono {s : Bytes} {items : List (Bytes × Bytes)} (h : IsParamList false s items) :
    IsParamList true s items := by
  cases h with
  | nil => exact .nil
  | cons h1 h2 => exact .cons (authParam_mono h1) (paramTail_mono h2)

/-- C48, where it can fail: if the parser library does not take empty quoted strings (`emptyOk` is
false), a header the client returns with an empty protocol parameter is rejected. -/
theorem C48_empty_value_rejected {L : Lib} (hL : L.emptyOk = false) {cfg : Cfg} {b : Builder S}
    {name : Bytes} {sig : Bytes → Bytes} (hs : b.Signs name true true sig)
    (hsig : ∀ m, sig m ≠ [] ∧ ∀ x ∈ sig m, qdtext x = true)
    {r : Request} {cs : List Call} (hr : IsTrace r cs) (hstd : Standard cs) (hcs : ∀ c ∈ cs, c.ok)
    {method : Bytes} {uri : Display} (huri : uri.outcome = .ok) {w w' : World} {out : Bytes}
    (h : b.authorize cfg method uri r w = .ok (out, w')) (he : ∃ p ∈ b.params cfg name w, p.2 = []) :
    Server.collectAuthParams L [out] = .ok none := by
  refine ((C48_headers L [out]).2).mpr ?_
  intro ps hps
  have ho := (signs_output hs hr hstd hcs method w w' out).1 uri huri h
  obtain ⟨h1, h2⟩ := hsig (b.base cfg name method uri cs w)
  obtain ⟨text, e, hl⟩ := Server.headerText_list (emptyOk := true) (params_spec cfg b w)
    (fun _ _ _ => rfl) h2 h1
  rw [ho, e, hL] at hps
  generalize hh : b!"OAuth " ++ text = hd at hps
  generalize hvs : [hd] = vs at hps
  cases hps with
  | none => cases hvs
  | skip hne _ =>
    cases hvs
    rw [← hh] at hne
    exact hne (Server.takeWhile_oauth text).1
  | empty =>
    cases hvs
    have := congrArg List.length hh
    simp at this
  | params hl' =>
    cases hvs
    have := List.append_cancel_left hh
    subst this
    have heq := Server.paramList_unique hl (paramList_mono hl')
    obtain ⟨p, hp, hp0⟩ := he
    refine paramList_values hl' (p.1, encode p.2) ?_ (by rw [hp0]; rfl)
    rw [← heq]
    exact List.mem_append_left _ (List.mem_map.mpr ⟨p, hp, rfl⟩)

/-- A header with a token, a quoted string with escapes, and blanks; and what follows a list. -/
example : ((Server.hash b!"a=b , c = \"d\\\" \" ,e" (Server.authParam true)).drain 30).toOption.map
    (fun x => (Server.plainItems x.1, x.2.input)) =
      some ([(b!"a", b!"b"), (b!"c", b!"d\" ")], b!" ,e") := by decide +kernel

example : ((Server.hash exampleHeader (Server.authParam true)).drain 2).toOption.map
    (fun x => (Server.plainItems x.1, x.2.input)) = some ([], exampleHeader) := by decide +kernel

example : (Server.collectAuthParams (Server.exampleLib true) [exampleHeader]).toOption.map
      (fun o => o.map fun l => l.map (·.1)) =
    some (some [b!"oauth_callback", b!"oauth_consumer_key", b!"oauth_nonce", b!"oauth_signature_method",
      b!"oauth_timestamp", b!"oauth_token", b!"oauth_verifier", b!"oauth_version",
      b!"oauth_signature"]) := by decide +kernel

/-! ### C44 -/

/-- The secrets, as the server joins them. RFC 5849 has them encoded first, which makes no difference to
those of the example. -/
def sharedKey (client : Credentials Bytes) (token : Option (Credentials Bytes)) : Bytes :=
  client.secret ++ b!"&" ++ (token.map (·.secret)).getD []

example : sharedKey Server.CLIENT (some Server.TOKEN) =
      signingKey Server.CLIENT.secret (some Server.TOKEN.secret) ∧
    sharedKey Server.CLIENT (some Server.REQUEST) =
      signingKey Server.CLIENT.secret (some Server.REQUEST.secret) ∧
    sharedKey Server.CLIENT none = signingKey Server.CLIENT.secret none := by decide

/-- The signature of a request matches the shared secrets, for the signature method named in it. -/
def SignatureMatches (L : Lib) (req : HttpRequest) (ps : List Parameter) (client : Credentials Bytes)
    (token : Option (Credentials Bytes)) (method signature : Bytes) : Prop :=
  (method = b!"HMAC-SHA1" ∧
    L.base64Decode signature = some (hmac Sha1.hash (sharedKey client token)
      (rawOrderBase req.method (b!"http://127.0.0.1:8080" ++ req.path) (unsigned ps)))) ∨
  (method = b!"PLAINTEXT" ∧ signature = sharedKey client token)

/-- What the server has to have seen before it runs a handler, apart from the signature: the expected
identifiers (and no token or verifier unless expected), and a timestamp that is not too old if there is
one. -/
structure Expected (ps : List Parameter) (now : Nat) (expClient : Credentials Bytes)
    (expToken : Option (Credentials Bytes)) (expVerifier : Option Bytes) : Prop where
  client : (b!"oauth_consumer_key", expClient.identifier) ∈ ps
  token : ∀ t, expToken = some t → (b!"oauth_token", t.identifier) ∈ ps
  noToken : expToken = none → ∀ p ∈ ps, p.1 ≠ b!"oauth_token"
  verifier : ∀ v, expVerifier = some v → (b!"oauth_verifier", v) ∈ ps
  noVerifier : expVerifier = none → ∀ p ∈ ps, p.1 ≠ b!"oauth_verifier"
  timestamp : (∀ p ∈ ps, p.1 ≠ b!"oauth_timestamp") ∨
    ∃ v t, (b!"oauth_timestamp", v) ∈ ps ∧ U64Text v t ∧ now ≤ t + 30

/-- C44, the claim: an answer other than 400 and 401 (that is, one of the handler) is only given to a
request with the expected identifiers and a matching signature. -/
def C44_claim : Prop :=
  ∀ (L : Lib) (cfg : Cfg) (now : Nat) (req : HttpRequest) (client : Credentials Bytes)
    (token : Option (Credentials Bytes)) (verifier : Option Bytes)
    (f : List Parameter → OAuthParams → Response) (resp : Response),
    Server.verifyAndThen L cfg (some now) req client token verifier f = .ok resp →
    resp.status ≠ 400 → resp.status ≠ 401 →
    ∃ ps, Received L req ps ∧ Expected ps now client token verifier ∧
      ∃ method signature, (b!"oauth_signature_method", method) ∈ ps ∧
        (b!"oauth_signature", signature) ∈ ps ∧
        SignatureMatches L req ps client token method signature

theorem readParams_ok {cb : Option Bytes} {val : Bytes → Option Bytes} {o : OAuthParams}
    (h : Server.readParams cb val = .ok o) :
    val b!"oauth_consumer_key" = some o.consumerKey ∧ val b!"oauth_signature" = some o.signature ∧
      val b!"oauth_signature_method" = some o.signatureMethod ∧ o.token = val b!"oauth_token" ∧
      o.nonce = val b!"oauth_nonce" ∧ o.verifier = val b!"oauth_verifier" ∧ o.callback = cb ∧
      ((o.timestamp = none ∧ val b!"oauth_timestamp" = none) ∨
        ∃ v t, val b!"oauth_timestamp" = some v ∧ U64Text v t ∧ o.timestamp = some t) := by
  unfold Server.readParams at h
  split at h
  · cases h
  · next h1 =>
    split at h
    · cases h
    · next h2 =>
      split at h
      · cases h
      · next h3 =>
        split at h
        · next h4 => cases h; exact ⟨h1, h2, h3, rfl, rfl, rfl, rfl, .inl ⟨rfl, h4⟩⟩
        · next h4 =>
          split at h
          · cases h
          · next h5 =>
            cases h
            exact ⟨h1, h2, h3, rfl, rfl, rfl, rfl, .inr ⟨_, _, h4, (Server.parseU64_iff _ _).mp h5, rfl⟩⟩

theorem rawOrderBase_perm (method uri : Bytes) {ps qs : List Parameter} (h : ps.Perm qs) :
    rawOrderBase method uri ps = rawOrderBase method uri qs := by
  unfold rawOrderBase
  rw [Server.sortPairs_perm h]

theorem macKey_sharedKey (client : Credentials Bytes) (token : Option (Credentials Bytes)) :
    Server.macKey client token = sharedKey client token := by
  cases token <;> rfl

/-- C44, where it holds: what is missing is the signature if the request says `PLAINTEXT`; such a
request is accepted with any signature (see `C44_plaintext_accepts_anything`). -/
theorem C44_accepts_only_signed_partial {L : Lib} {cfg : Cfg} {now : Nat} {req : HttpRequest}
    {client : Credentials Bytes} {token : Option (Credentials Bytes)} {verifier : Option Bytes}
    {f : List Parameter → OAuthParams → Response} {resp : Response}
    (h : Server.verifyAndThen L cfg (some now) req client token verifier f = .ok resp)
    (h400 : resp.status ≠ 400) (h401 : resp.status ≠ 401) :
    ∃ ps, Received L req ps ∧ Expected ps now client token verifier ∧
      ∃ method signature, (b!"oauth_signature_method", method) ∈ ps ∧
        (b!"oauth_signature", signature) ∈ ps ∧
        (method = b!"PLAINTEXT" ∨
          ((∃ p ∈ ps, p.1 = b!"oauth_timestamp") ∧ (∃ p ∈ ps, p.1 = b!"oauth_nonce") ∧
            method = b!"HMAC-SHA1" ∧
            SignatureMatches L req ps client token method signature)) := by
  by_cases hrec : ∃ ps, Received L req ps
  case neg =>
    rcases Server.verifyAndThen_of_not_received (fun ps h => hrec ⟨ps, h⟩) cfg (some now) client
      token verifier f with h' | ⟨h1, h2⟩
    · rw [h'] at h; cases h; exact absurd rfl h400
    · unfold Server.verifyAndThen Server.readForm at h
      rw [if_pos h1, h2] at h
      cases h
  obtain ⟨ps, hrec⟩ := hrec
  have hperm := (sortPairs_spec ps).1
  have hasc := (sortPairs_spec ps).2
  obtain ⟨cb, -, -, hv⟩ := Server.verifyAndThen_of_received hrec
  rw [hv] at h
  cases hrp : Server.readParams cb fun k => first k (sortPairs ps) with
  | error c =>
    rw [hrp] at h
    cases h
    rcases Server.readParams_error hrp with rfl | rfl
    · exact absurd rfl h400
    · exact absurd rfl h401
  | ok o =>
    rw [hrp] at h
    simp only [] at h
    obtain ⟨r1, r2, r3, r4, r5, r6, -, r8⟩ := readParams_ok hrp
    have mem : ∀ {k v}, first k (sortPairs ps) = some v → (k, v) ∈ ps :=
      fun hf => hperm.mem_iff.mp (Server.first_mem hf)
    have nomem : ∀ {k}, first k (sortPairs ps) = none → ∀ p ∈ ps, p.1 ≠ k :=
      fun hf p hp => Server.first_none hf p (hperm.mem_iff.mpr hp)
    cases hi : Server.inner L cfg (some now) req (sortPairs ps) o client token verifier with
    | error e => rw [hi] at h; cases h
    | ok r =>
    cases r with
    | error c =>
      rw [hi] at h
      cases h
      rcases Server.inner_outcome L cfg now req (sortPairs ps) o client token verifier with
        ⟨r, e1, e2⟩ | ⟨hd, t, ht, hlt⟩
      · rw [hi] at e1
        cases e1
        rcases e2 c rfl with rfl | rfl
        · exact absurd rfl h400
        · exact absurd rfl h401
      · unfold Server.inner Server.checkTimestamp Server.addWindow at hi
        rw [ht] at hi
        simp only [] at hi
        rw [if_neg (by omega), if_pos hd] at hi
        cases hi
    | ok x =>
    cases x
    obtain ⟨i1, i2, i3, i4, i5⟩ := (Server.inner_ok_iff L cfg now req _ o client token verifier).mp hi
    refine ⟨ps, hrec, ⟨?_, ?_, ?_, ?_, ?_, ?_⟩, o.signatureMethod, o.signature, mem r3, mem r2, ?_⟩
    · rw [← i2]; exact mem r1
    · rintro t rfl
      rw [i3] at r4
      exact mem r4.symm
    · rintro rfl
      rw [i3] at r4
      exact nomem r4.symm
    · rintro v rfl
      rw [i4] at r6
      exact mem r6.symm
    · rintro rfl
      rw [i4] at r6
      exact nomem r6.symm
    · rcases r8 with ⟨-, h1⟩ | ⟨v, t, h1, h2, h3⟩
      · exact .inl (nomem h1)
      · obtain ⟨u, hu, hle⟩ := i1 t h3
        have := Server.addWindow_le hu
        exact .inr ⟨v, t, mem h1, h2, by omega⟩
    · rcases i5 with h1 | ⟨h1, h2⟩
      · exact .inl h1
      · right
        obtain ⟨j1, j2, -, j4⟩ := (Server.checkHmacSha1_ok_iff L req hasc o client token).mp h2
        refine ⟨?_, ?_, h1, .inl ⟨h1, ?_⟩⟩
        · rcases r8 with ⟨h, -⟩ | ⟨v, t, h, -, -⟩
          · rw [h] at j1; cases j1
          · exact ⟨_, mem h, rfl⟩
        · rw [r5] at j2
          obtain ⟨n, hn⟩ := Option.isSome_iff_exists.mp j2
          exact ⟨_, mem hn, rfl⟩
        · rw [j4, macKey_sharedKey]
          have hpu : (unsigned (sortPairs ps)).Perm (unsigned ps) := hperm.filter _
          rw [rawOrderBase_perm _ _ hpu]

theorem pairwise_ne {ps : List Parameter} (h : ps.Pairwise fun a b => a.1 ≠ b.1) {p q : Parameter}
    (hp : p ∈ ps) (hq : q ∈ ps) (hne : p ≠ q) : p.1 ≠ q.1 := by
  induction ps with
  | nil => cases hp
  | cons a ps ih =>
    obtain ⟨h1, h2⟩ := List.pairwise_cons.mp h
    rcases List.mem_cons.mp hp with hp' | hp' <;> rcases List.mem_cons.mp hq with hq' | hq'
    · exact absurd (hp'.trans hq'.symm) hne
    · rw [hp']; exact h1 q hq'
    · rw [hq']; exact (h1 p hp').symm
    · exact ih h2 hp' hq'

/-- C44: whatever the signature, a request that says `PLAINTEXT` and names the expected identifiers
(each parameter once) is accepted, without knowledge of any secret. -/
theorem C44_plaintext_accepts_anything {L : Lib} {cfg : Cfg} {now : Nat} {req : HttpRequest}
    {ps : List Parameter} (hrec : Received L req ps) (hps : ps.Pairwise fun a b => a.1 ≠ b.1)
    {client : Credentials Bytes} {token : Option (Credentials Bytes)} {verifier : Option Bytes}
    (hexp : Expected ps now client token verifier)
    (hts : ∀ p ∈ ps, p.1 ≠ b!"oauth_timestamp") {signature : Bytes}
    (hm : (b!"oauth_signature_method", b!"PLAINTEXT") ∈ ps) (hsig : (b!"oauth_signature", signature) ∈ ps)
    (f : List Parameter → OAuthParams → Response) :
    ∃ o, Server.verifyAndThen L cfg (some now) req client token verifier f =
      .ok (f (sortPairs ps) o) := by
  have uniq : ∀ {k v}, (k, v) ∈ ps → first k (sortPairs ps) = some v := by
    intro k v hk
    refine Server.first_sort hk ?_
    intro v' hv'
    apply Classical.byContradiction
    intro hne
    exact pairwise_ne hps hv' hk (by simpa using hne) rfl
  obtain ⟨cb, -, -, hv⟩ := Server.verifyAndThen_of_received hrec
  rw [hv]
  have e1 := uniq hexp.client
  have e2 := uniq hsig
  have e3 := uniq hm
  have e4 : first b!"oauth_timestamp" (sortPairs ps) = none := Server.first_sort_none hts
  have e5 : first b!"oauth_token" (sortPairs ps) = token.map (·.identifier) := by
    cases token with
    | none => exact Server.first_sort_none (hexp.noToken rfl)
    | some t => exact uniq (hexp.token t rfl)
  have e6 : first b!"oauth_verifier" (sortPairs ps) = verifier := by
    cases verifier with
    | none => exact Server.first_sort_none (hexp.noVerifier rfl)
    | some v => exact uniq (hexp.verifier v rfl)
  simp only [Server.readParams, e1, e2, e3, e4, e5, e6]
  let o : OAuthParams :=
    { consumerKey := client.identifier, token := token.map (·.identifier),
      signatureMethod := b!"PLAINTEXT", timestamp := none, nonce := first b!"oauth_nonce" (sortPairs ps),
      signature := signature, callback := cb, verifier := verifier }
  have hi : Server.inner L cfg (some now) req (sortPairs ps) o client token verifier = .ok (.ok ()) :=
    (Server.inner_ok_iff L cfg now req _ o client token verifier).mpr
      ⟨fun t ht => (by cases ht), rfl, rfl, rfl, .inl rfl⟩
  exact ⟨o, by rw [hi]⟩

/-- A request to the `echo` endpoint with a wrong signature. -/
def forged : HttpRequest where
  method := b!"GET"
  path := b!"/echo"
  query := some b!"stolen=yes"
  authorization := [b!"OAuth oauth_consumer_key=client,oauth_token=token,oauth_signature_method=PLAINTEXT,oauth_signature=wrong"]
  contentType := none
  body := some []

example : (Server.service (Server.exampleLib true) ⟨true, true, .std⟩ (some 1700000000) forged).toOption =
    some ⟨200, b!"oauth_consumer_key=client&oauth_signature=wrong&oauth_signature_method=PLAINTEXT&oauth_token=token&stolen=yes"⟩ := by
  decide +kernel

/-- C44 is false. -/
theorem C44_violated : ¬ C44_claim := by
  intro h
  have h1 : Server.verifyAndThen (Server.exampleLib true) ⟨true, true, .std⟩ (some 0) forged
      Server.CLIENT (some Server.TOKEN) none (fun _ _ => ⟨200, []⟩) = .ok ⟨200, []⟩ := by
    have : (Server.verifyAndThen (Server.exampleLib true) ⟨true, true, .std⟩ (some 0) forged
      Server.CLIENT (some Server.TOKEN) none (fun _ _ => ⟨200, []⟩)).toOption = some ⟨200, []⟩ := by
      decide +kernel
    cases hv : Server.verifyAndThen (Server.exampleLib true) ⟨true, true, .std⟩ (some 0) forged
      Server.CLIENT (some Server.TOKEN) none (fun _ _ => ⟨200, []⟩) with
    | error e => rw [hv] at this; cases this
    | ok r => rw [hv] at this; cases this; rfl
  obtain ⟨ps, ⟨form, header, hf, hh, rfl⟩, -, m, s, hm, hs, hmatch⟩ := h _ _ _ _ _ _ _ _ _ h1
    (by decide) (by decide)
  have hf' : form = [] := by cases hf; rfl
  subst hf'
  have hh' := (Server.collectAuthParams_iff _ _ _).mpr hh
  have hhv : (Server.collectAuthParams (Server.exampleLib true) forged.authorization).toOption =
      some (some [(b!"oauth_consumer_key", b!"client"), (b!"oauth_token", b!"token"),
        (b!"oauth_signature_method", b!"PLAINTEXT"), (b!"oauth_signature", b!"wrong")]) := by
    decide +kernel
  rw [hh'] at hhv
  simp only [Except.toOption, Option.some.injEq] at hhv
  subst hhv
  have hq : Server.pairsOf (forged.query.getD []) =
      [(b!"stolen", b!"yes")] := by decide +kernel
  have hb : Server.pairsOf [] = [] := by decide +kernel
  rw [hq, hb] at hm hs
  have hm' : m = b!"PLAINTEXT" := by simpa using hm
  have hs' : s = b!"wrong" := by simpa using hs
  subst hm' hs'
  rcases hmatch with ⟨h2, -⟩ | ⟨-, h2⟩
  · exact absurd h2 (by decide)
  · exact absurd h2 (by decide)

/-! ### C45 -/

/-- C45, the claim: no content of a request makes verification panic. -/
def C45_claim : Prop :=
  ∀ (L : Lib) (cfg : Cfg) (now : Nat) (req : HttpRequest) (client : Credentials Bytes)
    (token : Option (Credentials Bytes)) (verifier : Option Bytes)
    (f : List Parameter → OAuthParams → Response), req.body.isSome = true →
    ∃ resp, Server.verifyAndThen L cfg (some now) req client token verifier f = .ok resp

/-- C45, where it holds: with a clock after the epoch and a body that can be read, verification panics
at most in builds with overflow checks, and only on a request with a timestamp of at least
`u64::MAX - 29`. What is missing is that timestamp. -/
theorem C45_never_panics_partial (L : Lib) (cfg : Cfg) (now : Nat) {req : HttpRequest}
    (hbody : req.body.isSome = true) (client : Credentials Bytes) (token : Option (Credentials Bytes))
    (verifier : Option Bytes) (f : List Parameter → OAuthParams → Response)
    (hts : cfg.debug = false ∨ ∀ ps, Received L req ps →
      ∀ v, (b!"oauth_timestamp", v) ∈ ps → ∀ t, U64Text v t → t + 30 < 2 ^ 64) :
    ∃ resp, Server.verifyAndThen L cfg (some now) req client token verifier f = .ok resp := by
  by_cases hrec : ∃ ps, Received L req ps
  case neg =>
    rcases Server.verifyAndThen_of_not_received (fun ps h => hrec ⟨ps, h⟩) cfg (some now) client
      token verifier f with h | ⟨-, h⟩
    · exact ⟨_, h⟩
    · rw [h] at hbody; cases hbody
  obtain ⟨ps, hrec⟩ := hrec
  have hperm := (sortPairs_spec ps).1
  obtain ⟨cb, -, -, hv⟩ := Server.verifyAndThen_of_received hrec
  rw [hv]
  cases hrp : Server.readParams cb fun k => first k (sortPairs ps) with
  | error c => exact ⟨_, rfl⟩
  | ok o =>
    simp only []
    rcases Server.inner_outcome L cfg now req (sortPairs ps) o client token verifier with
      ⟨r, h1, -⟩ | ⟨hd, t, ht, hlt⟩
    · rw [h1]
      cases r with
      | error c => exact ⟨_, rfl⟩
      | ok x => cases x; exact ⟨_, rfl⟩
    · exfalso
      rcases hts with h | h
      · rw [h] at hd; cases hd
      · obtain ⟨-, -, -, -, -, -, -, r8⟩ := readParams_ok hrp
        rcases r8 with ⟨h1, -⟩ | ⟨v, t', h1, h2, h3⟩
        · rw [h1] at ht; cases ht
        · rw [h3] at ht
          cases ht
          have := h ps hrec v (hperm.mem_iff.mp (Server.first_mem h1)) t h2
          omega

/-- C45, for the whole server. -/
theorem C45_service_never_panics_partial (L : Lib) (cfg : Cfg) (now : Nat) {req : HttpRequest}
    (hbody : req.body.isSome = true)
    (hts : cfg.debug = false ∨ ∀ ps, Received L req ps →
      ∀ v, (b!"oauth_timestamp", v) ∈ ps → ∀ t, U64Text v t → t + 30 < 2 ^ 64) :
    ∃ resp, Server.service L cfg (some now) req = .ok resp := by
  unfold Server.service
  split
  · exact C45_never_panics_partial L cfg now hbody _ _ _ _ hts
  · split
    · exact C45_never_panics_partial L cfg now hbody _ _ _ _ hts
    · split
      · exact C45_never_panics_partial L cfg now hbody _ _ _ _ hts
      · exact ⟨_, rfl⟩

/-- The request with a wrong signature is answered. -/
example : ∃ resp, Server.service (Server.exampleLib true) ⟨false, true, .std⟩ (some 1700000000) forged =
    .ok resp := C45_service_never_panics_partial _ _ _ rfl (.inl rfl)

/-- A request with the largest timestamp; no secret is needed. -/
def farFuture : HttpRequest :=
  { forged with
    authorization := [b!"OAuth oauth_consumer_key=x,oauth_signature=x,oauth_signature_method=x,oauth_timestamp=18446744073709551615"] }

/-- C45 is false in builds with overflow checks. -/
theorem C45_violated : ¬ C45_claim := by
  intro h
  obtain ⟨resp, h1⟩ := h (Server.exampleLib true) ⟨true, true, .std⟩ 1700000000 farFuture Server.CLIENT
    (some Server.TOKEN) none (fun _ _ => ⟨200, []⟩) rfl
  have h2 : (Server.verifyAndThen (Server.exampleLib true) ⟨true, true, .std⟩ (some 1700000000) farFuture
      Server.CLIENT (some Server.TOKEN) none (fun _ _ => ⟨200, []⟩)).toOption = none := by
    decide +kernel
  rw [h1] at h2
  cases h2

/-- Without overflow checks, the same request is answered 401; and malformed requests are answered
400. -/
example : (Server.service (Server.exampleLib true) ⟨false, true, .std⟩ (some 1700000000)
    farFuture).toOption.map (·.status) = some 401 := by decide +kernel
example : (Server.service (Server.exampleLib true) ⟨true, true, .std⟩ (some 1700000000)
    { forged with authorization := [b!"OAuth oauth_consumer_key=\"x"] }).toOption.map (·.status) =
      some 400 := by decide +kernel

end OAuth
