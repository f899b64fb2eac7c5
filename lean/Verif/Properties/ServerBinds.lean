import Verif.Properties.RfcDerived
import Verif.Properties.ServerAccepts

/-
C52, C53: what an accepted signature stands for at the example server: not one request (it can be
replayed), but only the parameters that were signed.
-/

namespace OAuth

open Spec
open Server (Lib HttpRequest Response OAuthParams Parameter Received)

variable {S : Type}

/-- What the server takes from a request is determined by it. -/
theorem received_unique {L : Lib} {req : HttpRequest} {ps qs : List Parameter}
    (hp : Received L req ps) (hq : Received L req qs) : ps = qs := by
  obtain ⟨form, header, h1, h2, rfl⟩ := hp
  obtain ⟨form', header', h1', h2', rfl⟩ := hq
  rw [h1] at h1'
  cases h1'
  have e1 := (Server.collectAuthParams_iff L _ _).mpr h2
  have e2 := (Server.collectAuthParams_iff L _ _).mpr h2'
  rw [e1] at e2
  cases e2
  rfl

/-! ### C52 -/

/-- C52: whether a request that was accepted once is accepted at another time depends on its timestamp
only. Up to the same limit, at most 30 seconds after the timestamp, it gets the same answer each time;
later it is refused. Without a timestamp (PLAINTEXT) it gets the same answer for ever. -/
theorem C52_same_answer_until_limit {L : Lib} {cfg : Cfg} {now : Nat} {req : HttpRequest}
    {client : Credentials Bytes} {token : Option (Credentials Bytes)} {verifier : Option Bytes}
    {f : List Parameter → OAuthParams → Response} {resp : Response}
    (h : Server.verifyAndThen L cfg (some now) req client token verifier f = .ok resp)
    (h400 : resp.status ≠ 400) (h401 : resp.status ≠ 401) :
    ∃ ps, Received L req ps ∧
      ((∃ v t limit, (b!"oauth_timestamp", v) ∈ ps ∧ U64Text v t ∧ limit ≤ t + 30 ∧
          (t + 30 < 2 ^ 64 → limit = t + 30) ∧
          ∀ now', Server.verifyAndThen L cfg (some now') req client token verifier f =
            .ok (if now' ≤ limit then resp else .ofStatus 401)) ∨
        ((∀ p ∈ ps, p.1 ≠ b!"oauth_timestamp") ∧
          (b!"oauth_signature_method", b!"PLAINTEXT") ∈ ps ∧
          ∀ now', Server.verifyAndThen L cfg (some now') req client token verifier f = .ok resp)) := by
  by_cases hrec : ∃ ps, Received L req ps
  case neg =>
    rcases Server.verifyAndThen_of_not_received (fun ps h => hrec ⟨ps, h⟩) cfg (some now) client
      token verifier f with h' | ⟨h1, h2⟩
    · rw [h'] at h; cases h; exact absurd rfl h400
    · unfold Server.verifyAndThen Server.readForm at h
      rw [if_pos h1, h2] at h
      cases h
  obtain ⟨ps, hrec⟩ := hrec
  have hperm := (sortPairs_spec ps).1
  refine ⟨ps, hrec, ?_⟩
  obtain ⟨cb, -, -, hv⟩ := Server.verifyAndThen_of_received hrec
  simp only [hv] at h ⊢
  cases hrp : Server.readParams cb fun k => first k (sortPairs ps) with
  | error c =>
    rw [hrp] at h
    cases h
    rcases Server.readParams_error hrp with rfl | rfl
    · exact absurd rfl h400
    · exact absurd rfl h401
  | ok o =>
    rw [hrp] at h
    simp only [] at h ⊢
    obtain ⟨-, -, r3, -, -, -, -, r8⟩ := readParams_ok hrp
    have mem : ∀ {k v}, first k (sortPairs ps) = some v → (k, v) ∈ ps :=
      fun hf => hperm.mem_iff.mp (Server.first_mem hf)
    have nomem : ∀ {k}, first k (sortPairs ps) = none → ∀ p ∈ ps, p.1 ≠ k :=
      fun hf p hp => Server.first_none hf p (hperm.mem_iff.mpr hp)
    cases hi : Server.inner L cfg (some now) req (sortPairs ps) o client token verifier with
    | error e => rw [hi] at h; cases h
    | ok r =>
    cases r with
    | error c =>
      rw [hi] at h
      cases h
      rcases Server.inner_outcome L cfg now req (sortPairs ps) o client token verifier with
        ⟨r, e1, e2⟩ | ⟨hd, t, ht, hlt⟩
      · rw [hi] at e1
        cases e1
        rcases e2 c rfl with rfl | rfl
        · exact absurd rfl h400
        · exact absurd rfl h401
      · unfold Server.inner Server.checkTimestamp Server.addWindow at hi
        rw [ht] at hi
        simp only [] at hi
        rw [if_neg (by omega), if_pos hd] at hi
        cases hi
    | ok x =>
    cases x
    rw [hi] at h
    simp only [] at h
    have hresp : f (sortPairs ps) o = resp := by injection h
    obtain ⟨i1, i2, i3, i4, i5⟩ := (Server.inner_ok_iff L cfg now req _ o client token verifier).mp hi
    rcases r8 with ⟨h1, h2⟩ | ⟨v, t, h1, h2, h3⟩
    · right
      refine ⟨nomem h2, ?_, ?_⟩
      · rcases i5 with h5 | ⟨-, h5⟩
        · rw [← h5]; exact mem r3
        · obtain ⟨j1, -⟩ := (Server.checkHmacSha1_ok_iff L req (sortPairs_spec ps).2 o client token).mp h5
          rw [h1] at j1; cases j1
      · intro now'
        have : Server.inner L cfg (some now') req (sortPairs ps) o client token verifier = .ok (.ok ()) :=
          (Server.inner_ok_iff L cfg now' req _ o client token verifier).mpr
            ⟨fun t ht => (by rw [h1] at ht; cases ht), i2, i3, i4, i5⟩
        rw [this]
        simp only [hresp]
    · left
      obtain ⟨limit, hl, -⟩ := i1 t h3
      refine ⟨v, t, limit, mem h1, h2, Server.addWindow_le hl, ?_, ?_⟩
      · intro hlt
        unfold Server.addWindow at hl
        rw [if_pos hlt] at hl
        cases hl; rfl
      · intro now'
        by_cases hn : now' ≤ limit
        · have : Server.inner L cfg (some now') req (sortPairs ps) o client token verifier =
              .ok (.ok ()) :=
            (Server.inner_ok_iff L cfg now' req _ o client token verifier).mpr
              ⟨fun t' ht' => by
                rw [h3] at ht'; cases ht'
                exact ⟨limit, hl, hn⟩, i2, i3, i4, i5⟩
          rw [this, if_pos hn]
          simp only [hresp]
        · have : Server.inner L cfg (some now') req (sortPairs ps) o client token verifier =
              .ok (.error 401) := by
            unfold Server.inner Server.checkTimestamp
            rw [h3]
            simp only [hl]
            show (do let t ← (if limit < now' then pure (Except.error 401) else pure (Except.ok ()) :
                Except Panic (Except Nat Unit)); _) = _
            rw [if_pos (by omega)]
            rfl
          rw [this, if_neg hn]

/-- C52, the claim: a signed request with a nonce is answered at most once (RFC 5849 section 3.3). -/
def C52_claim : Prop :=
  ∀ (L : Lib) (cfg : Cfg) (now now' : Nat) (req : HttpRequest) (ps : List Parameter) (resp : Response),
    Received L req ps → (b!"oauth_signature_method", b!"HMAC-SHA1") ∈ ps →
    (∃ n, (b!"oauth_nonce", n) ∈ ps) → now ≤ now' →
    Server.service L cfg (some now) req = .ok resp → resp.status = 200 →
    ∀ resp', Server.service L cfg (some now') req = .ok resp' → resp'.status ≠ 200

/-- C52, where it holds: a signed request (with a timestamp that does not overflow) is not answered
again more than 30 seconds after its timestamp. What is missing is the time before that: there is no
record of nonces, see `C52_violated`. -/
theorem C52_not_after_window_partial {L : Lib} {cfg : Cfg} {now now' : Nat} {req : HttpRequest}
    {client : Credentials Bytes} {token : Option (Credentials Bytes)} {verifier : Option Bytes}
    {f : List Parameter → OAuthParams → Response} {ps : List Parameter} {resp : Response}
    (hrec : Received L req ps) (hm : ∀ m, (b!"oauth_signature_method", m) ∈ ps → m ≠ b!"PLAINTEXT")
    (hlate : ∀ v t, (b!"oauth_timestamp", v) ∈ ps → U64Text v t → t + 30 < now')
    (h : Server.verifyAndThen L cfg (some now) req client token verifier f = .ok resp)
    (h400 : resp.status ≠ 400) (h401 : resp.status ≠ 401) :
    Server.verifyAndThen L cfg (some now') req client token verifier f = .ok (.ofStatus 401) := by
  obtain ⟨ps', hrec', hcase⟩ := C52_same_answer_until_limit h h400 h401
  have e : ps' = ps := received_unique hrec' hrec
  subst e
  rcases hcase with ⟨v, t, limit, h1, h2, h3, -, h5⟩ | ⟨-, h1, -⟩
  · have := hlate v t h1 h2
    rw [h5 now', if_neg (by omega)]
  · exact absurd rfl (hm _ h1)

/-- A request signed by the example's client. -/
def signedOnce : HttpRequest where
  method := b!"GET"
  path := b!"/echo"
  query := none
  authorization := [b!"OAuth oauth_consumer_key=\"client\",oauth_nonce=\"n\",oauth_signature_method=\"HMAC-SHA1\",oauth_timestamp=\"1700000000\",oauth_token=\"token\",oauth_signature=\"9rYGahrF9h%2Bpj4Nfm4DrmFwWjak%3D\""]
  contentType := none
  body := some []

/-- What the server takes from it. -/
def signedOnceParams : List Parameter :=
  [(b!"oauth_consumer_key", b!"client"), (b!"oauth_nonce", b!"n"),
   (b!"oauth_signature_method", b!"HMAC-SHA1"), (b!"oauth_timestamp", b!"1700000000"),
   (b!"oauth_token", b!"token"), (b!"oauth_signature", b!"9rYGahrF9h+pj4Nfm4DrmFwWjak=")]

theorem signedOnce_received : Received (Server.exampleLib true) signedOnce signedOnceParams := by
  refine ⟨[], signedOnceParams, rfl, (Server.collectAuthParams_iff _ _ _).mp ?_, ?_⟩
  · have : (Server.collectAuthParams (Server.exampleLib true) signedOnce.authorization).toOption =
        some (some signedOnceParams) := by decide +kernel
    cases hc : Server.collectAuthParams (Server.exampleLib true) signedOnce.authorization with
    | error e => rw [hc] at this; cases this
    | ok r => rw [hc] at this; cases this; rfl
  · have : Server.pairsOf [] = [] := by decide +kernel
    show _ = _ ++ (Server.pairsOf [] ++ Server.pairsOf [])
    rw [this]
    rfl

/-- The server's answer to it. -/
theorem signedOnce_answered : ∃ resp, Server.verifyAndThen (Server.exampleLib true) ⟨true, true, .std⟩
      (some 1700000000) signedOnce Server.CLIENT (some Server.TOKEN) none (fun _ _ => ⟨200, []⟩) = .ok resp ∧
    resp.status = 200 := by
  have h : (Server.verifyAndThen (Server.exampleLib true) ⟨true, true, .std⟩
      (some 1700000000) signedOnce Server.CLIENT (some Server.TOKEN) none
      (fun _ _ => ⟨200, []⟩)).toOption.map (·.status) = some 200 := by decide +kernel
  cases hc : Server.verifyAndThen (Server.exampleLib true) ⟨true, true, .std⟩
      (some 1700000000) signedOnce Server.CLIENT (some Server.TOKEN) none (fun _ _ => ⟨200, []⟩) with
  | error e => rw [hc] at h; cases h
  | ok r =>
    rw [hc] at h
    simp only [Except.toOption, Option.map_some, Option.some.injEq] at h
    exact ⟨r, rfl, h⟩

/-- C44 and C52 for it: it was expected and signed, and is answered the same until its limit. -/
example : ∃ ps, Received (Server.exampleLib true) signedOnce ps ∧
    Expected ps 1700000000 Server.CLIENT (some Server.TOKEN) none := by
  obtain ⟨resp, h, hs⟩ := signedOnce_answered
  obtain ⟨ps, h1, h2, -⟩ := C44_accepts_only_signed_partial h (by rw [hs]; decide) (by rw [hs]; decide)
  exact ⟨ps, h1, h2⟩

example : Server.verifyAndThen (Server.exampleLib true) ⟨true, true, .std⟩ (some 1700000031) signedOnce
    Server.CLIENT (some Server.TOKEN) none (fun _ _ => ⟨200, []⟩) = .ok (.ofStatus 401) := by
  obtain ⟨resp, h, hs⟩ := signedOnce_answered
  obtain ⟨ps, h1, h2⟩ := C52_same_answer_until_limit h (by rw [hs]; decide) (by rw [hs]; decide)
  obtain rfl := received_unique h1 signedOnce_received
  rcases h2 with ⟨v, t, limit, h3, h4, h5, -, h6⟩ | ⟨h3, -⟩
  · have hv : v = b!"1700000000" := by
      simp only [signedOnceParams, List.mem_cons, Prod.mk.injEq, List.not_mem_nil, or_false] at h3
      rcases h3 with h | h | h | h | h | h
      case inr.inr.inr.inl => exact h.2
      all_goals exact absurd h.1 (by decide)
    subst hv
    rw [← Server.parseU64_iff] at *
    have : Server.parseU64 b!"1700000000" = some 1700000000 := by decide +kernel
    rw [this] at h4
    cases h4
    rw [h6, if_neg (by omega)]
  · exact absurd rfl (h3 (b!"oauth_timestamp", b!"1700000000") (by decide))

/-- Accepted five seconds early, again 30 seconds late, and no longer then. -/
example : [1699999995, 1700000000, 1700000030, 1700000031].map (fun now =>
    (Server.service (Server.exampleLib true) ⟨true, true, .std⟩ (some now) signedOnce).toOption.map
      (·.status)) = [some 200, some 200, some 200, some 401] := by decide +kernel

/-- C52 is false: the same request is answered twice. -/
theorem C52_violated : ¬ C52_claim := by
  intro h
  have hs : ∀ now ∈ [1700000000, 1700000001], ∃ resp, Server.service (Server.exampleLib true)
      ⟨true, true, .std⟩ (some now) signedOnce = .ok resp ∧ resp.status = 200 := by
    intro now hnow
    have : ∀ now ∈ [1700000000, 1700000001], (Server.service (Server.exampleLib true) ⟨true, true, .std⟩
        (some now) signedOnce).toOption.map (·.status) = some 200 := by decide +kernel
    have := this now hnow
    cases hc : Server.service (Server.exampleLib true) ⟨true, true, .std⟩ (some now) signedOnce with
    | error e => rw [hc] at this; cases this
    | ok r =>
      rw [hc] at this
      simp only [Except.toOption, Option.map_some, Option.some.injEq] at this
      exact ⟨r, rfl, this⟩
  obtain ⟨r1, h1, h2⟩ := hs 1700000000 (by simp)
  obtain ⟨r2, h3, h4⟩ := hs 1700000001 (by simp)
  exact h _ _ _ _ _ _ _ signedOnce_received (by decide) ⟨b!"n", by decide⟩ (by omega) h1 h2 _ h3 h4

/-! ### C53 -/

theorem parseBase_rawOrder (method uri : Bytes) (ps : List (Bytes × Bytes)) :
    parseBase (rawOrderBase method uri ps) = some (encode (upper method), uri, sortPairs ps) := by
  have e : rawOrderBase method uri ps = encode (upper method) ++ 0x26 :: (encode uri ++ 0x26 ::
      encode (join b!"&" ((encodePairs (sortPairs ps)).map fun p => p.1 ++ b!"=" ++ p.2))) := by
    simp [rawOrderBase, encodePairs, List.map_map, Function.comp_def]
  rw [e, parseBase, splitFirst_append (not_mem_encode _ (by decide))]
  simp only []
  rw [splitFirst_append (not_mem_encode _ (by decide))]
  simp only [decode_encode, parseForm_encodePairs, Option.map_some]

/-- One use of the crate by a client: everything its base string depends on. -/
structure ClientRun where
  cfg : Cfg
  builder : Builder Hmac
  method : Bytes
  uri : Display
  calls : List Call
  world : World

/-- The text it signed. -/
def ClientRun.base (r : ClientRun) : Bytes :=
  r.builder.base r.cfg b!"HMAC-SHA1" r.method r.uri r.calls r.world

/-- The pairs it meant to sign. -/
def ClientRun.pairs (r : ClientRun) : List (Bytes × Bytes) :=
  r.calls.filterMap (Call.effective (r.builder.env b!"HMAC-SHA1" true true) r.world.nonce
    (r.world.time r.cfg))

/-- Methods without `&`, names of unreserved characters. -/
def ClientRun.Safe (r : ClientRun) : Prop :=
  (0x26 : UInt8) ∉ r.method ∧ ∀ c ∈ r.calls, c.safe

/-- A received request is the one that was signed: same method and URI, and the parameters received,
except the signature, are the pairs signed; each as often, and no others. -/
structure SameRequest (req : HttpRequest) (ps : List Parameter) (r : ClientRun) : Prop where
  method : encode (upper req.method) = r.method
  uri : b!"http://127.0.0.1:8080" ++ req.path = r.uri.text
  pairs : (unsigned ps).Perm r.pairs

/-- The text the server computes the signature of. -/
def serverBase (req : HttpRequest) (ps : List Parameter) : Bytes :=
  rawOrderBase req.method (b!"http://127.0.0.1:8080" ++ req.path) (unsigned ps)

/-- C53, equal base strings mean equal requests. -/
theorem C53_base_string_binds {req : HttpRequest} {ps : List Parameter} {r : ClientRun} (hr : r.Safe)
    (h : serverBase req ps = r.base) : SameRequest req ps r := by
  have h1 := parseBase_base (cfg := r.cfg) (b := r.builder) (name := b!"HMAC-SHA1") (uri := r.uri)
    (w := r.world) hr.1 hr.2
  change parseBase r.base = some (r.method, r.uri.text, r.pairs) at h1
  rw [← h, serverBase, parseBase_rawOrder] at h1
  simp only [Option.some.injEq, Prod.mk.injEq] at h1
  refine ⟨h1.1, h1.2.1, ?_⟩
  rw [← h1.2.2]
  exact (sortPairs_spec _).1.symm

/-- C53: if nobody but the client can make signatures (a received signature that is the HMAC of what
the server computed is one of a text that the client signed), then every request that gets an answer of
the handler, unless it says `PLAINTEXT`, is one of those that the client signed: method, URI and
parameters. -/
theorem C53_accepted_was_signed {L : Lib} {cfg : Cfg} {now : Nat} {req : HttpRequest}
    {client : Credentials Bytes} {token : Option (Credentials Bytes)} {verifier : Option Bytes}
    {f : List Parameter → OAuthParams → Response} {resp : Response} {ps : List Parameter}
    (hrec : Received L req ps) (hm : (b!"oauth_signature_method", b!"PLAINTEXT") ∉ ps)
    {history : List ClientRun} (hsafe : ∀ r ∈ history, r.Safe)
    (hforge : ∀ sig, (b!"oauth_signature", sig) ∈ ps →
      L.base64Decode sig = some (hmac Sha1.hash (sharedKey client token) (serverBase req ps)) →
      serverBase req ps ∈ history.map ClientRun.base)
    (h : Server.verifyAndThen L cfg (some now) req client token verifier f = .ok resp)
    (h400 : resp.status ≠ 400) (h401 : resp.status ≠ 401) :
    ∃ r ∈ history, SameRequest req ps r := by
  obtain ⟨ps', hrec', -, m, sig, h1, h2, h3⟩ := C44_accepts_only_signed_partial h h400 h401
  have e : ps' = ps := received_unique hrec' hrec
  subst e
  rcases h3 with rfl | ⟨-, -, -, h3 | ⟨rfl, -⟩⟩
  · exact absurd h1 hm
  · obtain ⟨r, hr, hb⟩ := List.mem_map.mp (hforge sig h2 h3.2)
    exact ⟨r, hr, C53_base_string_binds (hsafe r hr) hb.symm⟩
  · exact absurd h1 hm

/-- C53: a signature taken from one run of the client is refused with any other request, as long as
the HMACs of the two texts differ. -/
theorem C53_tampered_refused {L : Lib} {cfg : Cfg} {now : Nat} {req : HttpRequest}
    {client : Credentials Bytes} {token : Option (Credentials Bytes)} {verifier : Option Bytes}
    {f : List Parameter → OAuthParams → Response} {resp : Response} {ps : List Parameter}
    (hrec : Received L req ps) (hm : (b!"oauth_signature_method", b!"PLAINTEXT") ∉ ps)
    {r : ClientRun} (hsafe : r.Safe)
    (hsig : ∀ sig, (b!"oauth_signature", sig) ∈ ps →
      L.base64Decode sig = some (hmac Sha1.hash (sharedKey client token) r.base))
    (hcoll : hmac Sha1.hash (sharedKey client token) (serverBase req ps) =
      hmac Sha1.hash (sharedKey client token) r.base → serverBase req ps = r.base)
    (hdiff : ¬ SameRequest req ps r)
    (h : Server.verifyAndThen L cfg (some now) req client token verifier f = .ok resp) :
    resp.status = 400 ∨ resp.status = 401 := by
  apply Classical.byContradiction
  intro hn
  rw [not_or] at hn
  obtain ⟨r', hr', hsame⟩ := C53_accepted_was_signed hrec hm (history := [r]) (by simpa using hsafe)
    (by
      intro sig h1 h2
      rw [hsig sig h1] at h2
      simp only [Option.some.injEq] at h2
      simp [hcoll h2.symm]) h hn.1 hn.2
  rw [List.mem_singleton] at hr'
  exact hdiff (hr' ▸ hsame)

/-- The run of the client that `signedOnce` comes from. -/
def onceRun : ClientRun where
  cfg := ⟨true, true, .std⟩
  builder := (((Builder.new Server.CLIENT hmacSha1).setToken (some Server.TOKEN)).setNonce
    (some b!"n")).setTimestamp (some ⟨1700000000, by decide, by decide⟩)
  method := b!"GET"
  uri := .ofBytes b!"http://127.0.0.1:8080/echo"
  calls := allProto.map .oauth
  world := World.example

theorem onceRun_safe : onceRun.Safe := by
  refine ⟨by decide, ?_⟩
  intro c hc
  obtain ⟨p, -, rfl⟩ := List.mem_map.mp hc
  exact trivial

example : SameRequest signedOnce signedOnceParams onceRun :=
  C53_base_string_binds onceRun_safe (by decide +kernel)

/-- Somebody adds a parameter to the request, and keeps the signature. -/
def tampered : HttpRequest := { signedOnce with query := some b!"admin=1" }

theorem tampered_received :
    Received (Server.exampleLib true) tampered (signedOnceParams ++ [(b!"admin", b!"1")]) := by
  obtain ⟨form, header, h1, h2, h3⟩ := signedOnce_received
  cases h1
  have e0 : Server.pairsOf [] = [] := by decide +kernel
  have e1 : Server.pairsOf b!"admin=1" = [(b!"admin", b!"1")] := by
    decide +kernel
  refine ⟨_, header, rfl, h2, ?_⟩
  have h3' : signedOnceParams = header ++ (Server.pairsOf [] ++
    Server.pairsOf []) := h3
  rw [e0, List.append_nil, List.append_nil] at h3'
  change _ = header ++ (Server.pairsOf [] ++
    Server.pairsOf b!"admin=1")
  rw [e0, e1, h3', List.nil_append]

/-- It is refused, at any time and whatever the handler. -/
example (now : Nat) (f : List Parameter → OAuthParams → Response) (resp : Response)
    (h : Server.verifyAndThen (Server.exampleLib true) ⟨true, true, .std⟩ (some now) tampered
      Server.CLIENT (some Server.TOKEN) none f = .ok resp) :
    resp.status = 400 ∨ resp.status = 401 := by
  refine C53_tampered_refused tampered_received (by decide) onceRun_safe ?_ ?_ ?_ h
  · intro sig hsig
    have : sig = b!"9rYGahrF9h+pj4Nfm4DrmFwWjak=" := by
      simp only [signedOnceParams, List.cons_append, List.nil_append, List.mem_cons, Prod.mk.injEq,
        List.not_mem_nil, or_false] at hsig
      rcases hsig with h | h | h | h | h | h | h
      case inr.inr.inr.inr.inr.inl => exact h.2
      all_goals exact absurd h.1 (by decide)
    subst this
    decide +kernel
  · intro hc
    exact absurd hc (by decide +kernel)
  · intro hs
    exact absurd hs.pairs.length_eq (by decide +kernel)

end OAuth
