import Verif.Properties.Exact
import Verif.Properties.ServerRfc

/-
C70, exactly, and C83: the status codes the example server answers with.
-/

namespace OAuth

open Spec
open Server (Lib HttpRequest Response OAuthParams Parameter Received)

/-! ### C83 -/

/-- There is no parameter of this name. -/
def Absent (ps : List Parameter) (name : Bytes) : Prop := ∀ p ∈ ps, p.1 ≠ name

/-- The code of the first of several causes that applies, if any. -/
inductive FirstCause : List (Prop × Nat) → Option Nat → Prop
  | none : FirstCause [] none
  | here {P : Prop} {c : Nat} {l : List (Prop × Nat)} : P → FirstCause ((P, c) :: l) (some c)
  | there {P : Prop} {c : Nat} {l : List (Prop × Nat)} {r : Option Nat} :
    ¬ P → FirstCause l r → FirstCause ((P, c) :: l) r

/-- What the signature is compared with. -/
def Expectation.hmac (e : Expectation) (req : HttpRequest) (ps : List Parameter) : Bytes :=
  Spec.hmac Sha1.hash (sharedKey e.client e.token)
    (rawOrderBase req.method (b!"http://127.0.0.1:8080" ++ req.path) (unsigned ps))

/-- Why a request is refused, with the status code, in the order in which this is found out. If a
parameter is given several times, its least value counts. -/
def refusals (L : Lib) (now : Nat) (req : HttpRequest) (ps : List Parameter) (e : Expectation) :
    List (Prop × Nat) :=
  let isHmac := LeastIs ps b!"oauth_signature_method" (some b!"HMAC-SHA1")
  [(Absent ps b!"oauth_consumer_key", 401),
    (Absent ps b!"oauth_signature", 400),
    (Absent ps b!"oauth_signature_method", 400),
    (∃ v, LeastIs ps b!"oauth_timestamp" (some v) ∧ ∀ t, ¬ U64Text v t, 400),
    (∃ v t, LeastIs ps b!"oauth_timestamp" (some v) ∧ U64Text v t ∧ (t + 30) % 2 ^ 64 < now, 401),
    (e.token ≠ none ∧ Absent ps b!"oauth_token", 401),
    (e.token = none ∧ ¬ Absent ps b!"oauth_token", 400),
    (e.verifier ≠ none ∧ Absent ps b!"oauth_verifier", 401),
    (e.verifier = none ∧ ¬ Absent ps b!"oauth_verifier", 400),
    (¬ isHmac ∧ ¬ LeastIs ps b!"oauth_signature_method" (some b!"PLAINTEXT"), 400),
    (isHmac ∧ (Absent ps b!"oauth_timestamp" ∨ Absent ps b!"oauth_nonce"), 400),
    (isHmac ∧ ∃ s, LeastIs ps b!"oauth_signature" (some s) ∧
      ¬ (s.length ≤ 28 ∧ ∃ d, L.base64Decode s = some d ∧ d.length = 20), 400),
    (isHmac ∧ ∃ s, LeastIs ps b!"oauth_signature" (some s) ∧
      L.base64Decode s ≠ some (e.hmac req ps), 401),
    (¬ LeastIs ps b!"oauth_consumer_key" (some e.client.identifier), 401),
    (¬ LeastIs ps b!"oauth_token" (e.token.map (·.identifier)), 401),
    (¬ LeastIs ps b!"oauth_verifier" e.verifier, 401)]

theorem firstCause_nil {r : Option Nat} : FirstCause [] r ↔ r = none :=
  ⟨by rintro ⟨⟩; rfl, by rintro rfl; exact .none⟩

theorem firstCause_cons {P : Prop} {c : Nat} {l : List (Prop × Nat)} {r : Option Nat} :
    FirstCause ((P, c) :: l) r ↔ (P ∧ r = some c) ∨ (¬ P ∧ FirstCause l r) := by
  constructor
  · intro h
    cases h with
    | here h => exact .inl ⟨h, rfl⟩
    | there h1 h2 => exact .inr ⟨h1, h2⟩
  · rintro (⟨h, rfl⟩ | ⟨h1, h2⟩)
    · exact .here h
    · exact .there h1 h2

theorem firstCause_none {l : List (Prop × Nat)} : FirstCause l none ↔ ∀ p ∈ l, ¬ p.1 := by
  induction l with
  | nil => simp [firstCause_nil]
  | cons p l ih => obtain ⟨P, c⟩ := p; simp [firstCause_cons, ih]

theorem firstCause_total : ∀ l : List (Prop × Nat), ∃ r, FirstCause l r
  | [] => ⟨_, .none⟩
  | (P, c) :: l => by
    by_cases h : P
    · exact ⟨_, .here h⟩
    · obtain ⟨r, hr⟩ := firstCause_total l
      exact ⟨r, .there h hr⟩

theorem absent_iff {ps : List Parameter} {name : Bytes} :
    Absent ps name ↔ first name (sortPairs ps) = none := (first_iff ps name none).symm

theorem not_u64 {v : Bytes} : (∀ t, ¬ U64Text v t) ↔ Server.parseU64 v = none := by
  constructor
  · intro h
    cases hp : Server.parseU64 v with
    | none => rfl
    | some t => exact absurd ((Server.parseU64_iff _ _).mp hp) (h t)
  · intro h t ht
    rw [(Server.parseU64_iff _ _).mpr ht] at h
    cases h

theorem checkPresence_ok {α β : Type} {a : Option α} {b : Option β} (h1 : ¬ (a ≠ none ∧ b = none))
    (h2 : ¬ (a = none ∧ ¬ b = none)) : Server.checkPresence a b = .ok () := by
  cases a <;> cases b <;> simp_all [Server.checkPresence]

theorem checkIdentifiers_code {o : OAuthParams} {client : Credentials Bytes}
    {token : Option (Credentials Bytes)} {verifier : Option Bytes}
    (h1 : Server.checkPresence token o.token = .ok ())
    (h2 : Server.checkPresence verifier o.verifier = .ok ()) :
    Server.checkIdentifiers o client token verifier =
      if o.consumerKey = client.identifier ∧ o.token = token.map (·.identifier) ∧ o.verifier = verifier
      then .ok () else .error 401 := by
  unfold Server.checkIdentifiers Server.checkIdentifiers.checkVerifier
  by_cases hc : client.identifier = o.consumerKey
  · rw [if_neg (by simpa using hc)]
    cases ht : token <;> cases hot : o.token <;> cases hv : verifier <;> cases hov : o.verifier <;>
      simp only [ht, hot, hv, hov, Server.checkPresence, reduceCtorEq] at h1 h2 <;>
      simp [hc]
    · next a b => by_cases h : a = b <;> simp [h, eq_comm]
    · next a b =>
      by_cases h : a.identifier = b
      · simp [h]
      · rw [if_neg h, if_neg fun h' => h h'.symm]
    · next a b c d =>
      by_cases h : a.identifier = b
      · by_cases h' : c = d <;> simp [h, h', eq_comm]
      · rw [if_neg h, if_neg fun h' => h h'.1.symm]
  · have : ¬ o.consumerKey = client.identifier := fun h => hc h.symm
    simp [hc, this]

theorem checkHmacSha1_code (L : Lib) (req : HttpRequest) (ps : List Parameter) (o : OAuthParams)
    (e : Expectation) :
    Server.checkHmacSha1 L req (sortPairs ps) o e.client e.token =
      .ok (if o.timestamp.isNone || o.nonce.isNone then .error 400
        else if ¬ (o.signature.length ≤ 28 ∧ ∃ d, L.base64Decode o.signature = some d ∧ d.length = 20)
          then .error 400
        else if L.base64Decode o.signature ≠ some (e.hmac req ps) then .error 401 else .ok ()) := by
  have hperm := (sortPairs_spec ps).1
  have hu : (unsigned (sortPairs ps)).Perm (unsigned ps) := hperm.filter _
  unfold Server.checkHmacSha1 Expectation.hmac
  simp only [Server.mac_eq, Server.createBaseString_eq req _ (sortPairs_spec ps).2,
    rawOrderBase_perm _ _ hu, macKey_sharedKey]
  by_cases h1 : (o.timestamp.isNone || o.nonce.isNone) = true
  · rw [if_pos h1, if_pos h1]
  · rw [if_neg h1, if_neg h1]
    by_cases h2 : o.signature.length > 28
    · rw [if_pos h2, if_pos (by rintro ⟨h, -⟩; omega)]
    · rw [if_neg h2]
      cases hd : L.base64Decode o.signature with
      | none => simp
      | some d =>
        have := L.base64Decode_length _ _ hd
        have h21 : ¬ d.length > 21 := by omega
        simp only [if_neg h21]
        by_cases h20 : d.length = 20
        · have hp : ¬ ¬ (o.signature.length ≤ 28 ∧ ∃ d', some d = some d' ∧ d'.length = 20) :=
            not_not_intro ⟨by omega, d, rfl, h20⟩
          rw [if_neg (by simpa using h20), if_neg hp]
          simp only [ne_eq, Option.some.injEq]
          split <;> rfl
        · rw [if_pos h20, if_pos (by rintro ⟨-, d', hd', h⟩; cases hd'; exact h20 h)]

/-- The answer is that of the first cause, and otherwise that of the handler. -/
theorem answer_of_first {L : Lib} {req : HttpRequest} {ps : List Parameter} (hrec : Received L req ps)
    {cfg : Cfg} (hno : ¬ Overflows cfg ps) (now : Nat) (e : Expectation) {r : Option Nat}
    (h : FirstCause (refusals L now req ps e) r) :
    (∀ c, r = some c → ∀ f, e.answer L cfg (some now) req f = .ok (.ofStatus c)) ∧
    (r = none → ∃ o, ∀ f, e.answer L cfg (some now) req f = .ok (f (sortPairs ps) o)) := by
  obtain ⟨cb, -, -, hv⟩ := Server.verifyAndThen_of_received hrec
  have hv := hv cfg (some now) e.client e.token e.verifier
  unfold Expectation.answer
  have code : ∀ {c : Nat}, r = some c →
      (∀ f, Server.verifyAndThen L cfg (some now) req e.client e.token e.verifier f =
        .ok (.ofStatus c)) →
      (∀ c, r = some c → ∀ f, Server.verifyAndThen L cfg (some now) req e.client e.token e.verifier f =
        .ok (.ofStatus c)) ∧
      (r = none → ∃ o, ∀ f, Server.verifyAndThen L cfg (some now) req e.client e.token e.verifier f =
        .ok (f (sortPairs ps) o)) := by
    rintro c rfl h
    exact ⟨by rintro c ⟨⟩; exact h, by rintro ⟨⟩⟩
  simp only [refusals, firstCause_cons, firstCause_nil, absent_iff, ← first_iff, not_u64] at h
  rcases h with ⟨h, rfl⟩ | ⟨n1, h⟩
  · exact code rfl (by simpa only [Server.readParams, h] using hv)
  obtain ⟨key, hkey⟩ := Option.ne_none_iff_exists'.mp n1
  rcases h with ⟨h, rfl⟩ | ⟨n2, h⟩
  · exact code rfl (by simpa only [Server.readParams, hkey, h] using hv)
  obtain ⟨sig, hsig⟩ := Option.ne_none_iff_exists'.mp n2
  rcases h with ⟨h, rfl⟩ | ⟨n3, h⟩
  · exact code rfl (by simpa only [Server.readParams, hkey, hsig, h] using hv)
  obtain ⟨method, hmethod⟩ := Option.ne_none_iff_exists'.mp n3
  rcases h with ⟨⟨v, h, hp⟩, rfl⟩ | ⟨n4, h⟩
  · exact code rfl (by simpa only [Server.readParams, hkey, hsig, hmethod, h, hp] using hv)
  -- the parameters can be read
  obtain ⟨o, hrp⟩ : ∃ o, Server.readParams cb (fun k => first k (sortPairs ps)) = .ok o := by
    unfold Server.readParams
    simp only [hkey, hsig, hmethod]
    cases hts : first b!"oauth_timestamp" (sortPairs ps) with
    | none => exact ⟨_, rfl⟩
    | some v =>
      cases hp : Server.parseU64 v with
      | none => exact absurd ⟨v, hts, hp⟩ n4
      | some t => exact ⟨_, by simp only [hp]; rfl⟩
  obtain ⟨r1, r2, r3, r4, r5, r6, -, r8⟩ := readParams_ok hrp
  simp only [hrp] at hv
  rw [hkey] at r1
  rw [hsig] at r2
  rw [hmethod] at r3
  cases r1
  cases r2
  cases r3
  have hts : ∀ t, o.timestamp = some t → Server.addWindow cfg t = .ok ((t + 30) % 2 ^ 64) := by
    intro t ht
    rcases r8 with ⟨h1, -⟩ | ⟨v, t', h1, h2, h3⟩
    · rw [h1] at ht; cases ht
    · rw [h3] at ht
      cases ht
      unfold Server.addWindow
      split
      · next hlt => rw [Nat.mod_eq_of_lt hlt]
      · next hlt =>
        split
        · next hd =>
          exact absurd ⟨hd, exists_leastIs.mpr ⟨_, (first_iff _ _ _).mp hkey⟩,
            exists_leastIs.mpr ⟨_, (first_iff _ _ _).mp hsig⟩,
            exists_leastIs.mpr ⟨_, (first_iff _ _ _).mp hmethod⟩, v, t, (first_iff _ _ _).mp h1, h2,
            by omega⟩ hno
        · rfl
  rcases h with ⟨⟨v, t, h1, h2, h3⟩, rfl⟩ | ⟨n5, h⟩
  · have ho : o.timestamp = some t := by
      rcases r8 with ⟨-, h⟩ | ⟨v', t', h4, h5, h6⟩
      · rw [h1] at h; cases h
      · rw [h1] at h4
        cases h4
        replace h5 := (Server.parseU64_iff _ _).mpr h5
        rw [(Server.parseU64_iff _ _).mpr h2] at h5
        cases h5
        exact h6
    have hi : Server.inner L cfg (some now) req (sortPairs ps) o e.client e.token e.verifier =
        .ok (.error 401) := by
      unfold Server.inner Server.checkTimestamp
      simp only [ho, hts t ho, bind, Except.bind, if_pos h3]
      rfl
    exact code rfl (by simpa only [hi] using hv)
  have htime : Server.checkTimestamp cfg now o = .ok (.ok ()) := by
    unfold Server.checkTimestamp
    cases ho : o.timestamp with
    | none => rfl
    | some t =>
      have : ¬ (t + 30) % 2 ^ 64 < now := by
        intro hlt
        rcases r8 with ⟨h1, -⟩ | ⟨v, t', h1, h2, h3⟩
        · rw [h1] at ho; cases ho
        · rw [h3] at ho
          cases ho
          exact n5 ⟨v, t, h1, h2, hlt⟩
      simp only [hts t ho, bind, Except.bind, if_neg this]
      rfl
  have hinner : Server.inner L cfg (some now) req (sortPairs ps) o e.client e.token e.verifier =
      Server.andThen (Server.checkPresence e.token o.token) (Server.andThen
        (Server.checkPresence e.verifier o.verifier) (do
          let s ← if o.signatureMethod = b!"HMAC-SHA1" then
              Server.checkHmacSha1 L req (sortPairs ps) o e.client e.token
            else if o.signatureMethod = b!"PLAINTEXT" then .ok Server.checkPlaintext
            else .ok (.error 400)
          Server.andThen s (.ok (Server.checkIdentifiers o e.client e.token e.verifier)))) := by
    unfold Server.inner
    simp only [htime]
    rfl
  rw [← r4, ← r5, ← r6] at h
  simp only [hinner] at hv
  clear hinner
  rcases h with ⟨⟨h1, h2⟩, rfl⟩ | ⟨n6, h⟩
  · obtain ⟨t, ht⟩ := Option.ne_none_iff_exists'.mp h1
    exact code rfl (by simpa only [ht, h2, Server.checkPresence, Server.andThen] using hv)
  rcases h with ⟨⟨h1, h2⟩, rfl⟩ | ⟨n7, h⟩
  · obtain ⟨t, ht⟩ := Option.ne_none_iff_exists'.mp h2
    exact code rfl (by simpa only [h1, ht, Server.checkPresence, Server.andThen] using hv)
  have p1 : Server.checkPresence e.token o.token = .ok () :=
    checkPresence_ok n6 n7
  rw [p1] at hv
  rcases h with ⟨⟨h1, h2⟩, rfl⟩ | ⟨n8, h⟩
  · obtain ⟨t, ht⟩ := Option.ne_none_iff_exists'.mp h1
    exact code rfl (by simpa only [ht, h2, Server.checkPresence, Server.andThen] using hv)
  rcases h with ⟨⟨h1, h2⟩, rfl⟩ | ⟨n9, h⟩
  · obtain ⟨t, ht⟩ := Option.ne_none_iff_exists'.mp h2
    exact code rfl (by simpa only [h1, ht, Server.checkPresence, Server.andThen] using hv)
  have p2 : Server.checkPresence e.verifier o.verifier = .ok () :=
    checkPresence_ok n8 n9
  rw [p2] at hv
  simp only [Server.andThen] at hv
  rw [hsig, hmethod] at h
  simp only [Option.some.injEq, exists_eq_left'] at h
  rcases h with ⟨⟨h1, h2⟩, rfl⟩ | ⟨n10, h⟩
  · refine code rfl fun f => ?_
    rw [hv, if_neg h1, if_neg h2]
    rfl
  have hcode := checkHmacSha1_code L req ps o e
  have hmac : ∀ {c : Nat}, o.signatureMethod = b!"HMAC-SHA1" →
      Server.checkHmacSha1 L req (sortPairs ps) o e.client e.token = .ok (.error c) →
      ∀ f, Server.verifyAndThen L cfg (some now) req e.client e.token e.verifier f =
        .ok (.ofStatus c) := by
    intro c h1 h2 f
    rw [hv, if_pos h1, h2]
    rfl
  have htn : first b!"oauth_timestamp" (sortPairs ps) = none ↔ o.timestamp = none := by
    rcases r8 with ⟨h1, h2⟩ | ⟨v, t, h1, -, h2⟩
    · simp [h1, h2]
    · simp [h1, h2]
  rw [htn] at h
  rcases h with ⟨⟨h1, h2⟩, rfl⟩ | ⟨n11, h⟩
  · refine code rfl (hmac h1 ?_)
    rw [hcode, if_pos (by simpa using h2)]
  have nn : o.signatureMethod = b!"HMAC-SHA1" → ¬ (o.timestamp.isNone || o.nonce.isNone) = true :=
    fun hm h => n11 ⟨hm, by simpa using h⟩
  rcases h with ⟨⟨h1, h2⟩, rfl⟩ | ⟨n12, h⟩
  · refine code rfl (hmac h1 ?_)
    rw [hcode, if_neg (nn h1), if_pos h2]
  rcases h with ⟨⟨h1, h2⟩, rfl⟩ | ⟨n13, h⟩
  · refine code rfl (hmac h1 ?_)
    rw [hcode, if_neg (nn h1), if_neg fun h => n12 ⟨h1, h⟩, if_pos h2]
  have hv' : ∀ f, Server.verifyAndThen L cfg (some now) req e.client e.token e.verifier f =
      match Server.checkIdentifiers o e.client e.token e.verifier with
      | .ok () => .ok (f (sortPairs ps) o)
      | .error c => .ok (.ofStatus c) := by
    intro f
    rw [hv]
    by_cases hm : o.signatureMethod = b!"HMAC-SHA1"
    · rw [if_pos hm, hcode, if_neg (nn hm), if_neg fun h => n12 ⟨hm, h⟩, if_neg fun h => n13 ⟨hm, h⟩]
      simp only [bind, Except.bind]
      cases Server.checkIdentifiers o e.client e.token e.verifier <;> rfl
    · rw [if_neg hm, if_pos (Classical.not_not.mp fun h => n10 ⟨hm, h⟩)]
      simp only [bind, Except.bind, Server.checkPlaintext]
      cases Server.checkIdentifiers o e.client e.token e.verifier <;> rfl
  rw [checkIdentifiers_code p1 p2] at hv'
  rw [hkey] at h
  simp only [Option.some.injEq] at h
  rcases h with ⟨h1, rfl⟩ | ⟨n14, h⟩
  · exact code rfl (fun f => by
      rw [hv', if_neg fun h => h1 h.1])
  rcases h with ⟨h1, rfl⟩ | ⟨n15, h⟩
  · exact code rfl (fun f => by
      rw [hv', if_neg fun h => h1 h.2.1])
  rcases h with ⟨h1, rfl⟩ | ⟨n16, rfl⟩
  · exact code rfl (fun f => by
      rw [hv', if_neg fun h => h1 h.2.2])
  rw [if_pos ⟨Classical.not_not.mp n14, Classical.not_not.mp n15, Classical.not_not.mp n16⟩] at hv'
  exact ⟨by rintro c ⟨⟩, fun _ => ⟨o, hv'⟩⟩

/-- C83, exactly: the status code with which a request is refused. -/
theorem C83_refused_iff {L : Lib} {req : HttpRequest} {ps : List Parameter} (hrec : Received L req ps)
    {cfg : Cfg} (hno : ¬ Overflows cfg ps) (now : Nat) (e : Expectation) (c : Nat) :
    (∀ f, e.answer L cfg (some now) req f = .ok (.ofStatus c)) ↔
      FirstCause (refusals L now req ps e) (some c) := by
  obtain ⟨r, hr⟩ := firstCause_total (refusals L now req ps e)
  obtain ⟨h1, h2⟩ := answer_of_first hrec hno now e hr
  refine ⟨fun h => ?_, fun h => (answer_of_first hrec hno now e h).1 c rfl⟩
  cases r with
  | none =>
    obtain ⟨o, ho⟩ := h2 rfl
    have := ho fun _ _ => ⟨c + 1, []⟩
    rw [h] at this
    simp [Response.ofStatus] at this
  | some c' =>
    have := h1 c' rfl fun _ _ => ⟨0, []⟩
    rw [h] at this
    simp only [Response.ofStatus, Except.ok.injEq, Response.mk.injEq, and_true] at this
    rw [this]
    exact hr

/-- C83, exactly: the handler is run if there is nothing to refuse the request for. -/
theorem C83_handled_iff {L : Lib} {req : HttpRequest} {ps : List Parameter} (hrec : Received L req ps)
    {cfg : Cfg} (hno : ¬ Overflows cfg ps) (now : Nat) (e : Expectation) :
    (∃ o, ∀ f, e.answer L cfg (some now) req f = .ok (f (sortPairs ps) o)) ↔
      ∀ p ∈ refusals L now req ps e, ¬ p.1 := by
  rw [← firstCause_none]
  obtain ⟨r, hr⟩ := firstCause_total (refusals L now req ps e)
  obtain ⟨h1, h2⟩ := answer_of_first hrec hno now e hr
  refine ⟨fun ⟨o, h⟩ => ?_, fun h => (answer_of_first hrec hno now e h).2 rfl⟩
  cases r with
  | none => exact hr
  | some c =>
    have := h fun _ _ => ⟨c + 1, []⟩
    rw [h1 c rfl] at this
    simp [Response.ofStatus] at this

/-- What RFC 5849 (3.2) has a server answer 400 to: parameters that are missing, not supported or given
more than once. A signature that is no signature at all is counted among them. -/
inductive BadRequest (L : Lib) (ps : List Parameter) (e : Expectation) : Prop
  | missing (name : Bytes) : name ∈ [b!"oauth_consumer_key", b!"oauth_signature_method",
      b!"oauth_signature"] → Absent ps name → BadRequest L ps e
  | missingToken : e.token ≠ none → Absent ps b!"oauth_token" → BadRequest L ps e
  | missingVerifier : e.verifier ≠ none → Absent ps b!"oauth_verifier" → BadRequest L ps e
  | missingTime (name m : Bytes) : name ∈ [b!"oauth_timestamp", b!"oauth_nonce"] →
      (b!"oauth_signature_method", m) ∈ ps → m ≠ b!"PLAINTEXT" → Absent ps name → BadRequest L ps e
  | unexpectedToken : e.token = none → ¬ Absent ps b!"oauth_token" → BadRequest L ps e
  | unexpectedVerifier : e.verifier = none → ¬ Absent ps b!"oauth_verifier" → BadRequest L ps e
  | method (m : Bytes) : (b!"oauth_signature_method", m) ∈ ps → m ≠ b!"HMAC-SHA1" →
      m ≠ b!"PLAINTEXT" → BadRequest L ps e
  | timestamp (v : Bytes) : (b!"oauth_timestamp", v) ∈ ps → (∀ t, ¬ U64Text v t) → BadRequest L ps e
  | version (v : Bytes) : (b!"oauth_version", v) ∈ ps → v ≠ b!"1.0" → BadRequest L ps e
  | duplicated (name : Bytes) : name ∈ protocolNames → 2 ≤ (ps.map (·.1)).count name →
      BadRequest L ps e
  | signature (s : Bytes) : (b!"oauth_signature_method", b!"HMAC-SHA1") ∈ ps →
      (b!"oauth_signature", s) ∈ ps →
      ¬ (s.length ≤ 28 ∧ ∃ d, L.base64Decode s = some d ∧ d.length = 20) → BadRequest L ps e

/-- What RFC 5849 (3.2) has a server answer 401 to: credentials, signature or timestamp not valid. -/
inductive Unauthorized (L : Lib) (now : Nat) (req : HttpRequest) (ps : List Parameter)
    (e : Expectation) : Prop
  | client (k : Bytes) : (b!"oauth_consumer_key", k) ∈ ps → k ≠ e.client.identifier →
      Unauthorized L now req ps e
  | token (t : Bytes) : (b!"oauth_token", t) ∈ ps → some t ≠ e.token.map (·.identifier) →
      Unauthorized L now req ps e
  | verifier (v : Bytes) : (b!"oauth_verifier", v) ∈ ps → some v ≠ e.verifier →
      Unauthorized L now req ps e
  | old (v : Bytes) (t : Nat) : (b!"oauth_timestamp", v) ∈ ps → U64Text v t → t + 30 < now →
      Unauthorized L now req ps e
  | signature (m s : Bytes) : (b!"oauth_signature_method", m) ∈ ps → (b!"oauth_signature", s) ∈ ps →
      ¬ SignatureMatches L req ps e.client e.token m s → Unauthorized L now req ps e

/-- C83, the claim: the example server answers 400 and 401 to requests for which RFC 5849 says so, and
runs the handler for others only. -/
def C83_claim : Prop :=
  ∀ (L : Lib) (cfg : Cfg) (now : Nat) (req : HttpRequest) (ps : List Parameter) (e : Expectation),
    Received L req ps →
    ((∀ f, e.answer L cfg (some now) req f = .ok (.ofStatus 400)) → BadRequest L ps e) ∧
    ((∀ f, e.answer L cfg (some now) req f = .ok (.ofStatus 401)) → Unauthorized L now req ps e) ∧
    ((∃ o, ∀ f, e.answer L cfg (some now) req f = .ok (f (sortPairs ps) o)) →
      ¬ BadRequest L ps e ∧ ¬ Unauthorized L now req ps e)

theorem firstCause_mem {l : List (Prop × Nat)} {c : Nat} (h : FirstCause l (some c)) :
    ∃ P, (P, c) ∈ l ∧ P := by
  generalize hr : some c = r at h
  induction h with
  | none => cases hr
  | here h => cases hr; exact ⟨_, .head _, h⟩
  | there _ _ ih => obtain ⟨P, h1, h2⟩ := ih hr; exact ⟨P, .tail _ h1, h2⟩

theorem value_unique {ps : List Parameter} {name v v' : Bytes}
    (h : (ps.map (·.1)).count name ≤ 1) (h1 : (name, v) ∈ ps) (h2 : (name, v') ∈ ps) : v = v' := by
  induction ps with
  | nil => cases h1
  | cons p ps ih =>
    rw [List.map_cons, List.count_cons] at h
    rcases List.mem_cons.mp h1 with rfl | m1
    · rcases List.mem_cons.mp h2 with e | m2
      · cases e; rfl
      · have : 0 < (ps.map (·.1)).count name :=
          List.count_pos_iff.mpr (List.mem_map.mpr ⟨_, m2, rfl⟩)
        simp at h
        omega
    · rcases List.mem_cons.mp h2 with rfl | m2
      · have : 0 < (ps.map (·.1)).count name :=
          List.count_pos_iff.mpr (List.mem_map.mpr ⟨_, m1, rfl⟩)
        simp at h
        omega
      · exact ih (by omega) m1 m2

theorem leastIs_of_once {ps : List Parameter} {name v : Bytes} (h : (ps.map (·.1)).count name ≤ 1)
    (hm : (name, v) ∈ ps) : LeastIs ps name (some v) :=
  ⟨hm, fun v' hv' => by rw [value_unique h hm hv']; exact List.le_refl _⟩

theorem not_leastIs {ps : List Parameter} {name : Bytes} {o : Option Bytes} (h : ¬ LeastIs ps name o) :
    (o ≠ none ∧ Absent ps name) ∨ ∃ v, (name, v) ∈ ps ∧ some v ≠ o := by
  by_cases ha : Absent ps name
  · exact .inl ⟨fun ho => h (ho ▸ ha), ha⟩
  · have : ∃ p ∈ ps, p.1 = name := by
      simpa [Absent] using ha
    obtain ⟨v, hv⟩ := exists_leastIs.mp this
    exact .inr ⟨v, hv.1, fun ho => h (ho ▸ hv)⟩

/-- C83, where it holds. A missing consumer key, token or verifier is answered 401, and in release builds
also a timestamp just below 2^64; requests with parameters given twice or with another version of the
protocol are let through, and so are wrong `PLAINTEXT` signatures. -/
theorem C83_partial {L : Lib} {req : HttpRequest} {ps : List Parameter} (hrec : Received L req ps)
    {cfg : Cfg} (hno : ¬ Overflows cfg ps) (now : Nat) (e : Expectation) :
    ((∀ f, e.answer L cfg (some now) req f = .ok (.ofStatus 400)) → BadRequest L ps e) ∧
    ((∀ f, e.answer L cfg (some now) req f = .ok (.ofStatus 401)) →
      ¬ Absent ps b!"oauth_consumer_key" →
      (e.token ≠ none → ¬ Absent ps b!"oauth_token") →
      (e.verifier ≠ none → ¬ Absent ps b!"oauth_verifier") →
      (∀ v t, (b!"oauth_timestamp", v) ∈ ps → U64Text v t → t + 30 < 2 ^ 64) →
      Unauthorized L now req ps e) ∧
    ((∃ o, ∀ f, e.answer L cfg (some now) req f = .ok (f (sortPairs ps) o)) →
      (∀ name ∈ protocolNames, (ps.map (·.1)).count name ≤ 1) →
      (∀ v, (b!"oauth_version", v) ∈ ps → v = b!"1.0") →
      (∀ s, (b!"oauth_signature_method", b!"PLAINTEXT") ∈ ps → (b!"oauth_signature", s) ∈ ps →
        s = sharedKey e.client e.token) →
      ¬ BadRequest L ps e ∧ ¬ Unauthorized L now req ps e) := by
  refine ⟨fun h => ?_, fun h k1 k2 k3 k4 => ?_, fun h honce hver hplain => ?_⟩
  · rw [C83_refused_iff hrec hno] at h
    obtain ⟨P, hP, h⟩ := firstCause_mem h
    simp only [refusals, List.mem_cons, Prod.mk.injEq, List.not_mem_nil, or_false, Nat.reduceEqDiff,
      and_false, and_true, or_false, false_or] at hP
    rcases hP with rfl | rfl | rfl | rfl | rfl | rfl | rfl | rfl
    · exact .missing b!"oauth_signature" (by simp) h
    · exact .missing b!"oauth_signature_method" (by simp) h
    · obtain ⟨v, hv, ht⟩ := h
      exact .timestamp v hv.1 ht
    · exact .unexpectedToken h.1 h.2
    · exact .unexpectedVerifier h.1 h.2
    · obtain ⟨h1, h2⟩ := h
      by_cases ha : Absent ps b!"oauth_signature_method"
      · exact .missing b!"oauth_signature_method" (by simp) ha
      · obtain ⟨m, hm⟩ := exists_leastIs.mp (by simpa [Absent] using ha :
          ∃ p ∈ ps, p.1 = b!"oauth_signature_method")
        exact .method m hm.1 (fun e => h1 (e ▸ hm)) (fun e => h2 (e ▸ hm))
    · rcases h.2 with h2 | h2
      · exact .missingTime b!"oauth_timestamp" _ (by simp) h.1.1 (by decide) h2
      · exact .missingTime b!"oauth_nonce" _ (by simp) h.1.1 (by decide) h2
    · obtain ⟨h1, s, h2, h3⟩ := h
      exact .signature s h1.1 h2.1 h3
  · rw [C83_refused_iff hrec hno] at h
    obtain ⟨P, hP, h⟩ := firstCause_mem h
    simp only [refusals, List.mem_cons, Prod.mk.injEq, List.not_mem_nil, or_false, Nat.reduceEqDiff,
      and_false, and_true, or_false, false_or] at hP
    rcases hP with rfl | rfl | rfl | rfl | rfl | rfl | rfl | rfl
    · exact absurd h k1
    · obtain ⟨v, t, hv, ht, hlt⟩ := h
      have := k4 v t hv.1 ht
      exact .old v t hv.1 ht (by rw [Nat.mod_eq_of_lt this] at hlt; exact hlt)
    · exact absurd h.2 (k2 h.1)
    · exact absurd h.2 (k3 h.1)
    · obtain ⟨h1, s, h2, h3⟩ := h
      refine .signature _ s h1.1 h2.1 ?_
      rintro (⟨-, h⟩ | ⟨h, -⟩)
      · exact h3 h
      · exact absurd h (by decide)
    · rcases not_leastIs h with ⟨-, ha⟩ | ⟨k, hk, hne⟩
      · exact absurd ha k1
      · exact .client k hk fun he => hne (he ▸ rfl)
    · rcases not_leastIs h with ⟨hs, ha⟩ | ⟨t, ht, hne⟩
      · exact absurd ha (k2 fun hn => hs (by rw [hn]; rfl))
      · exact .token t ht hne
    · rcases not_leastIs h with ⟨hs, ha⟩ | ⟨v, hv, hne⟩
      · exact absurd ha (k3 hs)
      · exact .verifier v hv hne
  · rw [C83_handled_iff hrec hno] at h
    simp only [refusals, List.mem_cons, List.not_mem_nil, or_false, forall_eq_or_imp, forall_eq] at h
    obtain ⟨c1, c2, c3, c4, c5, c6, c7, c8, c9, c10, c11, c12, c13, c14, c15, c16⟩ := h
    have least : ∀ {name v : Bytes}, name ∈ protocolNames → (name, v) ∈ ps →
        LeastIs ps name (some v) := fun hn hm => leastIs_of_once (honce _ hn) hm
    constructor
    · intro hb
      cases hb with
      | missing name hn ha =>
        simp only [List.mem_cons, List.not_mem_nil, or_false] at hn
        rcases hn with rfl | rfl | rfl
        · exact c1 ha
        · exact c3 ha
        · exact c2 ha
      | missingToken h1 h2 => exact c6 ⟨h1, h2⟩
      | missingVerifier h1 h2 => exact c8 ⟨h1, h2⟩
      | missingTime name m hn hm hp ha =>
        have hl := least (by decide) hm
        have : LeastIs ps b!"oauth_signature_method" (some b!"HMAC-SHA1") :=
          Classical.not_not.mp fun hh => c10 ⟨hh, fun hh' => hp (Option.some.inj (leastIs_unique hl hh'))⟩
        simp only [List.mem_cons, List.not_mem_nil, or_false] at hn
        rcases hn with rfl | rfl
        · exact c11 ⟨this, .inl ha⟩
        · exact c11 ⟨this, .inr ha⟩
      | unexpectedToken h1 h2 => exact c7 ⟨h1, h2⟩
      | unexpectedVerifier h1 h2 => exact c9 ⟨h1, h2⟩
      | method m hm h1 h2 =>
        have hl := least (by decide) hm
        exact c10 ⟨fun h => h1 (Option.some.inj (leastIs_unique hl h)),
          fun h => h2 (Option.some.inj (leastIs_unique hl h))⟩
      | timestamp v hv ht => exact c4 ⟨v, least (by decide) hv, ht⟩
      | version v hv hne => exact hne (hver v hv)
      | duplicated name hn h2 => have := honce name hn; omega
      | signature s hm hs hd => exact c12 ⟨least (by decide) hm, s, least (by decide) hs, hd⟩
    · intro hu
      cases hu with
      | client k hk hne =>
        exact c14 fun h => hne (Option.some.inj (leastIs_unique (least (by decide) hk) h))
      | token t ht hne => exact c15 fun h => hne (leastIs_unique (least (by decide) ht) h)
      | verifier v hv hne => exact c16 fun h => hne (leastIs_unique (least (by decide) hv) h)
      | old v t hv ht hlt =>
        refine c5 ⟨v, t, least (by decide) hv, ht, ?_⟩
        exact Nat.lt_of_le_of_lt (Nat.mod_le _ _) hlt
      | signature m s hm hs hne =>
        by_cases hp : m = b!"PLAINTEXT"
        · subst hp
          exact hne (.inr ⟨rfl, hplain s hm hs⟩)
        · have hl := least (by decide) hm
          have hh : LeastIs ps b!"oauth_signature_method" (some b!"HMAC-SHA1") :=
            Classical.not_not.mp fun hh => c10 ⟨hh, fun hh' => hp (Option.some.inj (leastIs_unique hl hh'))⟩
          have hm' : m = b!"HMAC-SHA1" := Option.some.inj (leastIs_unique hl hh)
          refine c13 ⟨hh, s, least (by decide) hs, fun hd => hne (.inl ⟨hm', hd⟩)⟩

/-- A request without any parameters. -/
def bare : HttpRequest where
  method := b!"GET"
  path := b!"/echo"
  query := none
  authorization := []
  contentType := none
  body := some []

theorem bare_received : Received (Server.exampleLib true) bare [] :=
  received_of (form := []) rfl (header := []) (by decide +kernel) (by decide +kernel)

/-- C83 is false: that the consumer key is missing is answered 401. -/
theorem C83_violated : ¬ C83_claim := by
  intro h
  have := (h _ ⟨true, true, .std⟩ 0 bare [] ⟨Server.CLIENT, some Server.TOKEN, none⟩ bare_received).2.1
    (by
      refine (C83_refused_iff bare_received ?_ _ _ _).mpr (.here (by simp [Absent]))
      rintro ⟨-, ⟨p, hp, -⟩, -⟩
      cases hp)
  cases this with
  | client _ h => cases h
  | token _ h => cases h
  | verifier _ h => cases h
  | old _ _ h => cases h
  | signature _ _ h => cases h

/-- A request of version 2.0 of the protocol, with two nonces. -/
def twoNonces : HttpRequest where
  method := b!"GET"
  path := b!"/echo"
  query := none
  authorization := [b!"OAuth oauth_consumer_key=client,oauth_token=token,oauth_nonce=a,oauth_nonce=b,oauth_version=2.0,oauth_signature_method=PLAINTEXT,oauth_signature=client_secret%26token_secret"]
  contentType := none
  body := some []

def twoNoncesParams : List Parameter :=
  [(b!"oauth_consumer_key", b!"client"), (b!"oauth_token", b!"token"), (b!"oauth_nonce", b!"a"),
    (b!"oauth_nonce", b!"b"), (b!"oauth_version", b!"2.0"), (b!"oauth_signature_method", b!"PLAINTEXT"),
    (b!"oauth_signature", b!"client_secret&token_secret")]

theorem twoNonces_received : Received (Server.exampleLib true) twoNonces twoNoncesParams :=
  received_of (form := []) rfl (header := twoNoncesParams) (by decide +kernel) (by decide +kernel)

/-- C83 is false: both are let through, although the signature is right and nobody is to be kept out. -/
theorem C83_violated_handled :
    (∃ o, ∀ f, Expectation.answer ⟨Server.CLIENT, some Server.TOKEN, none⟩ (Server.exampleLib true)
      ⟨true, true, .std⟩ (some 1700000000) twoNonces f = .ok (f (sortPairs twoNoncesParams) o)) ∧
    BadRequest (Server.exampleLib true) twoNoncesParams ⟨Server.CLIENT, some Server.TOKEN, none⟩ ∧
    ¬ Unauthorized (Server.exampleLib true) 1700000000 twoNonces twoNoncesParams
      ⟨Server.CLIENT, some Server.TOKEN, none⟩ := by
  have least : ∀ {n : Bytes} {o : Option Bytes}, first n (sortPairs twoNoncesParams) = o →
      LeastIs twoNoncesParams n o := fun h => (first_iff _ _ _).mp h
  refine ⟨(C44_accepted_iff twoNonces_received _ _ _ _ _).mpr ⟨least (by decide +kernel),
    least (by decide +kernel), least (by decide +kernel), .inl (least (by decide +kernel)),
    b!"client_secret&token_secret", b!"PLAINTEXT", least (by decide +kernel), least (by decide +kernel),
    .inl rfl⟩, .version b!"2.0" (by decide) (by decide), ?_⟩
  intro h
  cases h with
  | client k h1 h2 =>
    have : k = b!"client" := by simpa [twoNoncesParams] using h1
    exact h2 this
  | token t h1 h2 =>
    have : t = b!"token" := by simpa [twoNoncesParams] using h1
    exact h2 (congrArg some this)
  | verifier v h1 => simp [twoNoncesParams] at h1
  | old v t h1 => simp [twoNoncesParams] at h1
  | signature m s h1 h2 h3 =>
    refine h3 (.inr ⟨by simpa [twoNoncesParams] using h1, ?_⟩)
    have : s = b!"client_secret&token_secret" := by simpa [twoNoncesParams] using h2
    rw [this]
    decide

/-- Several reasons for a refusal: the first counts. A request with an unknown method and an old
timestamp. -/
def oldAndUnknown : HttpRequest where
  method := b!"GET"
  path := b!"/echo"
  query := none
  authorization := [b!"OAuth oauth_consumer_key=client,oauth_token=token,oauth_timestamp=1,oauth_signature_method=MD5,oauth_signature=x"]
  contentType := none
  body := some []

example : (Server.service (Server.exampleLib true) ⟨true, true, .std⟩ (some 1700000000)
      oldAndUnknown).toOption = some (.ofStatus 401) ∧
    (Server.service (Server.exampleLib true) ⟨true, true, .std⟩ (some 31) oldAndUnknown).toOption =
      some (.ofStatus 400) := by decide +kernel

theorem tampered_no_overflow :
    ¬ Overflows ⟨true, true, .std⟩ (signedOnceParams ++ [(b!"admin", b!"1")]) := by
  rintro ⟨-, -, -, -, v, t, h1, h2, h3⟩
  have hv : some v = some b!"1700000000" :=
    leastIs_unique h1 ((first_iff _ _ _).mp (by decide +kernel))
  cases hv
  replace h2 := (Server.parseU64_iff _ _).mpr h2
  have : Server.parseU64 b!"1700000000" = some 1700000000 := by decide +kernel
  rw [this] at h2
  cases h2
  omega

/-- The request that was tampered with is answered 401, for its signature: nothing before that applies. -/
theorem tampered_401 : ∀ f, Expectation.answer ⟨Server.CLIENT, some Server.TOKEN, none⟩ (Server.exampleLib true)
    ⟨true, true, .std⟩ (some 1700000000) tampered f = .ok (.ofStatus 401) := by
  intro f
  have hna : ¬ Accepted (Server.exampleLib true) ⟨true, true, .std⟩ 1700000000 tampered
      (signedOnceParams ++ [(b!"admin", b!"1")]) Server.CLIENT (some Server.TOKEN) none := by
    rintro ⟨-, -, -, -, s, m, h1, h2, h3⟩
    have hm : some m = some b!"HMAC-SHA1" :=
      leastIs_unique h2 ((first_iff _ _ _).mp (by decide +kernel))
    have hs : some s = some b!"9rYGahrF9h+pj4Nfm4DrmFwWjak=" :=
      leastIs_unique h1 ((first_iff _ _ _).mp (by decide +kernel))
    cases hm
    cases hs
    rcases h3 with h3 | ⟨-, -, -, -, h3⟩
    · exact absurd h3 (by decide)
    · exact absurd h3 (by decide +kernel)
  obtain ⟨c, hc, h⟩ := C44_refused tampered_received hna tampered_no_overflow
  have h401 : (Server.verifyAndThen (Server.exampleLib true) ⟨true, true, .std⟩ (some 1700000000)
      tampered Server.CLIENT (some Server.TOKEN) none fun _ _ => ⟨200, []⟩).toOption.map (·.status) =
        some 401 := by decide +kernel
  rw [h] at h401
  cases Option.some.inj h401
  exact h f

/-- `C83_partial` for it. -/
example : Unauthorized (Server.exampleLib true) 1700000000 tampered
    (signedOnceParams ++ [(b!"admin", b!"1")]) ⟨Server.CLIENT, some Server.TOKEN, none⟩ := by
  refine (C83_partial tampered_received tampered_no_overflow _ _).2.1 tampered_401 ?_ ?_ ?_ ?_
  · exact fun h => h (b!"oauth_consumer_key", b!"client") (by decide) rfl
  · exact fun _ h => h (b!"oauth_token", b!"token") (by decide) rfl
  · exact fun h => absurd rfl h
  · intro v t hv ht
    have : v = b!"1700000000" := by simpa [signedOnceParams] using hv
    subst this
    replace ht := (Server.parseU64_iff _ _).mpr ht
    have : Server.parseU64 b!"1700000000" = some 1700000000 := by decide +kernel
    rw [this] at ht
    cases ht
    omega

/-- The exact statements for it. -/
example : FirstCause (refusals (Server.exampleLib true) 1700000000 tampered
    (signedOnceParams ++ [(b!"admin", b!"1")]) ⟨Server.CLIENT, some Server.TOKEN, none⟩) (some 401) :=
  (C83_refused_iff tampered_received tampered_no_overflow _ _ _).mp tampered_401
example : ∃ p ∈ refusals (Server.exampleLib true) 1700000000 tampered
    (signedOnceParams ++ [(b!"admin", b!"1")]) ⟨Server.CLIENT, some Server.TOKEN, none⟩, p.1 := by
  apply Classical.byContradiction
  intro h
  obtain ⟨o, ho⟩ := (C83_handled_iff tampered_received tampered_no_overflow _ _).mpr
    fun p hp hp1 => h ⟨p, hp, hp1⟩
  have := (ho fun _ _ => ⟨200, []⟩).symm.trans (tampered_401 _)
  cases this

/-! ### C70, exactly -/

theorem firstCause_append {a b : List (Prop × Nat)} {r : Option Nat} :
    FirstCause (a ++ b) r ↔ (r ≠ none ∧ FirstCause a r) ∨ (FirstCause a none ∧ FirstCause b r) := by
  induction a with
  | nil =>
    simp only [List.nil_append, firstCause_nil, true_and]
    exact ⟨.inr, by rintro (⟨h1, h2⟩ | h); exacts [absurd h2 h1, h]⟩
  | cons p a ih =>
    obtain ⟨P, c⟩ := p
    simp only [List.cons_append, firstCause_cons, ih, reduceCtorEq, and_false, false_or]
    constructor
    · rintro (⟨h, rfl⟩ | ⟨h, ⟨h1, h2⟩ | ⟨h1, h2⟩⟩)
      · exact .inl ⟨by simp, .inl ⟨h, rfl⟩⟩
      · exact .inl ⟨h1, .inr ⟨h, h2⟩⟩
      · exact .inr ⟨⟨h, h1⟩, h2⟩
    · rintro (⟨h1, ⟨h, rfl⟩ | ⟨h, h2⟩⟩ | ⟨⟨h, h1⟩, h2⟩)
      · exact .inl ⟨h, rfl⟩
      · exact .inr ⟨h, .inl ⟨h1, h2⟩⟩
      · exact .inr ⟨h, .inr ⟨h1, h2⟩⟩

theorem refusals_same (L : Lib) (now : Nat) (req : HttpRequest) (ps : List Parameter)
    {e e' : Expectation} (h : e.SameSecrets e') :
    (refusals L now req ps e).take 13 = (refusals L now req ps e').take 13 := by
  have h1 : (e.token = none) = (e'.token = none) := by
    have := congrArg Option.isNone h.token
    simp only [Option.isNone_map] at this
    rw [← Option.isNone_iff_eq_none, this, Option.isNone_iff_eq_none]
  have h2 : (e.verifier = none) = (e'.verifier = none) := by
    have := h.verifier
    rw [← Option.not_isSome_iff_eq_none, this, Option.not_isSome_iff_eq_none]
  have h3 : e.hmac req ps = e'.hmac req ps := by
    unfold Expectation.hmac sharedKey
    rw [h.client, h.token]
  simp only [refusals, List.take_succ_cons, List.take_zero, ne_eq, h1, h2, h3]

/-- C70, exactly: the answer to a request does not depend on the identifiers and the verifier the server
expects if and only if it would be accepted with none, or only to be answered 401 by the handler. -/
theorem C70_iff {L : Lib} {req : HttpRequest} {ps : List Parameter} (hrec : Received L req ps)
    (cfg : Cfg) (now : Nat) (e : Expectation) (f : List Parameter → OAuthParams → Response) :
    (∀ e', e.SameSecrets e' → e'.answer L cfg (some now) req f = e.answer L cfg (some now) req f) ↔
      ∀ e', e.SameSecrets e' → Accepted L cfg now req ps e'.client e'.token e'.verifier →
        e'.answer L cfg (some now) req f = .ok (.ofStatus 401) := by
  by_cases hno : Overflows cfg ps
  · have h : ∀ e' : Expectation, ¬ Accepted L cfg now req ps e'.client e'.token e'.verifier ∧
        e'.answer L cfg (some now) req f = .error .overflow := by
      intro e'
      rcases verify_exact hrec cfg now e'.client e'.token e'.verifier with
        ⟨-, h1, h2⟩ | ⟨h1, -⟩ | ⟨h1, -⟩
      · exact ⟨h1, h2 f⟩
      · exact absurd hno h1
      · exact absurd hno h1
    exact ⟨fun _ e' _ ha => absurd ha (h e').1, fun _ e' _ => by rw [(h e').2, (h e).2]⟩
  have split : ∀ e' : Expectation, refusals L now req ps e' =
      (refusals L now req ps e').take 13 ++ (refusals L now req ps e').drop 13 :=
    fun e' => (List.take_append_drop 13 _).symm
  obtain ⟨r, hr⟩ := firstCause_total ((refusals L now req ps e).take 13)
  cases r with
  | some c =>
    have h : ∀ e', e.SameSecrets e' → ∀ f, e'.answer L cfg (some now) req f = .ok (.ofStatus c) := by
      intro e' hs
      refine (C83_refused_iff hrec hno now e' c).mpr ?_
      rw [split, ← refusals_same L now req ps hs]
      exact firstCause_append.mpr (.inl ⟨by simp, hr⟩)
    refine ⟨fun _ e' hs ha => ?_, fun _ e' hs => by rw [h e' hs f, h e ⟨rfl, rfl, rfl⟩ f]⟩
    obtain ⟨o, ho⟩ := (C44_accepted_iff hrec cfg now _ _ _).mpr ha
    have := h e' hs fun _ _ => ⟨c + 1, []⟩
    unfold Expectation.answer at this
    rw [ho] at this
    simp [Response.ofStatus] at this
  | none =>
    have back : ∀ e', e.SameSecrets e' → (∃ P, (P, 401) ∈ (refusals L now req ps e').drop 13 ∧ P) →
        e'.answer L cfg (some now) req f = .ok (.ofStatus 401) := by
      intro e' hs hP
      refine (C83_refused_iff hrec hno now e' 401).mpr ?_ f
      rw [split, ← refusals_same L now req ps hs]
      refine firstCause_append.mpr (.inr ⟨hr, ?_⟩)
      obtain ⟨P, hP, h⟩ := hP
      simp only [refusals, List.drop_succ_cons, List.drop_zero, List.mem_cons, Prod.mk.injEq, and_true,
        List.not_mem_nil, or_false] at hP ⊢
      simp only [firstCause_cons, and_true]
      by_cases h1 : LeastIs ps b!"oauth_consumer_key" (some e'.client.identifier)
      · refine .inr ⟨not_not_intro h1, ?_⟩
        by_cases h2 : LeastIs ps b!"oauth_token" (e'.token.map (·.identifier))
        · refine .inr ⟨not_not_intro h2, .inl ?_⟩
          rcases hP with rfl | rfl | rfl
          · exact absurd h1 h
          · exact absurd h2 h
          · exact h
        · exact .inl h2
      · exact .inl h1
    have other : ∀ e', e.SameSecrets e' →
        ¬ Accepted L cfg now req ps e'.client e'.token e'.verifier →
        e'.answer L cfg (some now) req f = .ok (.ofStatus 401) := by
      intro e' hs hna
      refine back e' hs (Classical.not_not.mp fun hn => hna ?_)
      refine (C44_accepted_iff hrec cfg now _ _ _).mp ((C83_handled_iff hrec hno now e').mpr ?_)
      intro p hp
      rw [split, ← refusals_same L now req ps hs] at hp
      rcases List.mem_append.mp hp with hp | hp
      · exact (firstCause_none.mp hr) p hp
      · obtain ⟨P, c⟩ := p
        have hc : c = 401 := by
          simp only [refusals, List.drop_succ_cons, List.drop_zero, List.mem_cons, Prod.mk.injEq,
            List.not_mem_nil, or_false] at hp
          rcases hp with ⟨-, h⟩ | ⟨-, h⟩ | ⟨-, h⟩ <;> exact h
        subst hc
        exact fun h => hn ⟨P, hp, h⟩
    constructor
    · intro hall e' hs ha
      have hs' : e.SameSecrets { e' with client := ⟨0 :: e'.client.identifier, e'.client.secret⟩ } :=
        ⟨hs.client, hs.token, hs.verifier⟩
      rw [hall e' hs, ← hall _ hs']
      refine other _ hs' fun ha' => ?_
      have := congrArg (Option.map List.length) (leastIs_unique ha.client ha'.client)
      simp at this
    · intro h e' hs
      have all : ∀ e', e.SameSecrets e' → e'.answer L cfg (some now) req f = .ok (.ofStatus 401) := by
        intro e' hs
        by_cases ha : Accepted L cfg now req ps e'.client e'.token e'.verifier
        · exact h e' hs ha
        · exact other e' hs ha
      rw [all e' hs, all e ⟨rfl, rfl, rfl⟩]

/-- For the request with two nonces, whatever the handler answers other than 401. -/
example : ¬ ∀ e', Expectation.SameSecrets ⟨Server.CLIENT, some Server.TOKEN, none⟩ e' →
    e'.answer (Server.exampleLib true) ⟨true, true, .std⟩ (some 1700000000) twoNonces
        (fun _ _ => ⟨200, []⟩) =
      Expectation.answer ⟨Server.CLIENT, some Server.TOKEN, none⟩ (Server.exampleLib true)
        ⟨true, true, .std⟩ (some 1700000000) twoNonces fun _ _ => ⟨200, []⟩ := by
  rw [C70_iff twoNonces_received]
  intro h
  obtain ⟨o, ho⟩ := C83_violated_handled.1
  have := h ⟨Server.CLIENT, some Server.TOKEN, none⟩ ⟨rfl, rfl, rfl⟩
    ((C44_accepted_iff twoNonces_received _ _ _ _ _).mp ⟨o, ho⟩)
  rw [ho] at this
  cases this

end OAuth
