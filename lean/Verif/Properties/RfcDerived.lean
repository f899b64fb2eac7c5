import Verif.Properties.Derive
import Verif.Properties.Rfc
import Verif.Proofs.Rsa

/-
C50, C51: the RFC 5849 server and requests of any shape, in particular derived ones.
-/

namespace OAuth

open Spec Derive

variable {S : Type}

/-! ### What a sequence of calls conveys -/

/-- The pairs that calls convey, protocol parameters included. -/
def effectiveIn (cfg : Cfg) (e : Env) (w : World) (cs : List Call) : List (Bytes × Bytes) :=
  cs.filterMap (Call.effective e w.nonce (w.time cfg))

theorem canonical_signed (e : Env) (n : Bytes) (t : Nat) {cs : List Call}
    (h : ∀ c ∈ cs, c.canonical) :
    cs.filterMap (Call.signed? e n t) =
      (cs.filterMap (Call.effective e n t)).map fun p => (p.1, encode (encode p.2)) := by
  induction cs with
  | nil => rfl
  | cons c cs ih =>
    have ih := ih (fun c hc => h c (by simp [hc]))
    have hc := h c (by simp)
    cases c with
    | parameter k v =>
      rw [List.filterMap_cons, List.filterMap_cons, Call.effective, Call.signed?]
      simp only [List.map_cons, ih]
    | parameterEncoded k v =>
      obtain ⟨-, d, hd⟩ := hc
      rw [List.filterMap_cons, List.filterMap_cons, Call.effective, Call.signed?, hd, decode_encode]
      simp only [Option.map_some, List.map_cons, ih]
    | oauth p =>
      rw [List.filterMap_cons, List.filterMap_cons, Call.effective, Call.signed?]
      cases e.value n t p with
      | none => exact ih
      | some v => simp only [Option.map_some, List.map_cons, ih]

theorem effective_key {e : Env} {n : Bytes} {t : Nat} {c : Call} {p : Bytes × Bytes}
    (h : c.effective e n t = some p) : p.1 = c.key := by
  cases c with
  | parameter k v => cases h; rfl
  | parameterEncoded k v =>
    obtain ⟨d, -, rfl⟩ := Option.map_eq_some_iff.mp h; rfl
  | oauth q => obtain ⟨d, -, rfl⟩ := Option.map_eq_some_iff.mp h; rfl

theorem canonical_key {c : Call} (h : c.canonical) : ∀ b ∈ c.key, unreserved b = true := by
  cases c with
  | parameter k v => exact h
  | parameterEncoded k v => exact h.1
  | oauth p => exact proto_name_unreserved p

theorem effective_keys (e : Env) (n : Bytes) (t : Nat) (cs : List Call) :
    ((cs.filterMap (Call.effective e n t)).map (·.1)).Sublist (cs.map Call.key) := by
  induction cs with
  | nil => exact List.Sublist.refl _
  | cons c cs ih =>
    cases h : c.effective e n t with
    | none => simp only [List.filterMap_cons, h, List.map_cons]; exact ih.cons _
    | some p =>
      simp only [List.filterMap_cons, h, List.map_cons, effective_key h]; exact ih.cons_cons _

theorem effective_perm (cfg : Cfg) (e : Env) (w : World) {cs : List Call} (hstd : Standard cs) :
    (effectiveIn cfg e w cs).Perm
      (e.protocolParams w.nonce (w.time cfg) ++ cs.filterMap Call.own?) := by
  have key : ∀ cs : List Call, (cs.filterMap (Call.effective e w.nonce (w.time cfg))).Perm
      (((cs.filterMap Call.proto?).filterMap fun p =>
        (e.value w.nonce (w.time cfg) p).map fun v => (p.name, v)) ++ cs.filterMap Call.own?) := by
    intro cs
    induction cs with
    | nil => exact .refl _
    | cons c cs ih =>
      cases c with
      | parameter k v =>
        simp only [List.filterMap_cons, Call.effective, Call.proto?, Call.own?]
        exact (ih.cons _).trans List.perm_middle.symm
      | parameterEncoded k v =>
        simp only [List.filterMap_cons, Call.effective, Call.proto?, Call.own?]
        cases decode v.text with
        | none => exact ih
        | some d => exact (ih.cons _).trans List.perm_middle.symm
      | oauth p =>
        simp only [List.filterMap_cons, Call.effective, Call.proto?, Call.own?]
        cases e.value w.nonce (w.time cfg) p with
        | none => exact ih
        | some v => exact ih.cons _
  have := key cs
  rw [hstd] at this
  exact this

/-- C50, the base string: for a request of any shape, any signature method, it is the one RFC 5849
describes exactly if the encoded pairs appear in ascending order. -/
theorem C50_base_string_iff (cfg : Cfg) (b : Builder S) (name : Bytes) {cs : List Call}
    (hcan : ∀ c ∈ cs, c.canonical) {method : Bytes} (hm : ∀ x ∈ method, unreserved x = true)
    (hu : upper method = method) (uri : Display) (w : World) :
    b.base cfg name method uri cs w =
      rfcBase method uri.text (effectiveIn cfg (b.env name true true) w cs) ↔
    Ascending (encodePairs (effectiveIn cfg (b.env name true true) w cs)) := by
  have hck : ∀ p ∈ effectiveIn cfg (b.env name true true) w cs, ∀ x ∈ p.1, unreserved x = true := by
    intro p hp
    obtain ⟨c, hc, hcp⟩ := List.mem_filterMap.mp hp
    rw [effective_key hcp]
    exact canonical_key (hcan c hc)
  have hbase : b.base cfg name method uri cs w =
      method ++ b!"&" ++ encode uri.text ++ b!"&" ++
        encode (join b!"&" ((encodePairs (effectiveIn cfg (b.env name true true) w cs)).map
          fun p => p.1 ++ b!"=" ++ p.2)) := by
    unfold Builder.base baseString
    rw [canonical_signed _ _ _ hcan]
    change _ ++ join _ (List.map _ (List.map _ (effectiveIn cfg (b.env name true true) w cs))) = _
    generalize effectiveIn cfg (b.env name true true) w cs = l at hck
    have := join_signed_eq (l.map fun p => (p.1, encode p.2)) (by
      intro p hp'
      obtain ⟨q, hq, rfl⟩ := List.mem_map.mp hp'
      exact hck q hq)
    rw [List.map_map] at this ⊢
    have e1 : (signedItem ∘ fun p : Bytes × Bytes => (p.1, encode (encode p.2))) =
        ((fun p : Bytes × Bytes => signedItem (p.1, encode p.2)) ∘ fun p : Bytes × Bytes =>
          (p.1, encode p.2)) := rfl
    rw [e1, this]
    congr 3
    rw [encodePairs, List.map_map, List.map_map]
    apply List.map_congr_left
    intro p hp'
    simp only [Function.comp_apply, encode_of_unreserved (hck p hp')]
  rw [hbase, rfcBase, hu, encode_of_unreserved hm]
  generalize effectiveIn cfg (b.env name true true) w cs = l
  have hsort := sortPairs_spec (encodePairs l)
  constructor
  · intro h
    have h := encode_injective (List.append_cancel_left h)
    obtain ⟨l', hl'⟩ := exists_encodePairs (l := sortPairs (encodePairs l)) (by
        intro x hx
        obtain ⟨y, -, hy⟩ := List.mem_map.mp (hsort.1.mem_iff.mp hx)
        exact ⟨y, hy⟩)
    change join b!"&" _ = join b!"&" ((sortPairs (encodePairs l)).map _) at h
    rw [← hl'] at h
    have hc : l = l' := join_formItems_injective h
    have ha := hsort.2
    rwa [← hl', ← hc] at ha
  · intro h
    have hs := sortPairs_of_ascending (l' := encodePairs l) (List.Perm.refl _) h
    change _ = _ ++ encode (join b!"&" ((sortPairs (encodePairs l)).map _))
    rw [hs]

/-- The shared case, with what the server expects computed. -/
example : (Case.builder hmacSha1).base Case.cfg b!"HMAC-SHA1" b!"GET" (.ofBytes Case.uri) Case.calls
      Case.world =
    rfcBase b!"GET" (Display.ofBytes Case.uri).text
      (effectiveIn Case.cfg ((Case.builder hmacSha1).env b!"HMAC-SHA1" true true) Case.world Case.calls) := by
  decide +kernel

theorem rfcBase_perm (method uri : Bytes) {l l' : List (Bytes × Bytes)} (h : l.Perm l') :
    rfcBase method uri l = rfcBase method uri l' := by
  unfold rfcBase normalizedParams
  have hs : ∀ l l' : List (Bytes × Bytes), l.Perm l' → sortPairs l = sortPairs l' := by
    intro l l' hl
    exact sortPairs_of_ascending ((sortPairs_spec l').1.trans hl.symm) (sortPairs_spec l').2
  rw [hs _ _ (h.map fun p => (encode p.1, encode p.2))]

/-- What the verification of a header with the given parameters comes down to. -/
theorem rfcVerifyBy_eq (check : Bytes → Bytes → Bool) (cfg : Cfg) (b : Builder S) (name : Bytes)
    (w : World) (method uri out sig : Bytes) {own : List (Bytes × Bytes)}
    (hown : ∀ x ∈ own, x.1 ≠ b!"oauth_signature")
    (h : parseHeader out = some (b.params cfg name w ++ [(b!"oauth_signature", sig)])) :
    rfcVerifyBy check method uri out own = check (rfcBase method uri (b.params cfg name w ++ own)) sig := by
  have hn : ∀ x ∈ b.params cfg name w, x.1 ≠ b!"realm" ∧ x.1 ≠ b!"oauth_signature" := by
    intro x hx
    obtain ⟨q, -, hq⟩ := List.mem_filterMap.mp hx
    obtain ⟨v, -, rfl⟩ := Option.map_eq_some_iff.mp hq
    have : q.name ≠ b!"realm" ∧ q.name ≠ b!"oauth_signature" := by cases q <;> decide
    exact this
  have h1 : (b.params cfg name w).filter (fun p => p.1 != b!"realm") = b.params cfg name w :=
    List.filter_eq_self.mpr (fun x hx => by simp [(hn x hx).1])
  have h2 : (b.params cfg name w).filter (fun p => p.1 != b!"oauth_signature") =
      b.params cfg name w :=
    List.filter_eq_self.mpr (fun x hx => by simp [(hn x hx).2])
  have h3 : own.filter (fun p => p.1 != b!"oauth_signature") = own :=
    List.filter_eq_self.mpr (fun x hx => by simp [hown x hx])
  have h4 : (b.params cfg name w).filter (fun p => p.1 == b!"oauth_signature") = [] := by
    refine List.filter_eq_nil_iff.mpr (fun x hx => ?_)
    simp [(hn x hx).2]
  have h5 : ([(b!"oauth_signature", sig)].filter fun p => p.1 != b!"realm").filter
      (fun p => p.1 != b!"oauth_signature") = [] := by
    rw [List.filter_filter]
    simp
  have h6 : single b!"oauth_signature" (b.params cfg name w ++ [(b!"oauth_signature", sig)]) =
      some sig := by
    unfold single
    rw [List.filter_append, h4]
    rfl
  unfold rfcVerifyBy
  rw [h]
  simp only [h6]
  congr 2
  simp only [collectParams, List.filter_append, h1, h2, h3, h5, List.append_nil]

theorem rfcVerify_by (H : Bytes → Bytes) (cs : Bytes) (ts : Option Bytes) :
    rfcVerify H cs ts = rfcVerifyBy fun base sig => base64DecodePad base64Alphabet sig ==
      some (hmac H (signingKey cs ts) base) := rfl

/-- A request that an RFC 5849 server can be expected to understand: names need no encoding, values
encoded by the caller are encoded as the RFC says, the encoded pairs appear in ascending order, and
`oauth_signature` is not a request parameter. -/
structure Understandable (cfg : Cfg) (e : Env) (w : World) (cs : List Call) (method : Bytes) : Prop where
  canonical : ∀ c ∈ cs, c.canonical
  ascending : Ascending (encodePairs (effectiveIn cfg e w cs))
  notSignature : ∀ c ∈ cs, c.isRequest = true → c.key ≠ b!"oauth_signature"
  methodUnreserved : ∀ b ∈ method, unreserved b = true
  methodUpper : upper method = method

theorem own_key {c : Call} {p : Bytes × Bytes} (h : c.own? = some p) :
    p.1 = c.key ∧ c.isRequest = true := by
  cases c with
  | parameter k v => cases h; exact ⟨rfl, rfl⟩
  | parameterEncoded k v =>
    obtain ⟨d, -, rfl⟩ := Option.map_eq_some_iff.mp h; exact ⟨rfl, rfl⟩
  | oauth q => cases h

theorem understandable_base {cfg : Cfg} {b : Builder S} {name : Bytes} {cs : List Call} {w : World}
    {method : Bytes} (hu : Understandable cfg (b.env name true true) w cs method)
    (hstd : Standard cs) (uri : Display) {received : List (Bytes × Bytes)}
    (hrec : received.Perm (cs.filterMap Call.own?)) :
    rfcBase method uri.text (b.params cfg name w ++ received) = b.base cfg name method uri cs w ∧
      ∀ x ∈ received, x.1 ≠ b!"oauth_signature" := by
  constructor
  · rw [(C50_base_string_iff cfg b name hu.canonical hu.methodUnreserved hu.methodUpper uri w).mpr
      hu.ascending]
    exact rfcBase_perm _ _ ((hrec.append_left _).trans (effective_perm cfg _ w hstd).symm)
  · intro x hx
    obtain ⟨c, hc, hcx⟩ := List.mem_filterMap.mp (hrec.mem_iff.mp hx)
    rw [(own_key hcx).1]
    exact hu.notSignature c hc (own_key hcx).2

/-- A parameter list whose values keep their order when encoded is understandable. -/
theorem parameterList_understandable (cfg : Cfg) (e : Env) (w : World) {supplied current : List Pair}
    (hb : Built supplied current) {method : Bytes} (hp : Plain supplied method)
    (hkeeps : EncodingKeepsOrder supplied) :
    Understandable cfg e w (weave allProto current) method := by
  obtain ⟨hperm, ha⟩ := C19_always_sorted hb
  have hm : ∀ x, x ∈ current → x ∈ supplied := fun x hx => hperm.mem_iff.mp hx
  have hk : EncodingKeepsOrder current := fun x hx y hy => hkeeps x (hm x hx) y (hm y hy)
  refine ⟨?_, ?_, ?_, hp.methodUnreserved, hp.methodUpper⟩
  · intro c hc
    rcases weave_no_encoded allProto current c hc with ⟨p, rfl⟩ | ⟨kv, hkv, rfl⟩
    · trivial
    · exact hp.keys kv (hm _ hkv)
  · exact (conveyed_ascending_iff e w.nonce (w.time cfg) ha (fun x hx => hp.keys x (hm x hx))
      (fun x hx => hp.notProto x (hm x hx))).mpr hk
  · intro c hc hreq
    rcases weave_no_encoded allProto current c hc with ⟨p, rfl⟩ | ⟨kv, hkv, rfl⟩
    · cases hreq
    · exact hp.notSignature kv (hm _ hkv)

/-- The shared case is understandable. -/
theorem Case.understandable (e : Env) (w : World) (method : Bytes) (h : method ∈ [b!"GET", b!"POST"]) :
    Understandable Case.cfg e w Case.calls method :=
  parameterList_understandable Case.cfg e w Case.built (Case.plain method h) Case.keepsOrder

/-- C50: a server that follows RFC 5849 accepts the HMAC-SHA1 header of any understandable request,
whatever the order in which it receives the request's own pairs. -/
theorem C50_rfc_server_accepts {cfg : Cfg} {b : Builder Hmac} (hb : b.signatureMethod = hmacSha1)
    {r : Request} {cs : List Call} (hr : IsTrace r cs) (hstd : Standard cs) (hcs : ∀ c ∈ cs, c.ok)
    {method : Bytes} {w w' : World}
    (hu : Understandable cfg (b.env b!"HMAC-SHA1" true true) w cs method) {uri : Display}
    (huri : uri.outcome = .ok) {out : Bytes} (h : b.authorize cfg method uri r w = .ok (out, w'))
    {received : List (Bytes × Bytes)} (hrec : received.Perm (cs.filterMap Call.own?)) :
    rfcVerify Sha1.hash b.client.secret (b.token.map (·.secret)) method uri.text out received =
      true := by
  obtain ⟨b64, h1, -, h2⟩ := (C26_hmac_sha1_signature hb hr hstd hcs method w w' out).1 uri huri h
  obtain ⟨h3, h4⟩ := understandable_base hu hstd uri hrec
  rw [rfcVerify_by, rfcVerifyBy_eq _ cfg b _ w _ _ _ _ h4 h2, h3, h1]
  simp

example : ∃ out w', (Case.builder hmacSha1).authorize Case.cfg b!"GET" (.ofBytes Case.uri) Case.request
      Case.world = .ok (out, w') ∧
    rfcVerify Sha1.hash b!"client/secret" (some b!"token secret") b!"GET" (Display.ofBytes Case.uri).text out
      [(b!"p", b!"~%"), (b!"a", b!"1 é"), (b!"p", b!"&=+")] = true := by
  obtain ⟨out, w', h⟩ := Case.header
  exact ⟨out, w', h, C50_rfc_server_accepts rfl Case.trace Case.standard (weave_ok Case.ok)
    (Case.understandable _ _ _ (by decide)) rfl h (by decide)⟩

/-- C51: with RSA-SHA1, if what the private key operation returns is what the verification with the
public key accepts, a server that follows RFC 5849 accepts the header of any understandable request. -/
theorem C51_rfc_server_accepts_rsa {K : Type} (ops : RsaOps K) (key : K)
    (verify : Bytes → Bytes → Bool) (hv : ∀ d s, ops.sign key d = some s → verify d s = true)
    {cfg : Cfg} {b : Builder (RsaSign K)}
    (hb : b.signatureMethod = rsaOwned Sha1.hash ops key ∨ b.signatureMethod = rsaRef Sha1.hash ops key)
    {r : Request} {cs : List Call} (hr : IsTrace r cs) (hstd : Standard cs) (hcs : ∀ c ∈ cs, c.ok)
    (hsorted : (cs.map Call.key).Pairwise (fun x y => bytesLe x y = true))
    {method : Bytes} {w w' : World} (hclock : cfg.clock ≠ .none ∨ b.options.timestamp ≠ none)
    (hu : Understandable cfg (b.env b!"RSA-SHA1" true true) w cs method) {uri : Display}
    (huri : uri.outcome = .ok) (hq : (0x3F : UInt8) ∉ uri.text) {out : Bytes}
    (h : b.authorize cfg method uri r w = .ok (out, w'))
    {received : List (Bytes × Bytes)} (hrec : received.Perm (cs.filterMap Call.own?)) :
    rfcVerifyBy (rsaCheck Sha1.hash verify) method uri.text out received = true := by
  obtain ⟨h1, h2⟩ := C28_rsa_sha1_signature ops key hb hr hstd hcs hsorted method hclock w huri hq
  cases hs : ops.sign key (Sha1.hash (b.base cfg b!"RSA-SHA1" method uri cs w)) with
  | none => rw [(h1 hs).1] at h; cases h
  | some sig =>
    obtain ⟨b64, h3, ⟨out', w'', h4, h5⟩, -⟩ := h2 sig hs
    rw [h] at h4
    cases h4
    obtain ⟨h6, h7⟩ := understandable_base hu hstd uri hrec
    rw [rfcVerifyBy_eq _ cfg b _ w _ _ _ _ h7 h5, h6, rsaCheck, h3]
    exact hv _ _ hs

/-- RFC 3447 as the external operation. -/
def pkcs1Ops : RsaOps RsaKey := ⟨RsaKey.sign⟩

/-- C51 with RFC 3447 as the private key operation: a valid key of at least 46 bytes never makes the
crate panic, and the server's verification with the public key succeeds exactly if its base string has
the same digest as the one signed; so it does for an understandable request. -/
theorem C51_pkcs1 {key : RsaKey} (hkey : key.Valid Nat.Prime) (hk : 46 ≤ key.k) {cfg : Cfg}
    {b : Builder (RsaSign RsaKey)}
    (hb : b.signatureMethod = rsaOwned Sha1.hash pkcs1Ops key ∨
      b.signatureMethod = rsaRef Sha1.hash pkcs1Ops key)
    {r : Request} {cs : List Call} (hr : IsTrace r cs) (hstd : Standard cs) (hcs : ∀ c ∈ cs, c.ok)
    (hsorted : (cs.map Call.key).Pairwise (fun x y => bytesLe x y = true)) (method : Bytes) (w : World)
    (hclock : cfg.clock ≠ .none ∨ b.options.timestamp ≠ none) {uri : Display}
    (huri : uri.outcome = .ok) (hq : (0x3F : UInt8) ∉ uri.text) :
    ∃ out w', b.authorize cfg method uri r w = .ok (out, w') ∧
      (∀ (method' uri' : Bytes) (received : List (Bytes × Bytes)),
        (∀ x ∈ received, x.1 ≠ b!"oauth_signature") →
        (rfcVerifyBy (rsaCheck Sha1.hash key.verify) method' uri' out received = true ↔
          Sha1.hash (rfcBase method' uri' (b.params cfg b!"RSA-SHA1" w ++ received)) =
            Sha1.hash (b.base cfg b!"RSA-SHA1" method uri cs w))) ∧
      (Understandable cfg (b.env b!"RSA-SHA1" true true) w cs method →
        ∀ received : List (Bytes × Bytes), received.Perm (cs.filterMap Call.own?) →
          rfcVerifyBy (rsaCheck Sha1.hash key.verify) method uri.text out received = true) := by
  obtain ⟨-, h2⟩ := C28_rsa_sha1_signature pkcs1Ops key hb hr hstd hcs hsorted method hclock w huri hq
  obtain ⟨sig, hs⟩ := rsa_signs key hk (digest := Sha1.hash (b.base cfg b!"RSA-SHA1" method uri cs w))
    (sha1_length _)
  obtain ⟨b64, h3, ⟨out, w', h4, h5⟩, -⟩ := h2 sig hs
  refine ⟨out, w', h4, ?_, ?_⟩
  · intro method' uri' received hrec
    rw [rfcVerifyBy_eq _ cfg b _ w _ _ _ _ hrec h5, rsaCheck, h3]
    exact rsa_verify_sign hkey hs _
  · intro hu received hrec
    exact C51_rfc_server_accepts_rsa pkcs1Ops key key.verify
      (fun d s hd => (rsa_verify_sign hkey hd d).mpr rfl) hb hr hstd hcs hsorted hclock hu huri hq h4 hrec

/-- The shared case, signed with the key of `Proofs/Rsa.lean`. -/
example : ∃ out w', (Case.builder (rsaOwned Sha1.hash pkcs1Ops exampleKey)).authorize Case.cfg b!"GET"
      (.ofBytes Case.uri) Case.request Case.world = .ok (out, w') ∧
    rfcVerifyBy (rsaCheck Sha1.hash exampleKey.verify) b!"GET" (Display.ofBytes Case.uri).text out
      [(b!"p", b!"~%"), (b!"a", b!"1 é"), (b!"p", b!"&=+")] = true := by
  obtain ⟨out, w', h, -, h2⟩ := C51_pkcs1 exampleKey_valid (by decide) (cfg := Case.cfg)
    (b := Case.builder (rsaOwned Sha1.hash pkcs1Ops exampleKey)) (.inl rfl) Case.trace Case.standard
    (weave_ok Case.ok) (by decide) b!"GET" Case.world (.inl (by decide)) (uri := .ofBytes Case.uri) rfl
    (by decide)
  exact ⟨out, w', h, h2 (Case.understandable _ _ _ (by decide)) _ (by decide)⟩

/-- The same from the theorem about any private key operation. -/
example {out : Bytes} {w' : World}
    (h : (Case.builder (rsaOwned Sha1.hash pkcs1Ops exampleKey)).authorize Case.cfg b!"GET"
      (.ofBytes Case.uri) Case.request Case.world = .ok (out, w')) :
    rfcVerifyBy (rsaCheck Sha1.hash exampleKey.verify) b!"GET" (Display.ofBytes Case.uri).text out
      [(b!"p", b!"~%"), (b!"a", b!"1 é"), (b!"p", b!"&=+")] = true :=
  C51_rfc_server_accepts_rsa pkcs1Ops exampleKey exampleKey.verify
    (fun _ _ hs => (rsa_verify_sign exampleKey_valid hs _).mpr rfl) (.inl rfl) Case.trace Case.standard
    (weave_ok Case.ok) (by decide) (.inl (by decide)) (Case.understandable _ _ _ (by decide)) rfl
    (by decide) h (by decide)

example : exampleKey.Valid Nat.Prime ∧ 46 ≤ exampleKey.k := ⟨exampleKey_valid, by decide⟩

/-- A signature by that key. -/
example : (exampleKey.sign (Sha1.hash b!"abc")).isSome = true ∧
    exampleKey.sign b!"not a digest" = none := by
  refine ⟨?_, ?_⟩
  · obtain ⟨s, hs⟩ := rsa_signs exampleKey (by decide) (sha1_length b!"abc")
    rw [hs]; rfl
  · rfl

/-! ### Derived requests -/

theorem ascending_of_keys {l : List (Bytes × Bytes)}
    (h : (l.map (·.1)).Pairwise (fun x y => bytesLe x y = true)) (hn : (l.map (·.1)).Nodup) :
    Ascending l := by
  have := List.Pairwise.and h hn
  rw [List.pairwise_map] at this
  refine this.imp ?_
  rintro a b ⟨h1, h2⟩
  left
  rw [bytesLe_iff_le] at h1
  rcases Classical.em (a.1 < b.1) with h | h
  · exact h
  · exact absurd (List.le_antisymm h1 (List.not_lt.mp h)) h2

theorem standard_nodup_keys {cs : List Call} (hstd : Standard cs)
    (hn : ((cs.filter Call.isRequest).map Call.key).Nodup)
    (hp : ∀ c ∈ cs, c.isRequest = true → ∀ p : Proto, c.key ≠ p.name) : (cs.map Call.key).Nodup := by
  have key : ∀ cs : List Call, (cs.map Call.key).Perm
      ((cs.filterMap Call.proto?).map Proto.name ++ (cs.filter Call.isRequest).map Call.key) := by
    intro cs
    induction cs with
    | nil => exact .refl _
    | cons c cs ih =>
      cases c with
      | parameter k v => exact (ih.cons _).trans List.perm_middle.symm
      | parameterEncoded k v => exact (ih.cons _).trans List.perm_middle.symm
      | oauth p => exact ih.cons _
  rw [(key cs).nodup_iff, hstd, List.nodup_append]
  refine ⟨by decide, hn, ?_⟩
  intro a ha b hb e
  obtain ⟨p, -, rfl⟩ := List.mem_map.mp ha
  obtain ⟨c, hc, rfl⟩ := List.mem_map.mp hb
  obtain ⟨hc1, hc2⟩ := List.mem_filter.mp hc
  exact hp c hc1 hc2 p e.symm

/-- Calls with ascending, distinct names are in the RFC's order whatever the values. -/
theorem understandable_of_distinct {cfg : Cfg} {e : Env} {w : World} {cs : List Call} {method : Bytes}
    (hcan : ∀ c ∈ cs, c.canonical)
    (hsorted : (cs.map Call.key).Pairwise (fun x y => bytesLe x y = true))
    (hn : (cs.map Call.key).Nodup)
    (hsig : ∀ c ∈ cs, c.isRequest = true → c.key ≠ b!"oauth_signature")
    (hm : ∀ b ∈ method, unreserved b = true) (hu : upper method = method) :
    Understandable cfg e w cs method where
  canonical := hcan
  ascending := by
    have hk : (encodePairs (effectiveIn cfg e w cs)).map (·.1) =
        (effectiveIn cfg e w cs).map (·.1) := by
      rw [encodePairs, List.map_map]
      apply List.map_congr_left
      intro p hp
      obtain ⟨c, hc, hcp⟩ := List.mem_filterMap.mp hp
      exact encode_of_unreserved (by rw [effective_key hcp]; exact canonical_key (hcan c hc))
    have hsub := effective_keys e w.nonce (w.time cfg) cs
    apply ascending_of_keys
    · rw [hk]; exact hsorted.sublist hsub
    · rw [hk]; exact hn.sublist hsub
  notSignature := hsig
  methodUnreserved := hm
  methodUpper := hu

/-- What the fields of a derived struct have to be for the requests made from it to be understandable:
identifiers are ASCII (a `rename` is checked by the macro), no field has the name of a protocol
parameter or of the signature, and the text of a field marked `encoded` is encoded as the RFC says. -/
structure PlainFields {τ : Type} (S : Syn τ) (fs : List (SynField τ)) {V : Type} (sc : Scope V)
    (val : Bytes → V) : Prop where
  ident : ∀ f ∈ fs, ∀ n, NameOf f.ident n → ∀ b ∈ n, unreserved b = true
  notProto : ∀ f ∈ fs, ∀ g, Describes S f g → ∀ p : Proto, parameterName g ≠ p.name
  notSignature : ∀ f ∈ fs, ∀ g, Describes S f g → parameterName g ≠ b!"oauth_signature"
  ok : ∀ f ∈ fs, ∀ g, Describes S f g → ∀ c, SentAs sc g (val g.ident) c → c.ok
  encoded : ∀ f ∈ fs, ∀ g, Describes S f g → ∀ k v,
    SentAs sc g (val g.ident) (.parameterEncoded k v) → ∃ d, v.text = encode d

theorem derived_understandable {τ : Type} {cfg : Cfg} {S : Syn τ} (hS : Lawful S) {lookup : CrateLookup}
    {isIdent : Bytes → Bool} {attrs : List (Attribute τ)} {fs : List (SynField τ)} {i : Import}
    {body : List Stmt} (h : expand cfg S lookup isIdent ⟨attrs, some fs⟩ = .ok (.impl i body))
    {V : Type} {sc : Scope V} {self : Bytes → V} (hf : PlainFields S fs sc self)
    {method : Bytes} (hm : ∀ b ∈ method, unreserved b = true) (hu : upper method = method) :
    ∃ cs, IsTrace (Derive.request sc self body) cs ∧ Standard cs ∧ (∀ c ∈ cs, c.ok) ∧
      (cs.map Call.key).Pairwise (fun x y => bytesLe x y = true) ∧
      (cs.map Call.key).Nodup ∧
      (∀ c, (c ∈ cs ∧ c.isRequest = true) ↔
        ∃ f ∈ fs, ∃ g, Describes S f g ∧ SentAs sc g (self g.ident) c) ∧
      ∀ cfg e w, Understandable cfg e w cs method := by
  obtain ⟨cs, htr, -, h1, -, h2⟩ := C22_fields cfg hS lookup isIdent attrs fs i body h sc self
  obtain ⟨cs', -, htr', -, hstd, hsorted, -⟩ :=
    C21_as_assert_sorted cfg hS lookup isIdent attrs fs i body h sc self
  obtain rfl := isTrace_unique htr htr'
  obtain ⟨hn, hkeys⟩ := (C23_partial cfg hS lookup isIdent attrs fs hf.ident).1 i body h V sc self cs htr
  have hkey : ∀ c ∈ cs, c.isRequest = true → ∃ f ∈ fs, ∃ g, Describes S f g ∧
      SentAs sc g (self g.ident) c ∧ c.key = parameterName g := by
    intro c hc hreq
    obtain ⟨f, hf', g, hg, hs⟩ := h2 c hc hreq
    refine ⟨f, hf', g, hg, hs, ?_⟩
    obtain ⟨-, u, -, -, rfl⟩ := hs
    split <;> rfl
  have hok : ∀ c ∈ cs, c.ok := by
    intro c hc
    cases hreq : c.isRequest with
    | false =>
      cases c with
      | oauth p => intro v hv; cases hv
      | _ => cases hreq
    | true =>
      obtain ⟨f, hf', g, hg, hs, -⟩ := hkey c hc hreq
      exact hf.ok f hf' g hg c hs
  have hcan : ∀ c ∈ cs, c.canonical := by
    intro c hc
    cases c with
    | oauth p => trivial
    | parameter k v => exact hkeys _ hc rfl
    | parameterEncoded k v =>
      obtain ⟨f, hf', g, hg, hs, -⟩ := hkey _ hc rfl
      exact ⟨hkeys _ hc rfl, hf.encoded f hf' g hg k v hs⟩
  have hnp : (cs.map Call.key).Nodup := by
    refine standard_nodup_keys hstd hn ?_
    intro c hc hreq p
    obtain ⟨f, hf', g, hg, -, hk⟩ := hkey c hc hreq
    rw [hk]
    exact hf.notProto f hf' g hg p
  refine ⟨cs, htr, hstd, hok, hsorted, hnp, ?_, fun cfg e w =>
    understandable_of_distinct hcan hsorted hnp ?_ hm hu⟩
  · intro c
    refine ⟨fun hc => h2 c hc.1 hc.2, ?_⟩
    rintro ⟨f, hf', g, hg, hs⟩
    have := h1 f hf' g hg c hs
    have hmem : c ∈ cs.filter (fun c => c.isRequest && c.key == parameterName g) := by
      rw [this]; simp
    obtain ⟨h3, h4⟩ := List.mem_filter.mp hmem
    simp only [Bool.and_eq_true] at h4
    exact ⟨h3, h4.1⟩
  · intro c hc hreq
    obtain ⟨f, hf', g, hg, -, hk⟩ := hkey c hc hreq
    rw [hk]
    exact hf.notSignature f hf' g hg

theorem perm_of_nodup_mem {α : Type} {l l' : List α} (h : l.Nodup) (h' : l'.Nodup)
    (hm : ∀ x, x ∈ l ↔ x ∈ l') : l.Perm l' :=
  (List.perm_ext_iff_of_nodup h h').mpr hm

/-- `received` lists what the fields of a struct are sent as, each once, in any order. -/
structure Receives {τ : Type} (S : Syn τ) (fs : List (SynField τ)) {V : Type} (sc : Scope V)
    (val : Bytes → V) (received : List (Bytes × Bytes)) : Prop where
  once : received.Nodup
  pairs : ∀ x, x ∈ received ↔ ∃ f ∈ fs, ∃ g, Describes S f g ∧
    ∃ c, SentAs sc g (val g.ident) c ∧ c.own? = some x

theorem receives_perm {τ : Type} {S : Syn τ} {fs : List (SynField τ)} {V : Type} {sc : Scope V}
    {self : Bytes → V} {received : List (Bytes × Bytes)} (hr : Receives S fs sc self received)
    {cs : List Call} (hn : (cs.map Call.key).Nodup)
    (hmem : ∀ c, (c ∈ cs ∧ c.isRequest = true) ↔
        ∃ f ∈ fs, ∃ g, Describes S f g ∧ SentAs sc g (self g.ident) c) :
    received.Perm (cs.filterMap Call.own?) := by
  have hsub : ((cs.filterMap Call.own?).map (·.1)).Sublist (cs.map Call.key) := by
    clear hn hmem
    induction cs with
    | nil => exact List.Sublist.refl _
    | cons c cs ih =>
      cases h : c.own? with
      | none => simp only [List.filterMap_cons, h, List.map_cons]; exact ih.cons _
      | some p =>
        simp only [List.filterMap_cons, h, List.map_cons, (own_key h).1]; exact ih.cons_cons _
  have hnd : (cs.filterMap Call.own?).Nodup := by
    have := hn.sublist hsub
    rw [List.Nodup, List.pairwise_map] at this
    exact this.imp (fun h e => h (by rw [e]))
  refine perm_of_nodup_mem hr.once hnd ?_
  intro x
  rw [hr.pairs, List.mem_filterMap]
  constructor
  · rintro ⟨f, hf, g, hg, c, hc, hx⟩
    exact ⟨c, ((hmem c).mpr ⟨f, hf, g, hg, hc⟩).1, hx⟩
  · rintro ⟨c, hc, hx⟩
    obtain ⟨f, hf, g, hg, hs⟩ := (hmem c).mp ⟨hc, (own_key hx).2⟩
    exact ⟨f, hf, g, hg, c, hs, hx⟩

/-- C50 for derived requests: a server that follows RFC 5849 accepts the HMAC-SHA1 header of a request
made from a struct with `#[derive(Request)]`, whatever the values of its fields. -/
theorem C50_derived_request_accepted {τ : Type} {cfg : Cfg} {S : Syn τ} (hS : Lawful S)
    {lookup : CrateLookup} {isIdent : Bytes → Bool} {attrs : List (Attribute τ)}
    {fs : List (SynField τ)} {i : Import} {body : List Stmt}
    (h : expand cfg S lookup isIdent ⟨attrs, some fs⟩ = .ok (.impl i body))
    {V : Type} {sc : Scope V} {self : Bytes → V} (hf : PlainFields S fs sc self)
    {b : Builder Hmac} (hb : b.signatureMethod = hmacSha1) {method : Bytes}
    (hm : ∀ b ∈ method, unreserved b = true) (hu : upper method = method) {uri : Display}
    (huri : uri.outcome = .ok) {w w' : World} {out : Bytes}
    (ha : b.authorize cfg method uri (Derive.request sc self body) w = .ok (out, w'))
    {received : List (Bytes × Bytes)} (hrec : Receives S fs sc self received) :
    rfcVerify Sha1.hash b.client.secret (b.token.map (·.secret)) method uri.text out received =
      true := by
  obtain ⟨cs, htr, hstd, hok, -, hn, hmem, hun⟩ := derived_understandable hS h hf hm hu
  exact C50_rfc_server_accepts hb htr hstd hok (hun _ _ _) huri ha (receives_perm hrec hn hmem)

/-- C51 for derived requests. -/
theorem C51_derived_request_accepted_rsa {τ : Type} {cfg : Cfg} {S : Syn τ} (hS : Lawful S)
    {lookup : CrateLookup} {isIdent : Bytes → Bool} {attrs : List (Attribute τ)}
    {fs : List (SynField τ)} {i : Import} {body : List Stmt}
    (h : expand cfg S lookup isIdent ⟨attrs, some fs⟩ = .ok (.impl i body))
    {V : Type} {sc : Scope V} {self : Bytes → V} (hf : PlainFields S fs sc self)
    {K : Type} (ops : RsaOps K) (key : K)
    (verify : Bytes → Bytes → Bool) (hv : ∀ d s, ops.sign key d = some s → verify d s = true)
    {b : Builder (RsaSign K)}
    (hb : b.signatureMethod = rsaOwned Sha1.hash ops key ∨ b.signatureMethod = rsaRef Sha1.hash ops key)
    (hclock : cfg.clock ≠ .none ∨ b.options.timestamp ≠ none) {method : Bytes}
    (hm : ∀ b ∈ method, unreserved b = true) (hu : upper method = method) {uri : Display}
    (huri : uri.outcome = .ok) (hq : (0x3F : UInt8) ∉ uri.text) {w w' : World} {out : Bytes}
    (ha : b.authorize cfg method uri (Derive.request sc self body) w = .ok (out, w'))
    {received : List (Bytes × Bytes)} (hrec : Receives S fs sc self received) :
    rfcVerifyBy (rsaCheck Sha1.hash verify) method uri.text out received = true := by
  obtain ⟨cs, htr, hstd, hok, hsorted, hn, hmem, hun⟩ := derived_understandable hS h hf hm hu
  exact C51_rfc_server_accepts_rsa ops key verify hv hb htr hstd hok hsorted hclock (hun _ _ _) huri hq
    ha (receives_perm hrec hn hmem)

/-- A struct with `q: Option<String>` (with `skip_if` and `fmt`), `a: String` sent as `zeta` and already
encoded, `note: String` skipped, `r#type: String`. -/
def rfcFields : List (SynField (List Tok)) :=
  [⟨[oauth1Attr (listToks [nameValue b!"skip_if" (.path b!"str::is_empty"),
      nameValue b!"fmt" (.path b!"quoted")])], b!"q", .path false [(b!"Option", .angleBracketed 1)]⟩,
   ⟨[oauth1Attr (listToks [nameValue b!"rename" (.litStr b!"zeta"), word b!"encoded"])], b!"a",
      .path false [(b!"String", .none)]⟩,
   ⟨[oauth1Attr (listToks [word b!"skip"])], b!"note", .path false [(b!"String", .none)]⟩,
   ⟨[], b!"r#type", .path false [(b!"String", .none)]⟩]

def rfcBody : List Stmt :=
  weaveStmts allProto (kept (sortByName (rfcFields.map (understood tokSyn))))

/-- The values of its fields. -/
def rfcSelf (i : Bytes) : Val :=
  if i = b!"q" then .opt (some b!"x+y") else if i = b!"a" then .str b!"1%20%2B2" else .str b!"{~}"

example : (expand ⟨true, true, .std⟩ tokSyn .manifestDirNotSet (fun _ => true)
      ⟨[], some rfcFields⟩).toOption =
    some (.impl (.externCrate b!"oauth1_request") rfcBody) := by decide +kernel

theorem rfcFields_described {f : SynField (List Tok)} (hf : f ∈ rfcFields) {g : Field}
    (h : Describes tokSyn f g) : g = understood tokSyn f := by
  have : fieldErrors tokSyn f = [] := (by decide +kernel : ∀ f ∈ rfcFields.attach, fieldErrors tokSyn f.1 = [])
    ⟨f, hf⟩ (List.mem_attach _ _)
  exact describes_unique h (understood_describes tokSyn_lawful f this)

theorem rfcFields_calls {f : SynField (List Tok)} (hf : f ∈ rfcFields) {c : Call}
    (h : fieldCall exampleScope rfcSelf (understood tokSyn f) = some c) :
    c = .parameter b!"q" ⟨[b!"<", b!"x+y", b!">"], .ok⟩ ∨
      c = .parameterEncoded b!"zeta" (.ofBytes b!"1%20%2B2") ∨
      c = .parameter b!"note" (.ofBytes b!"{~}") ∨ c = .parameter b!"type" (.ofBytes b!"{~}") := by
  have := (by decide +kernel : ∀ f ∈ rfcFields.attach,
    fieldCall exampleScope rfcSelf (understood tokSyn f.1) ∈
      [some (.parameter b!"q" ⟨[b!"<", b!"x+y", b!">"], .ok⟩),
       some (.parameterEncoded b!"zeta" (.ofBytes b!"1%20%2B2")),
       some (.parameter b!"note" (.ofBytes b!"{~}")), some (.parameter b!"type" (.ofBytes b!"{~}"))])
    ⟨f, hf⟩ (List.mem_attach _ _)
  rw [h] at this
  simpa using this

theorem rfcFields_plain : PlainFields tokSyn rfcFields exampleScope rfcSelf where
  ident := by
    simp only [nameOf_iff, forall_eq]
    intro f hf
    simp only [rfcFields, List.mem_cons, List.not_mem_nil, or_false] at hf
    rcases hf with rfl | rfl | rfl | rfl <;> decide
  notProto := by
    intro f hf g hg p
    rw [rfcFields_described hf hg]
    simp only [rfcFields, List.mem_cons, List.not_mem_nil, or_false] at hf
    rcases hf with rfl | rfl | rfl | rfl <;> cases p <;> decide +kernel
  notSignature := by
    intro f hf g hg
    rw [rfcFields_described hf hg]
    simp only [rfcFields, List.mem_cons, List.not_mem_nil, or_false] at hf
    rcases hf with rfl | rfl | rfl | rfl <;> decide +kernel
  ok := by
    intro f hf g hg c hc
    have e := rfcFields_described hf hg
    subst e
    rw [← fieldCall_iff exampleScope rfcSelf _ hc.1] at hc
    rcases rfcFields_calls hf hc with rfl | rfl | rfl | rfl <;>
      (intro v hv; cases hv; rfl)
  encoded := by
    intro f hf g hg k v hc
    have e := rfcFields_described hf hg
    subst e
    rw [← fieldCall_iff exampleScope rfcSelf _ hc.1] at hc
    rcases rfcFields_calls hf hc with h | h | h | h <;> cases h
    exact ⟨b!"1 +2", by decide⟩

theorem rfcFields_expand : expand ⟨true, true, .std⟩ tokSyn .manifestDirNotSet (fun _ => true)
      ⟨[], some rfcFields⟩ = .ok (.impl (.externCrate b!"oauth1_request") rfcBody) := by
  have h : (expand ⟨true, true, .std⟩ tokSyn .manifestDirNotSet (fun _ => true)
      ⟨[], some rfcFields⟩).toOption =
    some (.impl (.externCrate b!"oauth1_request") rfcBody) := by decide +kernel
  revert h
  cases expand ⟨true, true, .std⟩ tokSyn .manifestDirNotSet (fun _ => true) ⟨[], some rfcFields⟩ with
  | ok x => intro h; cases h; rfl
  | error e => intro h; cases h

/-- What the server receives of its fields. -/
def rfcReceived : List (Bytes × Bytes) := [(b!"zeta", b!"1 +2"), (b!"type", b!"{~}"), (b!"q", b!"<x+y>")]

theorem rfcFields_receives : Receives tokSyn rfcFields exampleScope rfcSelf rfcReceived where
  once := by decide
  pairs := by
    have hval : ∀ f ∈ rfcFields.attach,
        (if (understood tokSyn f.1).info.skip then none
          else (fieldCall exampleScope rfcSelf (understood tokSyn f.1)).bind Call.own?) ∈
        [none, some (b!"zeta", b!"1 +2"), some (b!"type", b!"{~}"), some (b!"q", b!"<x+y>")] := by
      decide +kernel
    intro x
    constructor
    · intro hx
      have h1 : ∀ x ∈ rfcReceived, ∃ f ∈ rfcFields.attach,
          (understood tokSyn f.1).info.skip = false ∧
          (fieldCall exampleScope rfcSelf (understood tokSyn f.1)).bind Call.own? = some x := by
        decide +kernel
      obtain ⟨⟨f, hf⟩, -, h2, h3⟩ := h1 x hx
      obtain ⟨c, hc, hcx⟩ := Option.bind_eq_some_iff.mp h3
      have he : fieldErrors tokSyn f = [] :=
        (by decide +kernel : ∀ f ∈ rfcFields.attach, fieldErrors tokSyn f.1 = []) ⟨f, hf⟩
          (List.mem_attach _ _)
      exact ⟨f, hf, _, understood_describes tokSyn_lawful f he, c,
        (fieldCall_iff exampleScope rfcSelf _ h2 c).mp hc, hcx⟩
    · rintro ⟨f, hf, g, hg, c, hc, hcx⟩
      obtain rfl := rfcFields_described hf hg
      have h2 := hval ⟨f, hf⟩ (List.mem_attach _ _)
      have hs : (understood tokSyn f).info.skip = false := hc.1
      rw [← fieldCall_iff exampleScope rfcSelf _ hc.1] at hc
      simp only [hs, Bool.false_eq_true, if_false, hc, Option.bind_some, hcx] at h2
      simpa [rfcReceived] using h2

/-- C50 for this struct. -/
example : ∃ out w', (Case.builder hmacSha1).authorize Case.cfg b!"GET" (.ofBytes Case.uri)
      (Derive.request exampleScope rfcSelf rfcBody) Case.world = .ok (out, w') ∧
    rfcVerify Sha1.hash b!"client/secret" (some b!"token secret") b!"GET" (Display.ofBytes Case.uri).text out
      rfcReceived = true := by
  obtain ⟨out, w', h⟩ := Case.ok_of_isSome (x := (Case.builder hmacSha1).authorize Case.cfg b!"GET"
    (.ofBytes Case.uri) (Derive.request exampleScope rfcSelf rfcBody) Case.world) (by decide +kernel)
  exact ⟨out, w', h, C50_derived_request_accepted tokSyn_lawful rfcFields_expand rfcFields_plain rfl
    (by decide) (by decide) rfl h rfcFields_receives⟩

/-- C51 for this struct. -/
example {out : Bytes} {w' : World}
    (h : (Case.builder (rsaOwned Sha1.hash pkcs1Ops exampleKey)).authorize Case.cfg b!"GET"
      (.ofBytes Case.uri) (Derive.request exampleScope rfcSelf rfcBody) Case.world = .ok (out, w')) :
    rfcVerifyBy (rsaCheck Sha1.hash exampleKey.verify) b!"GET" (Display.ofBytes Case.uri).text out
      rfcReceived = true :=
  C51_derived_request_accepted_rsa tokSyn_lawful rfcFields_expand rfcFields_plain pkcs1Ops exampleKey
    exampleKey.verify (fun _ _ hs => (rsa_verify_sign exampleKey_valid hs _).mpr rfl) (.inl rfl)
    (.inl (by decide)) (by decide) (by decide) rfl (by decide) h rfcFields_receives

/-- Its header verifies, with the pairs in any order; not with another value. -/
example : ((exampleBuilder hmacSha1).authorize ⟨true, true, .std⟩ b!"GET" (.ofBytes b!"http://a/")
      (Derive.request exampleScope rfcSelf rfcBody) World.example).toOption.map (fun r =>
        (rfcVerify Sha1.hash (exampleBuilder hmacSha1).client.secret
          ((exampleBuilder hmacSha1).token.map (·.secret)) b!"GET" b!"http://a/" r.1
          [(b!"zeta", b!"1 +2"), (b!"type", b!"{~}"), (b!"q", b!"<x+y>")],
         rfcVerify Sha1.hash (exampleBuilder hmacSha1).client.secret
          ((exampleBuilder hmacSha1).token.map (·.secret)) b!"GET" b!"http://a/" r.1
          [(b!"zeta", b!"1 +2"), (b!"type", b!"{~}"), (b!"q", b!"<x y>")])) = some (true, false) := by
  decide +kernel

end OAuth
