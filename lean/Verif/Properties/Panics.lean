import Verif.Properties.Header
import Verif.Properties.ParameterList

/-
C14, C15, C16: when authorizing panics.
-/

namespace OAuth

open Spec

variable {S : Type}

/-- A fresh authorizer, as made by `authorization`, `form` and `query`. -/
structure Fresh (e : Env) (a : Authorizer S Bytes) : Prop where
  env : HasEnv e a
  delim : a.appendDelimToSign = false
  prev : a.prevKey = []

theorem fresh_new (data : Data Bytes) (s : S) (b : Builder S) (name : Bytes) (un ut : Bool) :
    Fresh (b.env name un ut) (Authorizer.new_ data s b.client b.token b.options) :=
  ⟨⟨rfl, rfl, rfl⟩, rfl, rfl⟩

/-- Somewhere an emitted key is smaller than the one emitted just before it. -/
def Misordered (keys : List Bytes) : Prop :=
  ∃ pre x y post, keys = pre ++ x :: y :: post ∧ y < x

theorem misordered_iff (keys : List Bytes) :
    Misordered keys ↔ ¬ keys.Pairwise (fun x y => bytesLe x y = true) := by
  rw [not_pairwise_iff]
  have : ∀ x y : Bytes, bytesLe x y = false ↔ y < x := by
    intro x y
    rw [← List.not_le, ← bytesLe_iff_le]
    simp
  simp only [Misordered, this]

/-- C14: on a fresh authorizer (whose signing algorithm does not itself panic, as those of the crate),
a sequence of calls with displayable values panics with the order assertion exactly if assertions are
compiled in and somewhere an emitted key is smaller than the previous emitted one. Otherwise it
returns; in particular equal neighbours are fine, and in release builds every order is. -/
theorem C14_misordered_keys {cfg : Cfg} {sg : Sign S} {e : Env}
    (hsg : ConstSign sg e.name e.useNonce e.useTimestamp)
    (hname : ∀ x ∈ e.name, unreserved x = true) {add : S → Bytes → S}
    (habs : Absorbs sg e.name add) {a : Authorizer S Bytes} (ha : Fresh e a) (cs : List Call)
    (hcs : ∀ c ∈ cs, c.ok) (hclock : cfg.clock ≠ .none ∨ e.options.timestamp ≠ none) (w : World) :
    (cfg.alloc = true ∧ cfg.debug = true ∧ Misordered (cs.filterMap (Call.emitted e)) →
      runCalls (Authorizer.serializer cfg stringWriter sg) cs a w = .error .keyOrder) ∧
    (¬ (cfg.alloc = true ∧ cfg.debug = true ∧ Misordered (cs.filterMap (Call.emitted e))) →
      ∃ a' w', runCalls (Authorizer.serializer cfg stringWriter sg) cs a w = .ok (a', w')) := by
  have hno : ¬ (cfg.clock = .none ∧ cs.any (needsClock e) = true) := by
    rintro ⟨h1, h2⟩
    obtain ⟨c, _, hc⟩ := List.any_eq_true.mp h2
    simp only [needsClock, Bool.and_eq_true] at hc
    rcases hclock with h | h
    · exact h h1
    · cases ho : e.options.timestamp with
      | none => exact h ho
      | some t => simp [ho] at hc
  have hnil : ∀ l : List Bytes, ([] :: l).Pairwise (fun x y => bytesLe x y = true) ↔
      l.Pairwise (fun x y => bytesLe x y = true) := by
    intro l
    rw [List.pairwise_cons]
    constructor
    · exact fun h => h.2
    · refine fun h => ⟨fun b _ => ?_, h⟩
      cases b <;> rfl
  have hiff : (∃ a' w', runCalls (Authorizer.serializer cfg stringWriter sg) cs a w = .ok (a', w')) ↔
      (cfg.checksOrder = true → ¬ Misordered (cs.filterMap (Call.emitted e))) := by
    simp only [runCalls_ok_iff hsg ha.env, emitAll_eq, if_neg hno, applyItems_ok_iff, ha.prev, hnil,
      ha.delim, misordered_iff, Classical.not_not]
    constructor
    · rintro ⟨a', w', items, hi, hord, -⟩
      simp only [Except.ok.injEq, Prod.mk.injEq] at hi
      obtain ⟨rfl, -⟩ := hi
      rw [← itemsFrom_emitted cfg e hname w]
      exact hord
    · intro h
      refine ⟨_, _, _, rfl, ?_, _, habs.run _ (signCalls_outcome (itemsFrom_outcome hcs) false) _, rfl⟩
      rw [itemsFrom_emitted cfg e hname w]
      exact h
  have hco : cfg.checksOrder = true ↔ cfg.alloc = true ∧ cfg.debug = true := by
    simp [Cfg.checksOrder]
  constructor
  · rintro ⟨h1, h2, h3⟩
    cases hr : runCalls (Authorizer.serializer cfg stringWriter sg) cs a w with
    | ok r =>
      have := hiff.mp ⟨r.1, r.2, hr⟩ (hco.mpr ⟨h1, h2⟩)
      exact absurd h3 this
    | error p =>
      rw [run_error hsg habs ha.env cs hcs hno w p hr]
  · intro h
    rw [hiff, hco]
    rintro ⟨h1, h2⟩ h3
    exact h ⟨h1, h2, h3⟩

/-- Request keys alone can be misordered; and a request key can be misordered with respect to a
protocol parameter. -/
example : Misordered ([Call.parameter b!"b" (.ofBytes []), .parameter b!"a" (.ofBytes []),
    .oauth .consumerKey].filterMap (Call.emitted ⟨b!"k", none, .new, b!"HMAC-SHA1", true, true⟩)) :=
  ⟨[], b!"b", b!"a", [b!"oauth_consumer_key"], by decide, by decide⟩
example : Misordered ([Call.oauth .consumerKey, .oauth .token, .parameter b!"k" (.ofBytes [])].filterMap
    (Call.emitted ⟨b!"k", none, .new, b!"HMAC-SHA1", true, true⟩)) :=
  ⟨[], b!"oauth_consumer_key", b!"k", [], by decide, by decide⟩
/-- The misordered call sequence `oauth_token`, `oauth_callback` is accepted if no callback is set. -/
example : ¬ Misordered ([Call.oauth .consumerKey, .oauth .callback, .parameter b!"p" (.ofBytes []),
    .parameter b!"p" (.ofBytes [])].filterMap
    (Call.emitted ⟨b!"k", none, .new, b!"HMAC-SHA1", true, true⟩)) := by
  rw [misordered_iff]; decide +kernel

/-- C15: in debug builds a URI whose text contains `?` is rejected by all three constructors, however
it is formatted and whatever the signature method; any other (displayable) URI gives what the release
build gives; release builds do not look. -/
theorem C15_uri_query (cfg : Cfg) (sm : SignatureMethod S) (method : Bytes) (uri : Display)
    (client : Credentials Bytes) (token : Option (Credentials Bytes)) (o : Options) :
    (cfg.debug = true → (0x3F : UInt8) ∈ uri.text →
      Authorizer.authorization cfg sm method uri client token o = .error .uriQuery ∧
      Authorizer.form cfg sm method uri client token o = .error .uriQuery ∧
      ∀ (W : Type) (w : W) (display : W → Display), display w = uri →
        Authorizer.query cfg display sm method w client token o = .error .uriQuery) ∧
    ((cfg.debug = true → (0x3F : UInt8) ∉ uri.text ∧ uri.outcome = .ok) →
      let release := { cfg with debug := false }
      Authorizer.authorization cfg sm method uri client token o =
        Authorizer.authorization release sm method uri client token o ∧
      Authorizer.form cfg sm method uri client token o =
        Authorizer.form release sm method uri client token o ∧
      ∀ (W : Type) (w : W) (display : W → Display), display w = uri →
        Authorizer.query cfg display sm method w client token o =
          Authorizer.query release display sm method w client token o) := by
  constructor
  · intro hd hq
    have hm : makeSign cfg sm method uri client token = .error .uriQuery := by
      simp [makeSign, hd, assertNotContainQuestion_eq, hq, bind, Except.bind]
    refine ⟨?_, ?_, ?_⟩
    · simp only [Authorizer.authorization, Authorizer.authorizationWithBuf,
        stringWriter_writeUnwrap, hm, Display.ofBytes, Outcome.check]
      rfl
    · simp only [Authorizer.form, Authorizer.formWithBuf, hm]; rfl
    · rintro W w display rfl
      simp only [Authorizer.query, hm]; rfl
  · intro h
    have hm : makeSign cfg sm method uri client token =
        makeSign { cfg with debug := false } sm method uri client token := by
      cases hd : cfg.debug with
      | false =>
        have : ({ cfg with debug := false } : Cfg) = cfg := by rw [← hd]
        rw [this]
      | true =>
        obtain ⟨h1, h2⟩ := h hd
        simp [makeSign, hd, assertNotContainQuestion_eq, h1, h2, Outcome.check, bind, Except.bind]
    refine ⟨?_, ?_, ?_⟩
    · simp only [Authorizer.authorization, Authorizer.authorizationWithBuf, hm]
    · simp only [Authorizer.form, Authorizer.formWithBuf, hm]
    · rintro W w display rfl
      simp only [Authorizer.query, hm]

/-- A URI with a query is refused in debug builds and signed in others. -/
example :
    (Authorizer.authorization Case.cfg hmacSha1 b!"GET" (.ofBytes b!"http://a/?b") (.new b!"k" b!"s") none
      .new).toOption.isNone = true ∧
    (Authorizer.authorization { Case.cfg with debug := false } hmacSha1 b!"GET" (.ofBytes b!"http://a/?b")
      (.new b!"k" b!"s") none .new).toOption.isSome = true := by decide +kernel

/-- C15: in release builds the URI is signed as it is, with whatever query it has. -/
theorem C15_release_signs_verbatim {cfg : Cfg} (hcfg : cfg.debug = false) {b : Builder S}
    {name : Bytes} {un ut : Bool} {sig : Bytes → Bytes} (hs : b.Signs name un ut sig) {r : Request}
    {cs : List Call} (h : IsTrace r cs) (hcs : ∀ c ∈ cs, c.ok) (method : Bytes) {uri : Display}
    (huri : uri.outcome = .ok)
    (hclock : cfg.clock ≠ .none ∨ b.options.timestamp ≠ none) (w : World) :
    ∃ out w' params, b.authorize cfg method uri r w = .ok (out, w') ∧
      out = headerText (sentIn cfg (b.env name un ut) w cs)
        (sig (method ++ b!"&" ++ encode uri.text ++ b!"&" ++ params)) := by
  have hruns : Runs cfg (b.env name un ut) w uri cs :=
    { uri := by simp [hcfg]
      order := by simp [Cfg.checksOrder, hcfg]
      clock := by
        rintro ⟨h1, h2⟩
        obtain ⟨c, _, hc⟩ := List.any_eq_true.mp h2
        simp only [needsClock, Bool.and_eq_true] at hc
        rcases hclock with h | h
        · exact h h1
        · cases ho : b.options.timestamp with
          | none => exact h ho
          | some t => simp [Builder.env, ho] at hc }
  exact ⟨_, _, _, authorize_signs hs h hcs method huri hruns, rfl⟩

/-- A `?` in the second of three fragments. -/
example : (0x3F : UInt8) ∈ (Display.mk [b!"http://a/", b!"b?", b!"c"] .ok).text := by decide
example : (match Authorizer.authorization ⟨true, false, .none⟩ hmacSha1 b!"GET"
    ⟨[b!"http://a/", b!"b?", b!"c"], .ok⟩ (.new [] []) none .new with
    | .error p => some p | .ok _ => none) = some .uriQuery := by decide +kernel

/-- C16, for every request whose calls are in ascending key order (hence every sorted list, and every
derived request) and every signature method that computes a function of the base string. -/
theorem C16_any_request {cfg : Cfg} {b : Builder S} {name : Bytes} {un ut : Bool}
    {sig : Bytes → Bytes} (hs : b.Signs name un ut sig) {r : Request} {cs : List Call}
    (h : IsTrace r cs) (hcs : ∀ c ∈ cs, c.ok)
    (hsorted : (cs.map Call.key).Pairwise (fun x y => bytesLe x y = true)) (method : Bytes)
    (hclock : cfg.clock ≠ .none ∨ b.options.timestamp ≠ none) (w : World) :
    (∀ uri : Display, uri.outcome = .ok → (0x3F : UInt8) ∉ uri.text →
      (∃ res, b.authorize cfg method uri r w = .ok res) ∧
      (∃ res, b.toForm cfg method uri r w = .ok res)) ∧
    (∀ uri : Bytes, (0x3F : UInt8) ∉ uri →
      ∃ res, b.toQuery cfg stringWriter .ofBytes method uri r w = .ok res) := by
  have hc : cfg.clock ≠ .none ∨ (b.env name un ut).options.timestamp ≠ none ∨
      (b.env name un ut).useTimestamp = false := by
    rcases hclock with h | h
    · exact .inl h
    · exact .inr (.inl h)
  refine ⟨fun uri ho hq => ?_, fun uri hq => ?_⟩
  · have hr := runs_of hq ho hc hsorted w
    exact ⟨⟨_, authorize_signs hs h hcs method ho hr⟩, ⟨_, toForm_signs hs h hcs method ho hr⟩⟩
  · have hr := runs_of (uri := .ofBytes uri) (by simpa using hq) rfl hc hsorted w
    exact ⟨_, toQuery_signs hs h hcs method hr⟩

/-- The shared case. -/
example : ∃ res, (Case.builder hmacSha1).authorize Case.cfg b!"GET" (.ofBytes Case.uri) Case.request
    Case.world = .ok res :=
  ((C16_any_request (signs_hmac Sha1.hash (fun m => by rw [sha1_length]; decide) _ _) Case.trace
    (weave_ok Case.ok) (weave_keys_sorted ((isSortedBy_iff _).mp (by decide +kernel))) b!"GET"
    (.inl (by decide)) Case.world).1 _ rfl (by decide +kernel)).1

/-- C16: authorizing a `ParameterList` (built by any history from displayable pairs) with the
crate's signature methods returns, in debug and in release builds. `sign` stands for an RSA private
key operation that does not fail. -/
theorem C16_parameter_list_never_panics (cfg : Cfg) {supplied pairs : List Pair}
    (hb : Built supplied pairs) (hok : AllOk supplied) (client : Credentials Bytes)
    (token : Option (Credentials Bytes)) (options : Options) (method : Bytes)
    (hclock : cfg.clock ≠ .none ∨ options.timestamp ≠ none) (w : World)
    {K : Type} (ops : RsaOps K) (key : K) (hkey : ∀ d, (ops.sign key d).isSome = true) :
    let r := ParameterList.request cfg pairs
    let returns : {S : Type} → SignatureMethod S → Prop := fun sm =>
      let b : Builder _ := ⟨sm, client, token, options⟩
      (∀ uri : Display, uri.outcome = .ok → (0x3F : UInt8) ∉ uri.text →
        (∃ res, b.authorize cfg method uri r w = .ok res) ∧
        (∃ res, b.toForm cfg method uri r w = .ok res)) ∧
      (∀ uri : Bytes, (0x3F : UInt8) ∉ uri →
        ∃ res, b.toQuery cfg stringWriter .ofBytes method uri r w = .ok res)
    returns hmacSha1 ∧ returns plaintext ∧ returns (rsaOwned Sha1.hash ops key) ∧
      returns (rsaRef Sha1.hash ops key) := by
  intro r returns
  obtain ⟨hp, ha⟩ := C19_always_sorted hb
  have hok' : AllOk pairs := fun p hp' => hok p (hp.mem_iff.mp hp')
  have ht : IsTrace r (weave allProto pairs) := isTrace_parameterList cfg pairs
  have hsorted := weave_keys_sorted ha
  have key' : ∀ m, ops.sign key (Sha1.hash m) = some ((ops.sign key (Sha1.hash m)).getD []) := by
    intro m
    have := hkey (Sha1.hash m)
    cases hs : ops.sign key (Sha1.hash m) with
    | none => simp [hs] at this
    | some x => rfl
  exact ⟨C16_any_request (signs_hmac _ (fun m => by rw [sha1_length]; decide) _ _) ht (weave_ok hok')
      hsorted method hclock w,
    C16_any_request (signs_plaintext _ _) ht (weave_ok hok') hsorted method hclock w,
    C16_any_request (signs_rsaOwned _ _ _ (fun d => (ops.sign key d).getD []) key' _ _) ht
      (weave_ok hok') hsorted method hclock w,
    C16_any_request (signs_rsaRef _ _ _ (fun d => (ops.sign key d).getD []) key' _ _) ht
      (weave_ok hok') hsorted method hclock w⟩

/-- A list supplied out of order, with keys around and equal to protocol parameters. -/
example : let l : List Pair := [(b!"zzz", .ofBytes b!"1"), (b!"oauth_nonce", .ofBytes b!"2"),
      (b!"a", ⟨[b!"3", b!"&"], .ok⟩)]
    Built l (ParameterList.new .merge l) ∧ AllOk l :=
  ⟨.new _ _, by simp [AllOk, Display.ofBytes]⟩

end OAuth
