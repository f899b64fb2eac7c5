import Verif.Properties.Derive
import Verif.Properties.Either
import Verif.Properties.Nonce
import Verif.Properties.ServerBinds
import Verif.Properties.Signature

/-
C23, C27, C29, C33, C44, C45: exactly when these claims, which do not hold in general, do hold.
-/

namespace OAuth

open Spec Derive
open Server (Lib HttpRequest Response OAuthParams Parameter Received)

variable {S A B W : Type}

/-! ### C27 -/

theorem encode_length_le (s : Bytes) : s.length ≤ (encode s).length := by
  induction s with
  | nil => exact Nat.le_refl _
  | cons b s ih =>
    rw [encode_cons, encodeByte]
    split
    · simp only [List.length_append, List.length_cons, List.length_nil]; omega
    · simp only [List.length_append, List.length_cons, List.length_nil]; omega

theorem unreserved_of_encode_length {s : Bytes} (h : (encode s).length ≤ s.length) :
    ∀ b ∈ s, unreserved b = true := by
  induction s with
  | nil => simp
  | cons b s ih =>
    rw [encode_cons, encodeByte] at h
    have hl := encode_length_le s
    split at h
    · next hb =>
      simp only [List.length_append, List.length_cons, List.length_nil] at h
      intro x hx
      rcases List.mem_cons.mp hx with rfl | hx
      · exact hb
      · exact ih (by omega) x hx
    · simp only [List.length_append, List.length_cons, List.length_nil] at h
      omega

/-- C27, exactly: the header conveys the signature of RFC 5849 if and only if both secrets are made of
unreserved characters. -/
theorem C27_header_iff {cfg : Cfg} {b : Builder Bytes} (hb : b.signatureMethod = plaintext)
    {r : Request} {cs : List Call} (hr : IsTrace r cs) (hstd : Standard cs) (hcs : ∀ c ∈ cs, c.ok)
    (method : Bytes) {uri : Display} (huri : uri.outcome = .ok) {w w' : World} {out : Bytes}
    (h : b.authorize cfg method uri r w = .ok (out, w')) :
    parseHeader out = some (b.params cfg b!"PLAINTEXT" w ++
        [(b!"oauth_signature", signingKey b.client.secret (b.token.map (·.secret)))]) ↔
      (∀ x ∈ b.client.secret, unreserved x = true) ∧
      ∀ t, b.token = some t → ∀ x ∈ t.secret, unreserved x = true := by
  obtain ⟨h1, h2⟩ := C27_header_partial hb hr hstd hcs method huri h
  refine ⟨fun hk => ?_, fun hk => h2 hk.1 hk.2⟩
  rw [h1] at hk
  simp only [Option.some.injEq, List.append_cancel_left_eq, List.cons.injEq, Prod.mk.injEq,
    true_and, and_true, signingKey] at hk
  have hlen := congrArg List.length hk
  simp only [List.length_append] at hlen
  have l1 := encode_length_le b.client.secret
  have l2 := encode_length_le ((b.token.map (·.secret)).getD [])
  refine ⟨unreserved_of_encode_length (by omega), fun t ht => ?_⟩
  have h3 := unreserved_of_encode_length (s := (b.token.map (·.secret)).getD []) (by omega)
  rw [ht] at h3
  exact h3

/-- The shared case, whose secrets are not of unreserved characters. -/
example : ∃ out w', (Case.builder plaintext).authorize Case.cfg b!"GET" (.ofBytes Case.uri) Case.request
      Case.world = .ok (out, w') ∧ parseHeader out ≠ some ((Case.builder plaintext).params Case.cfg
        b!"PLAINTEXT" Case.world ++
          [(b!"oauth_signature", signingKey b!"client/secret" (some b!"token secret"))]) := by
  obtain ⟨out, w', h⟩ := Case.plaintextHeader
  refine ⟨out, w', h, fun e => ?_⟩
  have := ((C27_header_iff rfl Case.trace Case.standard (weave_ok Case.ok) _ rfl h).mp e).1
  exact absurd this (by decide)

/-! ### C29 -/

/-- A signing algorithm without its `consumer_key`: the method the trait provides is used instead. -/
def Sign.providedConsumerKey (s : Sign A) : Sign A :=
  { s with consumerKey := fun st v => s.parameter st b!"oauth_consumer_key" v }

/-- C29, exactly, for every pair of signature methods: authorizing with `Left(l)`/`Right(r)` is
authorizing with `l`/`r`, except that their `consumer_key` is replaced with the one the trait provides. -/
theorem C29_either_exact (l : SignatureMethod A) (r : SignatureMethod B) (cfg : Cfg)
    (client : Credentials Bytes) (token : Option (Credentials Bytes)) (options : Options)
    {req : Request} {cs : List Call} (hr : IsTrace req cs) (method : Bytes) :
    (let e := Builder.mk (eitherLeft l r.sign) client token options
      let b := Builder.mk { l with sign := l.sign.providedConsumerKey } client token options
      (∀ uri, e.authorize cfg method uri req = b.authorize cfg method uri req) ∧
      (∀ uri, e.toForm cfg method uri req = b.toForm cfg method uri req) ∧
      (∀ (wr : Writer W) (d : W → Display) (uri : W),
        e.toQuery cfg wr d method uri req = b.toQuery cfg wr d method uri req)) ∧
    (let e := Builder.mk (eitherRight l.sign r) client token options
      let b := Builder.mk { r with sign := r.sign.providedConsumerKey } client token options
      (∀ uri, e.authorize cfg method uri req = b.authorize cfg method uri req) ∧
      (∀ uri, e.toForm cfg method uri req = b.toForm cfg method uri req) ∧
      (∀ (wr : Writer W) (d : W → Display) (uri : W),
        e.toQuery cfg wr d method uri req = b.toQuery cfg wr d method uri req)) := by
  have hl : SignSim l.sign.providedConsumerKey (eitherSign l.sign r.sign) Sum.inl :=
    ⟨fun _ => rfl, fun _ => rfl, fun _ => rfl, fun c s => by cases c <;> rfl, fun _ => rfl⟩
  have hr' : SignSim r.sign.providedConsumerKey (eitherSign l.sign r.sign) Sum.inr :=
    ⟨fun _ => rfl, fun _ => rfl, fun _ => rfl, fun c s => by cases c <;> rfl, fun _ => rfl⟩
  exact ⟨builder_sim ⟨hl, fun _ _ => rfl⟩ cfg client token options hr method,
    builder_sim ⟨hr', fun _ _ => rfl⟩ cfg client token options hr method⟩

example := C29_either_exact (W := Bytes) hmacSha1 plaintext Case.cfg (.new b!"k" b!"s") none .new Case.trace
  b!"GET"

/-! ### C33 -/

/-- When a positive timestamp is sent: if one is configured, if the clock is at least one second past
the epoch, or, on `std`, if it is before the epoch. -/
def SendsPositive (cfg : Cfg) (options : Options) (clock : Int) : Prop :=
  options.timestamp.isSome = true ∨ 1000000000 ≤ clock ∨ (clock < 0 ∧ cfg.clock = .std)

/-- C33, exactly: the one `oauth_timestamp` of a header is a positive integer if and only if
`SendsPositive`; otherwise it is `0`. -/
theorem C33_positive_iff {cfg : Cfg} {b : Builder S} {name : Bytes} {un : Bool}
    (hsg : ConstSign b.signatureMethod.sign name un true) (hname : ∀ x ∈ name, unreserved x = true)
    {r : Request} {cs : List Call} (hr : IsTrace r cs) (hstd : Standard cs) (method : Bytes)
    (uri : Display) (w w' : World) (out : Bytes)
    (h : b.authorize cfg method uri r w = .ok (out, w')) :
    ∃ s sig text, b.signatureMethod.sign.end s = .ok sig ∧ (∃ ps, out = headerText ps sig.text) ∧
      (∀ d, HeaderSafe sig.text d → ∃ ps, parseHeader out = some ps ∧
        paramsNamed b!"oauth_timestamp" ps = [text]) ∧
      ((∃ n, PositiveInteger text n) ↔ SendsPositive cfg b.options (w.clock w.clockPos)) ∧
      (¬ SendsPositive cfg b.options (w.clock w.clockPos) → text = b!"0") := by
  obtain ⟨s, sig, h1, h2, h3⟩ := C09_header_parses hsg hname hr hstd method uri w w' out h
  have hrun : Runs cfg (b.env name un true) w uri cs := by
    rw [authorize_runWith, runWith_ok_iff hsg hr] at h
    exact h.1
  have hclock : b.options.timestamp = none → cfg.clock ≠ .none := by
    intro ht hc
    apply hrun.clock
    refine ⟨hc, ?_⟩
    have hmem : Call.oauth .timestamp ∈ cs := by
      have : Proto.timestamp ∈ cs.filterMap Call.proto? := by rw [hstd]; decide
      obtain ⟨c, hc, he⟩ := List.mem_filterMap.mp this
      cases c <;> simp [Call.proto?] at he
      subst he; exact hc
    exact List.any_eq_true.mpr ⟨_, hmem, by simp [needsClock, Builder.env, ht]⟩
  have hpos : SendsPositive cfg b.options (w.clock w.clockPos) →
      0 < (b.options.timestamp.map (·.val)).getD (w.time cfg) := by
    intro hp
    cases ht : b.options.timestamp with
    | some t => exact t.pos
    | none =>
      have hcl := hclock ht
      simp only [Option.map_none, Option.getD_none]
      rcases hp with hp | hp | ⟨hp, hc⟩
      · rw [ht] at hp; cases hp
      · unfold World.time
        cases hc : cfg.clock with
        | none => exact absurd hc hcl
        | js => simp only []; omega
        | std => simp only []; rw [if_pos (by omega)]; omega
      · unfold World.time
        rw [hc]
        simp only []
        rw [if_neg (by omega)]
        exact Nat.one_pos
  have hzero : ¬ SendsPositive cfg b.options (w.clock w.clockPos) →
      (b.options.timestamp.map (·.val)).getD (w.time cfg) = 0 := by
    intro hp
    cases ht : b.options.timestamp with
    | some t => exact absurd (.inl (by rw [ht]; rfl)) hp
    | none =>
      have hcl := hclock ht
      have h4 : w.clock w.clockPos < 1000000000 :=
        Int.not_le.mp fun h5 => hp (.inr (.inl h5))
      simp only [Option.map_none, Option.getD_none]
      unfold World.time
      cases hc : cfg.clock with
      | none => exact absurd hc hcl
      | js => simp only []; omega
      | std =>
        have h5 : 0 ≤ w.clock w.clockPos :=
          Int.not_lt.mp fun h5 => hp (.inr (.inr ⟨h5, hc⟩))
        simp only []
        rw [if_pos (by omega)]
        omega
  refine ⟨s, sig, decimal ((b.options.timestamp.map (·.val)).getD (w.time cfg)), h1, ⟨_, h2⟩,
    fun d hd => ⟨_, h3 d hd, ?_⟩, ⟨fun ⟨n, hn⟩ => ?_, fun hp => ⟨_, decimal_positive _ (hpos hp)⟩⟩,
    fun hp => (by rw [hzero hp]; decide)⟩
  · refine (congrArg (List.map (·.2)) (filter_params (b.env name un true) w.nonce (w.time cfg)
      .timestamp d (by decide))).trans ?_
    simp [Env.value, Builder.env]
  · apply Classical.byContradiction
    intro hp
    rw [hzero hp] at hn
    exact hn.2.2 (by decide)

/-- The shared case. -/
example : ∃ out w', (Case.builder hmacSha1).authorize Case.cfg b!"GET" (.ofBytes Case.uri) Case.request
      Case.world = .ok (out, w') ∧
    SendsPositive Case.cfg (Case.builder hmacSha1).options (Case.world.clock Case.world.clockPos) ∧
    ∃ ps text n, parseHeader out = some ps ∧ paramsNamed b!"oauth_timestamp" ps = [text] ∧
      PositiveInteger text n := by
  obtain ⟨out, w', h⟩ := Case.header
  have hp : SendsPositive Case.cfg (Case.builder hmacSha1).options (Case.world.clock Case.world.clockPos) :=
    .inr (.inl (by decide +kernel))
  obtain ⟨s, sig, text, h1, -, h2, h3, -⟩ := C33_positive_iff (constSign_hmac _) unreserved_hmacName Case.trace
    Case.standard _ _ _ _ _ h
  cases h1
  obtain ⟨n, hn⟩ := h3.mpr hp
  obtain ⟨ps, h4, h5⟩ := h2 _ (by rw [(base64PercentEncodeDisplay_text _).1]; exact headerSafe_encode _)
  exact ⟨out, w', h, hp, ps, text, n, h4, h5, hn⟩

/-! ### C23 -/

theorem reported_iff (fs : List Field) (prev : Bytes) (hs : NameSorted fs)
    (hp : ∀ f ∈ fs, bytesLe prev f.name = true) (n : Bytes) :
    .duplicateParameter n ∈ reported fs prev ↔ 2 ≤ (prev :: fs.map Field.name).count n := by
  induction fs generalizing prev with
  | nil =>
    simp only [reported, List.not_mem_nil, List.map_nil, false_iff]
    have := List.count_le_length (a := n) (l := [prev])
    simp only [List.length_cons, List.length_nil] at this
    omega
  | cons f fs ih =>
    unfold NameSorted at hs
    rw [List.pairwise_cons] at hs
    simp only [reported, List.mem_append, ih f.name hs.2 hs.1, List.map_cons]
    rw [List.count_cons (a := n) (b := prev)]
    constructor
    · rintro (h | h)
      · split at h
        · next e =>
          simp only [List.mem_singleton, Err.duplicateParameter.injEq] at h
          subst h
          rw [e, List.count_cons_self]
          simp
        · cases h
      · omega
    · intro h
      by_cases hn : prev = n
      · subst hn
        by_cases hf : f.name = prev
        · left; rw [if_pos hf, hf]; simp
        · exfalso
          have h0 : (f.name :: fs.map Field.name).count prev = 0 := by
            rw [List.count_eq_zero]
            intro hm
            rcases List.mem_cons.mp hm with e | hm
            · exact hf e.symm
            · obtain ⟨g, hg, e⟩ := List.mem_map.mp hm
              have h3 := hs.1 g hg
              rw [e] at h3
              exact hf (bytesLe_antisymm h3 (hp f (by simp)))
          rw [h0] at h
          simp at h
      · right
        simpa [hn] using h

/-- C23, exactly: the names reported as duplicates are those two fields have (skipped or not), and the
empty name if any field has it. -/
theorem C23_duplicates_exact (cfg : Cfg) {τ : Type} {S : Syn τ} (hS : Lawful S) (lookup : CrateLookup)
    (isIdent : Bytes → Bool) (attrs : List (Attribute τ)) (fs : List (SynField τ)) {es : List Err}
    {fb : Bool} (h : expand cfg S lookup isIdent ⟨attrs, some fs⟩ = .ok (.errors es fb))
    {gs : List Field} {cx : Ctxt} (hgs : newFields S fs [] = .ok (gs, cx)) (n : Bytes) :
    .duplicateParameter n ∈ es ↔
      2 ≤ (gs.map parameterName).count n ∨ (n = [] ∧ [] ∈ gs.map parameterName) := by
  rw [newFields_eq hS] at hgs
  simp only [Except.ok.injEq, Prod.mk.injEq] at hgs
  obtain ⟨rfl, -⟩ := hgs
  rw [duplicate_mem_iff cfg hS lookup isIdent attrs fs h n,
    reported_iff _ _ (sortByName_sorted _) (fun _ _ => bytesLe_nil _),
    (((sortByName_perm _).map _).cons _).count_eq, funext fieldName_eq, List.count_cons]
  by_cases hn : n = []
  · subst hn
    simp only [beq_self_eq_true, if_true, true_and]
    rw [← List.count_pos_iff]
    omega
  · have : ([] == n) = false := by simpa using Ne.symm hn
    simp [this, hn]

/-- C23, exactly: a struct is accepted if and only if its attributes are in order and its fields
(skipped or not) have distinct names none of which is empty. -/
theorem C23_accepted_iff (cfg : Cfg) {τ : Type} {S : Syn τ} (hS : Lawful S) (lookup : CrateLookup)
    (isIdent : Bytes → Bool) (attrs : List (Attribute τ)) (fs : List (SynField τ)) (i : Import) :
    (∃ body, expand cfg S lookup isIdent ⟨attrs, some fs⟩ = .ok (.impl i body)) ↔
      (∃ gs, newFields S fs [] = .ok (gs, []) ∧ (gs.map parameterName).Nodup ∧
        [] ∉ gs.map parameterName) ∧
      ∃ info, ContainerMeta.new S attrs [] = .ok (info, []) ∧
        importOf lookup isIdent info [] = .ok (i, []) := by
  simp only [expand_impl_iff cfg hS, newFields_eq hS, List.nil_append, Except.ok.injEq,
    Prod.mk.injEq, funext fieldName_eq, List.nodup_cons]
  constructor
  · rintro ⟨body, h1, ⟨h2, h3⟩, h4, -⟩
    exact ⟨⟨_, ⟨rfl, h1⟩, h3, h2⟩, h4⟩
  · rintro ⟨⟨gs, ⟨rfl, h1⟩, h3, h2⟩, h4⟩
    exact ⟨_, h1, ⟨h2, h3⟩, h4, rfl⟩

/-- Two fields of one name, one of them skipped: reported, and the other name is not. -/
example : ∃ es fb gs cx, expand ⟨true, true, .std⟩ tokSyn (.name b!"oauth") (fun _ => true)
      ⟨[], some [⟨[], b!"a", .other⟩, ⟨[oauth1Attr (listToks [word b!"skip"])], b!"r#a", .other⟩,
        ⟨[], b!"b", .other⟩]⟩ = .ok (.errors es fb) ∧
    newFields tokSyn [⟨[], b!"a", .other⟩, ⟨[oauth1Attr (listToks [word b!"skip"])], b!"r#a", .other⟩,
        ⟨[], b!"b", .other⟩] [] = .ok (gs, cx) ∧
    2 ≤ (gs.map parameterName).count b!"a" ∧ (gs.map parameterName).count b!"b" = 1 :=
  ⟨_, _, _, _, rfl, rfl, by decide +kernel, by decide +kernel⟩

/-! ### C44 and C45 -/

/-- The least value of the parameters of this name, or that there are none. -/
def LeastIs (ps : List Parameter) (name : Bytes) : Option Bytes → Prop
  | none => ∀ p ∈ ps, p.1 ≠ name
  | some v => (name, v) ∈ ps ∧ ∀ v', (name, v') ∈ ps → v ≤ v'

theorem first_least {ps : List Parameter} (h : Ascending ps) {name v : Bytes}
    (hf : first name ps = some v) : ∀ v', (name, v') ∈ ps → v ≤ v' := by
  induction ps with
  | nil => cases hf
  | cons p ps ih =>
    obtain ⟨k, x⟩ := p
    obtain ⟨h1, h2⟩ := List.pairwise_cons.mp h
    rw [Server.first_cons] at hf
    intro v' hv'
    split at hf
    · next hk =>
      cases hf
      subst hk
      rcases List.mem_cons.mp hv' with e | hm
      · cases e; exact List.le_refl _
      · rcases h1 _ hm with hlt | ⟨-, hle⟩
        · exact absurd hlt (List.lt_irrefl _)
        · exact hle
    · next hk =>
      rcases List.mem_cons.mp hv' with e | hm
      · cases e; exact absurd rfl hk
      · exact ih h2 hf v' hm

theorem first_iff (ps : List Parameter) (name : Bytes) (o : Option Bytes) :
    first name (sortPairs ps) = o ↔ LeastIs ps name o := by
  have hperm := (sortPairs_spec ps).1
  have hasc := (sortPairs_spec ps).2
  cases o with
  | none =>
    exact ⟨fun h p hp => Server.first_none h p (hperm.mem_iff.mpr hp), Server.first_sort_none⟩
  | some v =>
    constructor
    · intro h
      exact ⟨hperm.mem_iff.mp (Server.first_mem h),
        fun v' hv' => first_least hasc h v' (hperm.mem_iff.mpr hv')⟩
    · rintro ⟨h1, h2⟩
      cases hf : first name (sortPairs ps) with
      | none => exact absurd rfl (Server.first_none hf _ (hperm.mem_iff.mpr h1))
      | some v' =>
        have h3 := h2 v' (hperm.mem_iff.mp (Server.first_mem hf))
        have h4 := first_least hasc hf v (hperm.mem_iff.mpr h1)
        rw [List.le_antisymm h4 h3]

/-- What makes the server run a handler, of parameters `ps`. If a parameter is given several times, the
least value counts. -/
structure Accepted (L : Lib) (cfg : Cfg) (now : Nat) (req : HttpRequest) (ps : List Parameter)
    (expClient : Credentials Bytes) (expToken : Option (Credentials Bytes))
    (expVerifier : Option Bytes) : Prop where
  client : LeastIs ps b!"oauth_consumer_key" (some expClient.identifier)
  token : LeastIs ps b!"oauth_token" (expToken.map (·.identifier))
  verifier : LeastIs ps b!"oauth_verifier" expVerifier
  /-- Not too old; without overflow checks, `t + 30` wraps around. -/
  timestamp : LeastIs ps b!"oauth_timestamp" none ∨
    ∃ v t, LeastIs ps b!"oauth_timestamp" (some v) ∧ U64Text v t ∧
      ((t + 30 < 2 ^ 64 ∧ now ≤ t + 30) ∨
        (2 ^ 64 ≤ t + 30 ∧ cfg.debug = false ∧ now ≤ (t + 30) % 2 ^ 64))
  signature : ∃ signature method, LeastIs ps b!"oauth_signature" (some signature) ∧
    LeastIs ps b!"oauth_signature_method" (some method) ∧
    (method = b!"PLAINTEXT" ∨
      (method = b!"HMAC-SHA1" ∧ (∃ p ∈ ps, p.1 = b!"oauth_timestamp") ∧
        (∃ p ∈ ps, p.1 = b!"oauth_nonce") ∧ signature.length ≤ 28 ∧
        L.base64Decode signature = some (hmac Sha1.hash (sharedKey expClient expToken)
          (rawOrderBase req.method (b!"http://127.0.0.1:8080" ++ req.path) (unsigned ps)))))

/-- What makes the server panic, apart from its clock and a body that cannot be read. -/
def Overflows (cfg : Cfg) (ps : List Parameter) : Prop :=
  cfg.debug = true ∧ (∃ p ∈ ps, p.1 = b!"oauth_consumer_key") ∧
    (∃ p ∈ ps, p.1 = b!"oauth_signature") ∧ (∃ p ∈ ps, p.1 = b!"oauth_signature_method") ∧
    ∃ v t, LeastIs ps b!"oauth_timestamp" (some v) ∧ U64Text v t ∧ 2 ^ 64 ≤ t + 30

/-- Of two timestamps, the one that is first in the order of texts counts, not of numbers. -/
example : LeastIs [(b!"oauth_timestamp", b!"9"), (b!"oauth_timestamp", b!"10")] b!"oauth_timestamp"
    (some b!"10") := (first_iff _ _ _).mp (by decide +kernel)

theorem leastIs_unique {ps : List Parameter} {name : Bytes} {a b : Option Bytes}
    (ha : LeastIs ps name a) (hb : LeastIs ps name b) : a = b := by
  rw [← first_iff] at ha hb
  rw [← ha, ← hb]

theorem exists_leastIs {ps : List Parameter} {name : Bytes} :
    (∃ p ∈ ps, p.1 = name) ↔ ∃ v, LeastIs ps name (some v) := by
  constructor
  · rintro ⟨p, hp, rfl⟩
    cases hf : first p.1 (sortPairs ps) with
    | none => exact absurd rfl ((first_iff ps p.1 none).mp hf p hp)
    | some v => exact ⟨v, (first_iff ps _ _).mp hf⟩
  · rintro ⟨v, h, -⟩
    exact ⟨_, h, rfl⟩

/-- The three ways verification ends, of a request whose parameters can be read. -/
theorem verify_exact {L : Lib} {req : HttpRequest} {ps : List Parameter} (hrec : Received L req ps)
    (cfg : Cfg) (now : Nat) (client : Credentials Bytes) (token : Option (Credentials Bytes))
    (verifier : Option Bytes) :
    (Overflows cfg ps ∧ ¬ Accepted L cfg now req ps client token verifier ∧
      ∀ f, Server.verifyAndThen L cfg (some now) req client token verifier f = .error .overflow) ∨
    (¬ Overflows cfg ps ∧ Accepted L cfg now req ps client token verifier ∧
      ∃ o, ∀ f, Server.verifyAndThen L cfg (some now) req client token verifier f =
        .ok (f (sortPairs ps) o)) ∨
    (¬ Overflows cfg ps ∧ ¬ Accepted L cfg now req ps client token verifier ∧
      ∃ c, (c = 400 ∨ c = 401) ∧ ∀ f,
        Server.verifyAndThen L cfg (some now) req client token verifier f = .ok (.ofStatus c)) := by
  have hperm := (sortPairs_spec ps).1
  have hasc := (sortPairs_spec ps).2
  obtain ⟨cb, -, -, hv⟩ := Server.verifyAndThen_of_received hrec
  have hv := hv cfg (some now) client token verifier
  cases hrp : Server.readParams cb fun k => first k (sortPairs ps) with
  | error c =>
    simp only [hrp] at hv
    -- something required is missing, or the timestamp is no number
    have hbad : (first b!"oauth_consumer_key" (sortPairs ps) = none) ∨
        (first b!"oauth_signature" (sortPairs ps) = none) ∨
        (first b!"oauth_signature_method" (sortPairs ps) = none) ∨
        ∃ v, first b!"oauth_timestamp" (sortPairs ps) = some v ∧ Server.parseU64 v = none := by
      unfold Server.readParams at hrp
      split at hrp
      · next h => exact .inl h
      · split at hrp
        · next h => exact .inr (.inl h)
        · split at hrp
          · next h => exact .inr (.inr (.inl h))
          · split at hrp
            · cases hrp
            · next v h =>
              split at hrp
              · next h' => exact .inr (.inr (.inr ⟨v, h, h'⟩))
              · cases hrp
    simp only [first_iff] at hbad
    refine .inr (.inr ⟨?_, ?_, c, Server.readParams_error hrp, hv⟩)
    · rintro ⟨-, h1, h2, h3, v, t, h4, h5, -⟩
      rw [exists_leastIs] at h1 h2 h3
      obtain ⟨_, h1⟩ := h1
      obtain ⟨_, h2⟩ := h2
      obtain ⟨_, h3⟩ := h3
      rcases hbad with h | h | h | ⟨v', h, h'⟩
      · cases leastIs_unique h1 h
      · cases leastIs_unique h2 h
      · cases leastIs_unique h3 h
      · cases leastIs_unique h4 h
        rw [(Server.parseU64_iff _ _).mpr h5] at h'; cases h'
    · rintro ⟨h1, -, -, h4, s, m, h2, h3, -⟩
      rcases hbad with h | h | h | ⟨v', h, h'⟩
      · cases leastIs_unique h1 h
      · cases leastIs_unique h2 h
      · cases leastIs_unique h3 h
      · rcases h4 with h4 | ⟨v, t, h4, h5, -⟩
        · cases leastIs_unique h4 h
        · cases leastIs_unique h4 h
          rw [(Server.parseU64_iff _ _).mpr h5] at h'; cases h'
  | ok o =>
    simp only [hrp] at hv
    obtain ⟨r1, r2, r3, r4, r5, r6, -, r8⟩ := readParams_ok hrp
    have r4 := r4.symm
    have r5 := r5.symm
    have r6 := r6.symm
    simp only [first_iff] at r1 r2 r3 r4 r5 r6 r8
    by_cases hov : cfg.debug = true ∧ ∃ t, o.timestamp = some t ∧ 2 ^ 64 ≤ t + 30
    · obtain ⟨hd, t, ht, hlt⟩ := hov
      have hi : Server.inner L cfg (some now) req (sortPairs ps) o client token verifier =
          .error .overflow := by
        unfold Server.inner Server.checkTimestamp Server.addWindow
        rw [ht]
        simp only []
        rw [if_neg (by omega), if_pos hd]
        rfl
      simp only [hi] at hv
      rcases r8 with ⟨h1, -⟩ | ⟨v, t', h1, h2, h3⟩
      · rw [h1] at ht; cases ht
      · rw [h3] at ht
        cases ht
        refine .inl ⟨⟨hd, exists_leastIs.mpr ⟨_, r1⟩, exists_leastIs.mpr ⟨_, r2⟩,
          exists_leastIs.mpr ⟨_, r3⟩, v, t, h1, h2, hlt⟩, ?_, hv⟩
        rintro ⟨-, -, -, h4, -⟩
        rcases h4 with h4 | ⟨v', t', h4, h5, h6⟩
        · cases leastIs_unique h4 h1
        · cases leastIs_unique h4 h1
          replace h5 := (Server.parseU64_iff _ _).mpr h5
          rw [(Server.parseU64_iff _ _).mpr h2] at h5
          cases h5
          rcases h6 with ⟨h6, -⟩ | ⟨-, h6, -⟩
          · omega
          · rw [hd] at h6; cases h6
    · have hno : ¬ Overflows cfg ps := by
        rintro ⟨hd, -, -, -, v, t, h4, h5, h6⟩
        rcases r8 with ⟨-, h1⟩ | ⟨v', t', h1, h2, h3⟩
        · cases leastIs_unique h4 h1
        · cases leastIs_unique h4 h1
          replace h2 := (Server.parseU64_iff _ _).mpr h2
          rw [(Server.parseU64_iff _ _).mpr h5] at h2
          cases h2
          exact hov ⟨hd, t, h3, h6⟩
      obtain ⟨r, e1, e2⟩ := (Server.inner_outcome L cfg now req (sortPairs ps) o client token
        verifier).resolve_right hov
      simp only [e1] at hv
      right
      have hiff := Server.inner_ok_iff L cfg now req (sortPairs ps) o client token verifier
      rw [e1] at hiff
      have hacc : r = .ok () ↔ Accepted L cfg now req ps client token verifier := by
        rw [show r = .ok () ↔ (Except.ok r : Except Panic (Except Nat Unit)) = .ok (.ok ()) by
          simp, hiff]
        constructor
        · rintro ⟨i1, i2, i3, i4, i5⟩
          refine ⟨i2 ▸ r1, i3 ▸ r4, i4 ▸ r6, ?_, o.signature, o.signatureMethod, r2, r3, ?_⟩
          · rcases r8 with ⟨-, h1⟩ | ⟨v, t, h1, h2, h3⟩
            · exact .inl h1
            · obtain ⟨u, hu, hle⟩ := i1 t h3
              refine .inr ⟨v, t, h1, h2, ?_⟩
              unfold Server.addWindow at hu
              split at hu
              · next hlt => cases hu; exact .inl ⟨hlt, hle⟩
              · next hlt =>
                split at hu
                · cases hu
                · next hd => cases hu; exact .inr ⟨by omega, by simpa using hd, hle⟩
          · rcases i5 with h1 | ⟨h1, h2⟩
            · exact .inl h1
            · obtain ⟨j1, j2, j3, j4⟩ :=
                (Server.checkHmacSha1_ok_iff L req hasc o client token).mp h2
              refine .inr ⟨h1, ?_, ?_, j3, ?_⟩
              · rcases r8 with ⟨h, -⟩ | ⟨v, t, h, -, -⟩
                · rw [h] at j1; cases j1
                · exact exists_leastIs.mpr ⟨_, h⟩
              · obtain ⟨n, hn⟩ := Option.isSome_iff_exists.mp j2
                rw [hn] at r5
                exact exists_leastIs.mpr ⟨_, r5⟩
              · rw [j4, macKey_sharedKey]
                have hpu : (unsigned (sortPairs ps)).Perm (unsigned ps) := hperm.filter _
                rw [rawOrderBase_perm _ _ hpu]
        · rintro ⟨a1, a2, a3, a4, s, m, a5, a6, a7⟩
          refine ⟨?_, Option.some.inj (leastIs_unique r1 a1), leastIs_unique r4 a2,
            leastIs_unique r6 a3, ?_⟩
          · intro t ht
            rcases r8 with ⟨h, -⟩ | ⟨v, t', h1, h2, h3⟩
            · rw [h] at ht; cases ht
            · rw [h3] at ht
              cases ht
              rcases a4 with a4 | ⟨v', t', a4, a5, a6⟩
              · cases leastIs_unique a4 h1
              · cases leastIs_unique a4 h1
                replace a5 := (Server.parseU64_iff _ _).mpr a5
                rw [(Server.parseU64_iff _ _).mpr h2] at a5
                cases a5
                unfold Server.addWindow
                rcases a6 with ⟨a6, a7⟩ | ⟨a6, a7, a8⟩
                · exact ⟨_, if_pos a6, a7⟩
                · refine ⟨(t + 30) % 2 ^ 64, ?_, a8⟩
                  rw [if_neg (by omega), if_neg (by simp [a7])]
          · cases leastIs_unique a5 r2
            cases leastIs_unique a6 r3
            rcases a7 with a7 | ⟨a7, b1, b2, b3, b4⟩
            · exact .inl a7
            · refine .inr ⟨a7, (Server.checkHmacSha1_ok_iff L req hasc o client token).mpr
                ⟨?_, ?_, b3, ?_⟩⟩
              · obtain ⟨x, hx⟩ := exists_leastIs.mp b1
                rcases r8 with ⟨-, h⟩ | ⟨v, t, -, -, h⟩
                · cases leastIs_unique hx h
                · rw [h]; rfl
              · obtain ⟨x, hx⟩ := exists_leastIs.mp b2
                rw [← leastIs_unique hx r5]; rfl
              · rw [b4, macKey_sharedKey]
                have hpu : (unsigned (sortPairs ps)).Perm (unsigned ps) := hperm.filter _
                rw [rawOrderBase_perm _ _ hpu]
      cases r with
      | ok x =>
        cases x
        exact .inl ⟨hno, hacc.mp rfl, o, hv⟩
      | error c =>
        exact .inr ⟨hno, fun h => (by cases hacc.mpr h), c, e2 c rfl, hv⟩

/-- C44, exactly: the handler is run if and only if the request is `Accepted`. -/
theorem C44_accepted_iff {L : Lib} {req : HttpRequest} {ps : List Parameter} (hrec : Received L req ps)
    (cfg : Cfg) (now : Nat) (client : Credentials Bytes) (token : Option (Credentials Bytes))
    (verifier : Option Bytes) :
    (∃ o, ∀ f, Server.verifyAndThen L cfg (some now) req client token verifier f =
        .ok (f (sortPairs ps) o)) ↔ Accepted L cfg now req ps client token verifier := by
  rcases verify_exact hrec cfg now client token verifier with
    ⟨-, h1, h2⟩ | ⟨-, h1, h2⟩ | ⟨-, h1, c, -, h2⟩
  · refine ⟨fun ⟨o, h⟩ => ?_, fun h => absurd h h1⟩
    have := h fun _ _ => .ofStatus 200
    rw [h2] at this
    cases this
  · exact ⟨fun _ => h1, fun _ => h2⟩
  · refine ⟨fun ⟨o, h⟩ => ?_, fun h => absurd h h1⟩
    have := h fun _ _ => ⟨c + 1, []⟩
    rw [h2] at this
    simp [Response.ofStatus] at this

/-- C44, exactly: a request whose parameters can be read and that is neither `Accepted` nor makes the
server panic is answered 400 or 401, whatever the handler. -/
theorem C44_refused {L : Lib} {req : HttpRequest} {ps : List Parameter} (hrec : Received L req ps)
    {cfg : Cfg} {now : Nat} {client : Credentials Bytes} {token : Option (Credentials Bytes)}
    {verifier : Option Bytes} (hna : ¬ Accepted L cfg now req ps client token verifier)
    (hno : ¬ Overflows cfg ps) :
    ∃ c, (c = 400 ∨ c = 401) ∧ ∀ f,
      Server.verifyAndThen L cfg (some now) req client token verifier f = .ok (.ofStatus c) := by
  rcases verify_exact hrec cfg now client token verifier with
    ⟨h, -⟩ | ⟨-, h, -⟩ | ⟨-, -, h⟩
  · exact absurd h hno
  · exact absurd h hna
  · exact h

/-- C45, exactly: with a clock after the epoch, verification panics if and only if the body is needed
and cannot be read, or, in builds with overflow checks, the timestamp that counts is at least
`u64::MAX - 29` and the other required parameters are there. -/
theorem C45_panics_iff (L : Lib) (cfg : Cfg) (now : Nat) (req : HttpRequest)
    (client : Credentials Bytes) (token : Option (Credentials Bytes)) (verifier : Option Bytes)
    (f : List Parameter → OAuthParams → Response) :
    (∃ e, Server.verifyAndThen L cfg (some now) req client token verifier f = .error e) ↔
      (req.contentType = some b!"application/x-www-form-urlencoded" ∧ req.body = none) ∨
      ∃ ps, Received L req ps ∧ Overflows cfg ps := by
  by_cases hrec : ∃ ps, Received L req ps
  · obtain ⟨ps, hrec⟩ := hrec
    have hb : ¬ (req.contentType = some Server.formType ∧ req.body = none) := by
      rintro ⟨h1, h2⟩
      obtain ⟨form, header, h3, -, -⟩ := hrec
      rw [← Server.readForm_ok] at h3
      unfold Server.readForm at h3
      rw [if_pos h1, h2] at h3
      cases h3
    rcases verify_exact hrec cfg now client token verifier with
      ⟨h1, -, h2⟩ | ⟨h1, -, o, h2⟩ | ⟨h1, -, c, -, h2⟩
    · exact ⟨fun _ => .inr ⟨ps, hrec, h1⟩, fun _ => ⟨_, h2 f⟩⟩
    · rw [h2 f]
      refine ⟨fun ⟨e, h⟩ => (by cases h), ?_⟩
      rintro (h | ⟨ps', h3, h4⟩)
      · exact absurd h hb
      · rw [received_unique h3 hrec] at h4; exact absurd h4 h1
    · rw [h2 f]
      refine ⟨fun ⟨e, h⟩ => (by cases h), ?_⟩
      rintro (h | ⟨ps', h3, h4⟩)
      · exact absurd h hb
      · rw [received_unique h3 hrec] at h4; exact absurd h4 h1
  · constructor
    · rintro ⟨e, h⟩
      rcases Server.verifyAndThen_of_not_received (fun ps h => hrec ⟨ps, h⟩) cfg (some now) client
        token verifier f with h' | h'
      · rw [h'] at h; cases h
      · exact .inl h'
    · rintro (⟨h1, h2⟩ | ⟨ps, h, -⟩)
      · refine ⟨.server, ?_⟩
        replace h1 : req.contentType = some Server.formType := h1
        unfold Server.verifyAndThen Server.readForm
        rw [if_pos h1, h2]
        rfl
      · exact absurd ⟨ps, h⟩ hrec

/-- The two requests above: one that is accepted, one that makes the server panic. -/
example : ∃ ps, Received (Server.exampleLib true) forged ps ∧
    Accepted (Server.exampleLib true) ⟨true, true, .std⟩ 0 forged ps Server.CLIENT (some Server.TOKEN)
      none := by
  refine ⟨_, ⟨[], [(b!"oauth_consumer_key", b!"client"), (b!"oauth_token", b!"token"),
    (b!"oauth_signature_method", b!"PLAINTEXT"), (b!"oauth_signature", b!"wrong")], rfl, ?_, rfl⟩, ?_⟩
  · refine (Server.collectAuthParams_iff _ _ _).mp ?_
    have h : (Server.collectAuthParams (Server.exampleLib true) forged.authorization).toOption =
        some (some [(b!"oauth_consumer_key", b!"client"), (b!"oauth_token", b!"token"),
          (b!"oauth_signature_method", b!"PLAINTEXT"), (b!"oauth_signature", b!"wrong")]) := by
      decide +kernel
    cases hc : Server.collectAuthParams (Server.exampleLib true) forged.authorization with
    | error e => rw [hc] at h; cases h
    | ok x => rw [hc] at h; cases h; rfl
  · exact ⟨(first_iff _ _ _).mp (by decide +kernel), (first_iff _ _ _).mp (by decide +kernel),
      (first_iff _ _ _).mp (by decide +kernel), .inl ((first_iff _ _ _).mp (by decide +kernel)),
      b!"wrong", b!"PLAINTEXT", (first_iff _ _ _).mp (by decide +kernel),
      (first_iff _ _ _).mp (by decide +kernel), .inl rfl⟩

example : ∃ ps, Received (Server.exampleLib true) farFuture ps ∧
    Overflows ⟨true, true, .std⟩ ps := by
  have h : ∃ e, Server.verifyAndThen (Server.exampleLib true) ⟨true, true, .std⟩ (some 1700000000)
      farFuture Server.CLIENT (some Server.TOKEN) none (fun _ _ => ⟨200, []⟩) = .error e := by
    have h2 : (Server.verifyAndThen (Server.exampleLib true) ⟨true, true, .std⟩ (some 1700000000)
        farFuture Server.CLIENT (some Server.TOKEN) none (fun _ _ => ⟨200, []⟩)).toOption = none := by
      decide +kernel
    cases hv : Server.verifyAndThen (Server.exampleLib true) ⟨true, true, .std⟩ (some 1700000000)
        farFuture Server.CLIENT (some Server.TOKEN) none (fun _ _ => ⟨200, []⟩) with
    | error e => exact ⟨e, rfl⟩
    | ok x => rw [hv] at h2; cases h2
  exact ((C45_panics_iff _ _ _ _ _ _ _ _).mp h).resolve_left (fun h => (by cases h.2))

/-- `Left` of the algorithm that leaves out the consumer key authorizes as if it did not. -/
example :
    let o : Options := { timestamp := some ⟨1, by decide, by decide⟩, nonce := some b!"n" }
    let m : SignatureMethod Bytes := ⟨noConsumerKey, fun _ _ => .ok []⟩
    let run {S : Type} (m : SignatureMethod S) := ((Builder.mk m (.new b!"k" b!"s") none o).authorize
      ⟨true, true, .std⟩ b!"GET" (.ofBytes b!"http://a/") (requestOf (allProto.map .oauth))
      World.example).toOption.map (·.1)
    run (eitherLeft m noConsumerKey) = run { m with sign := m.sign.providedConsumerKey } ∧
      run (eitherLeft m noConsumerKey) ≠ run m := by
  decide +kernel

end OAuth
