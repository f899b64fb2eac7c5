import Verif.Properties.Header
import Verif.Proofs.Decimal

/-
C32, C33: generated nonces and timestamps.
-/

namespace OAuth

open Spec

variable {S : Type}

/-- Dropping the leading zeroes of a string of known length loses nothing. -/
theorem trim_injective {r1 r2 : Bytes} (hl : r1.length = r2.length)
    (h : r1.drop (r1.findIdx (fun b => b != 0)) = r2.drop (r2.findIdx (fun b => b != 0))) :
    r1 = r2 := by
  have key : ∀ r : Bytes, r = List.replicate (r.findIdx (fun b => b != 0)) 0 ++
      r.drop (r.findIdx (fun b => b != 0)) := by
    intro r
    induction r with
    | nil => rfl
    | cons b r ih =>
      rw [List.findIdx_cons]
      by_cases hb : b = 0
      · subst hb
        simp only [bne_self_eq_false, cond_false, List.replicate_succ, List.cons_append,
          List.drop_succ_cons]
        rw [← ih]
      · have : (b != 0) = true := by simpa using hb
        simp [this]
  have hlen := congrArg List.length h
  simp only [List.length_drop] at hlen
  have b1 := List.findIdx_le_length (xs := r1) (p := fun b => b != 0)
  have b2 := List.findIdx_le_length (xs := r2) (p := fun b => b != 0)
  rw [key r1, key r2, h, show r1.findIdx (fun b => b != 0) = r2.findIdx (fun b => b != 0) by omega]

/-- C32: for every nine random bytes, `gen_nonce` does not panic and gives at most twelve URL-safe
base64 characters, which encoding leaves as they are. -/
theorem C32_nonce_text (rand : Bytes) (h : rand.length = 9) :
    ∃ n, Authorizer.genNonce rand = .ok n ∧ n.length ≤ 12 ∧ (∀ c ∈ n, c ∈ base64UrlAlphabet) ∧
      encode n = n := by
  refine ⟨_, genNonce_ok rand (by omega), ?_, ?_, encode_of_unreserved (base64UrlNoPad_unreserved _)⟩
  · rw [base64UrlNoPad_length, List.length_drop]
    omega
  · intro c hc
    unfold base64UrlNoPad at hc
    rw [base64Encode_eq] at hc
    simp only [Bool.false_eq_true, if_false, List.append_nil, List.mem_map] at hc
    obtain ⟨k, hk, rfl⟩ := hc
    have := (symbol_value true k (base64Sixes_lt _ k hk)).1
    have hi := List.idxOf?_eq_some_iff.mp this
    exact hi.2.1 ▸ List.getElem_mem _

example : ∃ n, Authorizer.genNonce [0xFB, 0xFF, 0xBE, 0, 1, 2, 0xFE, 0xDC, 0xBA] = .ok n ∧ n.length = 12 ∧
    n = b!"-_--AAEC_ty6" := ⟨_, genNonce_ok _ (by decide), by decide +kernel, by decide +kernel⟩

/-- C32: two nonces are equal only if all nine bytes are. -/
theorem C32_nonce_injective (r1 r2 : Bytes) (h1 : r1.length = 9) (h2 : r2.length = 9)
    (h : Authorizer.genNonce r1 = Authorizer.genNonce r2) : r1 = r2 := by
  rw [genNonce_ok r1 (by omega), genNonce_ok r2 (by omega)] at h
  have h := Except.ok.inj h
  have d1 := base64_decodeNoPad true (r1.drop (r1.findIdx (fun b => b != 0)))
  have d2 := base64_decodeNoPad true (r2.drop (r2.findIdx (fun b => b != 0)))
  unfold base64UrlNoPad at h
  rw [h, d2] at d1
  exact trim_injective (by omega) (Option.some.inj d1).symm

/-- Leading zero bytes: shorter nonces, down to the empty one. -/
example : (Authorizer.genNonce [0, 0, 0, 0, 0, 0, 0, 0, 1]).toOption = some b!"AQ" ∧
    (Authorizer.genNonce [0, 0, 0, 0, 0, 0, 0, 0, 0]).toOption = some [] ∧
    (Authorizer.genNonce [255, 255, 255, 255, 255, 255, 255, 255, 254]).toOption =
      some b!"___________-" := by
  decide +kernel

/-- The parameters of one name among those sent. -/
theorem filter_params (e : Env) (n : Bytes) (t : Nat) (p : Proto) (d : Bytes)
    (hp : p.name ≠ b!"oauth_signature") :
    (e.protocolParams n t ++ [(b!"oauth_signature", d)]).filter (fun q => q.1 = p.name) =
      ((e.value n t p).map fun v => (p.name, v)).toList := by
  have hinj : ∀ a b : Proto, a.name = b.name → a = b := by
    intro a b; cases a <;> cases b <;> decide
  rw [List.filter_append, Env.protocolParams, List.filter_filterMap]
  have h1 : (fun x => Option.filter (fun q : Bytes × Bytes => decide (q.1 = p.name))
      ((e.value n t x).map fun v => (x.name, v))) =
      fun x => if x = p then (e.value n t p).map fun v => (p.name, v) else none := by
    funext x
    by_cases hx : x = p
    · subst hx
      cases e.value n t x <;> simp
    · have : x.name ≠ p.name := fun h => hx (hinj _ _ h)
      cases e.value n t x <;> simp [hx, this]
  rw [h1]
  have h2 : ([(b!"oauth_signature", d)].filter fun q : Bytes × Bytes => decide (q.1 = p.name)) = [] := by
    simp [Ne.symm hp]
  rw [h2, List.append_nil]
  generalize ((e.value n t p).map fun v => (p.name, v)) = o
  cases p <;> cases o <;> rfl

/-- C32, in the header: without a configured nonce, the one sent is made of the next nine random
bytes; hence two requests carry the same generated nonce only if these bytes coincide. -/
theorem C32_nonce_sent {cfg : Cfg} {b : Builder S} {name : Bytes} {ut : Bool}
    (hsg : ConstSign b.signatureMethod.sign name true ut) (hname : ∀ x ∈ name, unreserved x = true)
    (hnone : b.options.nonce = none)
    {r : Request} {cs : List Call} (hr : IsTrace r cs) (hstd : Standard cs) (method : Bytes)
    (uri : Display) (w w' : World) (out : Bytes)
    (h : b.authorize cfg method uri r w = .ok (out, w')) :
    ∃ s sig n, b.signatureMethod.sign.end s = .ok sig ∧ (∃ ps, out = headerText ps sig.text) ∧
      Authorizer.genNonce ((List.range 9).map fun i => w.rng (w.rngPos + i)) = .ok n ∧
      (∀ d, HeaderSafe sig.text d → ∃ ps, parseHeader out = some ps ∧
        ps.filter (fun p => p.1 = b!"oauth_nonce") = [(b!"oauth_nonce", n)]) := by
  obtain ⟨s, sig, h1, h2, h3⟩ := C09_header_parses hsg hname hr hstd method uri w w' out h
  refine ⟨s, sig, w.nonce, h1, ⟨_, h2⟩, genNonce_ok _ (by simp), fun d hd => ⟨_, h3 d hd, ?_⟩⟩
  refine (filter_params _ _ _ .nonce d (by decide)).trans ?_
  simp [Env.value, Builder.env, hnone, Proto.name]

/-- The shared case: the nonce made of the bytes 1, 8, 15, … -/
example : ∃ out w', (Case.builder hmacSha1).authorize Case.cfg b!"GET" (.ofBytes Case.uri) Case.request
      Case.world = .ok (out, w') ∧ ∃ ps, parseHeader out = some ps ∧
        ps.filter (fun p => p.1 = b!"oauth_nonce") = [(b!"oauth_nonce", b!"AQgPFh0kKzI5")] := by
  obtain ⟨out, w', h⟩ := Case.header
  obtain ⟨s, sig, n, h1, -, h2, h3⟩ := C32_nonce_sent (constSign_hmac _) unreserved_hmacName rfl Case.trace
    Case.standard _ _ _ _ _ h
  have hn : n = b!"AQgPFh0kKzI5" := by
    rw [genNonce_ok _ (by simp)] at h2
    exact (Except.ok.inj h2).symm.trans (by decide +kernel)
  subst hn
  cases h1
  exact ⟨out, w', h, h3 _ (by rw [(base64PercentEncodeDisplay_text _).1]; exact headerSafe_encode _)⟩

/-! ### Timestamps -/

/-- The parameters of a header with a given name. -/
def paramsNamed (k : Bytes) (ps : List (Bytes × Bytes)) : List Bytes :=
  (ps.filter (fun p => p.1 = k)).map (·.2)

/-- C33, the claim, for HMAC-SHA1: the one `oauth_timestamp` of a header is a positive integer. -/
def C33_claim : Prop :=
  ∀ (cfg : Cfg) (b : Builder Hmac) (pairs : List Pair) (method : Bytes) (uri : Display)
    (w w' : World) (out : Bytes), b.signatureMethod = hmacSha1 →
    b.authorize cfg method uri (AssertSorted.request cfg pairs) w = .ok (out, w') →
    ∃ ps s n, parseHeader out = some ps ∧ paramsNamed b!"oauth_timestamp" ps = [s] ∧
      PositiveInteger s n

/-- C33 for every signature method, when a timestamp is configured (it is that one), or the clock is
at least one second past the epoch (it is the number of whole seconds) or, on `std`, before the epoch
(it is 1). Missing: the first second of 1970, and earlier times on `js`, see `C33_violated`. -/
theorem C33_timestamp_partial {cfg : Cfg} {b : Builder S} {name : Bytes} {un : Bool}
    (hsg : ConstSign b.signatureMethod.sign name un true) (hname : ∀ x ∈ name, unreserved x = true)
    {r : Request} {cs : List Call} (hr : IsTrace r cs) (hstd : Standard cs) (method : Bytes)
    (uri : Display) (w w' : World) (out : Bytes)
    (h : b.authorize cfg method uri r w = .ok (out, w')) :
    ∃ s sig text, b.signatureMethod.sign.end s = .ok sig ∧ (∃ ps, out = headerText ps sig.text) ∧
      (∀ d, HeaderSafe sig.text d → ∃ ps, parseHeader out = some ps ∧
        paramsNamed b!"oauth_timestamp" ps = [text]) ∧
      (∀ t, b.options.timestamp = some t → PositiveInteger text t.val) ∧
      (b.options.timestamp = none →
        (1000000000 ≤ w.clock w.clockPos →
          ∃ n : Nat, PositiveInteger text n ∧ (n : Int) * 1000000000 ≤ w.clock w.clockPos ∧
            w.clock w.clockPos < ((n : Int) + 1) * 1000000000) ∧
        (w.clock w.clockPos < 0 → cfg.clock = .std → PositiveInteger text 1)) := by
  obtain ⟨s, sig, h1, h2, h3⟩ := C09_header_parses hsg hname hr hstd method uri w w' out h
  have hrun : Runs cfg (b.env name un true) w uri cs := by
    rw [authorize_runWith, runWith_ok_iff hsg hr] at h
    exact h.1
  refine ⟨s, sig, decimal ((b.options.timestamp.map (·.val)).getD (w.time cfg)), h1, ⟨_, h2⟩,
    fun d hd => ⟨_, h3 d hd, ?_⟩, ?_, ?_⟩
  · refine (congrArg (List.map (·.2)) (filter_params (b.env name un true) w.nonce (w.time cfg)
      .timestamp d (by decide))).trans ?_
    simp [Env.value, Builder.env]
  · intro t ht
    rw [ht]
    exact decimal_positive _ t.pos
  · intro ht
    have hclock : cfg.clock ≠ .none := by
      intro hc
      apply hrun.clock
      refine ⟨hc, ?_⟩
      have hmem : Call.oauth .timestamp ∈ cs := by
        have : Proto.timestamp ∈ cs.filterMap Call.proto? := by rw [hstd]; decide
        obtain ⟨c, hc, he⟩ := List.mem_filterMap.mp this
        cases c <;> simp [Call.proto?] at he
        subst he; exact hc
      exact List.any_eq_true.mpr ⟨_, hmem, by simp [needsClock, Builder.env, ht]⟩
    rw [ht]
    simp only [Option.map_none, Option.getD_none]
    refine ⟨fun hge => ?_, fun hlt hstd => ?_⟩
    · have htime : w.time cfg = (w.clock w.clockPos / 1000000000).toNat := by
        unfold World.time
        cases hc : cfg.clock with
        | none => exact absurd hc hclock
        | js => rfl
        | std => simp only []; rw [if_pos (by omega)]
      refine ⟨w.time cfg, decimal_positive _ (by omega), by omega, by omega⟩
    · have htime : w.time cfg = 1 := by
        unfold World.time
        rw [hstd]
        simp only []
        rw [if_neg (by omega)]
      rw [htime]
      exact decimal_positive 1 (by decide)

/-- A clock reading past the epoch. -/
example : ∃ out w', (Case.builder hmacSha1).authorize Case.cfg b!"GET" (.ofBytes Case.uri) Case.request
      Case.world = .ok (out, w') ∧ (Case.builder hmacSha1).options.timestamp = none ∧
    1000000000 ≤ Case.world.clock Case.world.clockPos ∧
    ∃ n : Nat, (n : Int) * 1000000000 ≤ Case.world.clock Case.world.clockPos ∧
      Case.world.clock Case.world.clockPos < ((n : Int) + 1) * 1000000000 := by
  obtain ⟨out, w', h⟩ := Case.header
  obtain ⟨s, sig, text, -, -, -, -, h4⟩ := C33_timestamp_partial (constSign_hmac _) unreserved_hmacName
    Case.trace Case.standard _ _ _ _ _ h
  obtain ⟨n, -, h5⟩ := (h4 rfl).1 (by decide +kernel)
  exact ⟨out, w', h, rfl, by decide +kernel, n, h5⟩

/-- C33 is false: within the first second after the epoch, `oauth_timestamp="0"` is sent. -/
theorem C33_violated : ¬ C33_claim := by
  intro h
  let b := Builder.new (.new b!"k" b!"s") hmacSha1
  let w : World := { rng := fun _ => 1, clock := fun _ => 999999999 }
  let out := b!"OAuth oauth_consumer_key=\"k\",oauth_nonce=\"AQEBAQEBAQEB\",oauth_signature_method=\"HMAC-SHA1\",oauth_timestamp=\"0\",oauth_signature=\"6TPn%2FNoDOr3lnCy4zuZXrbl%2BG0Q%3D\""
  have hrun : (b.authorize ⟨true, true, .std⟩ b!"GET" (.ofBytes b!"http://a/")
      (AssertSorted.request ⟨true, true, .std⟩ []) w).toOption.map (·.1) = some out := by
    decide +kernel
  cases hr : b.authorize ⟨true, true, .std⟩ b!"GET" (.ofBytes b!"http://a/")
      (AssertSorted.request ⟨true, true, .std⟩ []) w with
  | error p => rw [hr] at hrun; cases hrun
  | ok x =>
    obtain ⟨o, w'⟩ := x
    rw [hr] at hrun
    have ho : o = out := Option.some.inj hrun
    subst ho
    obtain ⟨ps, s, n, h1, h2, h3, h4, h5⟩ := h _ b [] b!"GET" _ w w' _ rfl hr
    have hps : (parseHeader out).map (paramsNamed b!"oauth_timestamp") = some [b!"0"] := by
      decide +kernel
    rw [h1, Option.map_some, h2] at hps
    simp only [Option.some.injEq, List.cons.injEq, and_true] at hps
    subst hps
    exact h5 rfl

/-- A configured timestamp: `PositiveInteger` of its text. -/
example : PositiveInteger b!"1234567890" 1234567890 := by decide +kernel

end OAuth
