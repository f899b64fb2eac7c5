import Verif.Properties.Signature
import Verif.Proofs.Worlds

/-
C30, C42: comparing two runs.
-/

namespace OAuth

open Spec

variable {S W : Type}

/-! ### C42: determinism -/

/-- Everything an authorizer is started with keeps the options. -/
theorem start_options {cfg : Cfg} {wr : Writer W} {sm : SignatureMethod S} {method : Bytes}
    {client : Credentials Bytes} {token : Option (Credentials Bytes)} {o : Options} :
    (∀ buf uri a, Authorizer.authorizationWithBuf cfg wr sm buf method uri client token o = .ok a →
      a.options = o) ∧
    (∀ (buf : W) uri a, Authorizer.formWithBuf cfg sm buf method uri client token o = .ok a →
      a.options = o) ∧
    (∀ (d : W → Display) uri a, Authorizer.query cfg d sm method uri client token o = .ok a →
      a.options = o) := by
  refine ⟨fun buf uri a h => ?_, fun buf uri a h => ?_, fun d uri a h => ?_⟩
  · unfold Authorizer.authorizationWithBuf at h
    obtain ⟨x, -, h⟩ := Except.bind_ok_iff.mp h
    obtain ⟨s, -, h⟩ := Except.bind_ok_iff.mp h
    cases h; rfl
  · unfold Authorizer.formWithBuf at h
    obtain ⟨s, -, h⟩ := Except.bind_ok_iff.mp h
    cases h; rfl
  · unfold Authorizer.query at h
    obtain ⟨s, -, h⟩ := Except.bind_ok_iff.mp h
    cases h; rfl

/-- C42, for every signature method, writer and request that makes no protocol call twice: the outcome
(text or panic) is the same in two worlds that agree on the next nine random bytes and the next clock
reading; the former matters only if no nonce is configured and the method uses one, the latter only if
no timestamp is configured and the method uses one. -/
theorem C42_deterministic (cfg : Cfg) (wr : Writer W) (display : W → Display) (b : Builder S)
    {r : Request} {cs : List Call} (hr : IsTrace r cs) (hnd : (cs.filterMap Call.proto?).Nodup)
    (method : Bytes) (w1 w2 : World)
    (hrng : b.options.nonce = none → (∃ s, b.signatureMethod.sign.useNonce s = true) →
      ∀ i < 9, w1.rng (w1.rngPos + i) = w2.rng (w2.rngPos + i))
    (hclock : b.options.timestamp = none → (∃ s, b.signatureMethod.sign.useTimestamp s = true) →
      w1.clock w1.clockPos = w2.clock w2.clockPos) :
    (∀ uri, result (b.authorize cfg method uri r w1) = result (b.authorize cfg method uri r w2)) ∧
    (∀ uri, result (b.toForm cfg method uri r w1) = result (b.toForm cfg method uri r w2)) ∧
    (∀ uri, result (b.toQuery cfg wr display method uri r w1) =
      result (b.toQuery cfg wr display method uri r w2)) ∧
    (∀ buf uri, result (b.authorizeWithBuf cfg wr buf method uri r w1) =
      result (b.authorizeWithBuf cfg wr buf method uri r w2)) ∧
    (∀ buf uri, result (b.toFormWithBuf cfg wr buf method uri r w1) =
      result (b.toFormWithBuf cfg wr buf method uri r w2)) := by
  have hv : SameView b.signatureMethod.sign b.options cs w1 w2 := by
    refine ⟨fun _ h1 h2 => ?_, fun _ => hclock⟩
    unfold World.nonceBytes
    apply List.map_congr_left
    intro i hi
    exact hrng h1 h2 i (List.mem_range.mp hi)
  refine ⟨fun uri => ?_, fun uri => ?_, fun uri => ?_, fun buf uri => ?_, fun buf uri => ?_⟩
  · exact runFrom_sameView cfg stringWriter _ (Authorizer.authorization cfg _ _ _ _ _ _) _
      (start_options.1 _ _) hr hnd w1 w2 hv
  · exact runFrom_sameView cfg stringWriter _ (Authorizer.form cfg _ _ _ _ _ _) _
      (start_options (wr := stringWriter).2.1 _ _) hr hnd w1 w2 hv
  · exact runFrom_sameView cfg wr _ (Authorizer.query cfg _ _ _ _ _ _ _) _
      (start_options (wr := wr).2.2 _ _) hr hnd w1 w2 hv
  · exact runFrom_sameView cfg wr _ (Authorizer.authorizationWithBuf cfg _ _ _ _ _ _ _ _) _
      (start_options.1 _ _) hr hnd w1 w2 hv
  · exact runFrom_sameView cfg wr _ (Authorizer.formWithBuf cfg _ _ _ _ _ _ _) _
      (start_options (wr := wr).2.1 _ _) hr hnd w1 w2 hv

/-- Two worlds that agree on the nine bytes and the reading used, and on nothing else. -/
example := C42_deterministic Case.cfg stringWriter .ofBytes (Case.builder hmacSha1) Case.trace
  (by rw [Case.standard]; decide) b!"GET" Case.world
  { rng := fun i => if i < 12 then (if i < 3 then 0 else Case.world.rng (i - 3)) else 0
    clock := fun i => if i = 5 then 1600000000000000000 else 0
    rngPos := 3, clockPos := 5 }
  (fun _ _ => by decide +kernel) (fun _ _ => by decide +kernel)

/-- C42: with nonce and timestamp pinned, whatever the request does, the outcome is the same in all
worlds and nothing is consumed. -/
theorem C42_pinned (cfg : Cfg) (wr : Writer W) (display : W → Display) (b : Builder S)
    (hn : b.options.nonce ≠ none) (ht : b.options.timestamp ≠ none)
    {r : Request} {cs : List Call} (hr : IsTrace r cs) (hnd : (cs.filterMap Call.proto?).Nodup)
    (method : Bytes) (w1 w2 : World) :
    (∀ uri, result (b.authorize cfg method uri r w1) = result (b.authorize cfg method uri r w2) ∧
      ∀ x, b.authorize cfg method uri r w1 = .ok x → x.2 = w1) ∧
    (∀ uri, result (b.toForm cfg method uri r w1) = result (b.toForm cfg method uri r w2) ∧
      ∀ x, b.toForm cfg method uri r w1 = .ok x → x.2 = w1) ∧
    (∀ uri, result (b.toQuery cfg wr display method uri r w1) =
        result (b.toQuery cfg wr display method uri r w2) ∧
      ∀ x, b.toQuery cfg wr display method uri r w1 = .ok x → x.2 = w1) ∧
    (∀ buf uri, result (b.authorizeWithBuf cfg wr buf method uri r w1) =
        result (b.authorizeWithBuf cfg wr buf method uri r w2) ∧
      ∀ x, b.authorizeWithBuf cfg wr buf method uri r w1 = .ok x → x.2 = w1) ∧
    (∀ buf uri, result (b.toFormWithBuf cfg wr buf method uri r w1) =
        result (b.toFormWithBuf cfg wr buf method uri r w2) ∧
      ∀ x, b.toFormWithBuf cfg wr buf method uri r w1 = .ok x → x.2 = w1) := by
  obtain ⟨d1, d2, d3, d4, d5⟩ := C42_deterministic cfg wr display b hr hnd method w1 w2
    (fun h => absurd h hn) (fun h => absurd h ht)
  have key : ∀ {W : Type} (wr : Writer W) (start : Except Panic (Authorizer S W)),
      (∀ a, start = .ok a → a.options = b.options) →
      ∀ x, runFrom cfg wr b.signatureMethod.sign start r w1 = .ok x → x.2 = w1 := by
    intro W wr start ho x hx
    obtain ⟨a, a', h1, h2⟩ := runFrom_world hr hx
    exact runCalls_pinned (by rw [ho a h1]; exact hn) (by rw [ho a h1]; exact ht) h2
  refine ⟨fun uri => ⟨d1 uri, ?_⟩, fun uri => ⟨d2 uri, ?_⟩, fun uri => ⟨d3 uri, ?_⟩,
    fun buf uri => ⟨d4 buf uri, ?_⟩, fun buf uri => ⟨d5 buf uri, ?_⟩⟩
  · exact key stringWriter (Authorizer.authorization cfg _ _ _ _ _ _) (start_options.1 _ _)
  · exact key stringWriter (Authorizer.form cfg _ _ _ _ _ _)
      (start_options (wr := stringWriter).2.1 _ _)
  · exact key wr (Authorizer.query cfg _ _ _ _ _ _ _) (start_options (wr := wr).2.2 _ _)
  · exact key wr (Authorizer.authorizationWithBuf cfg _ _ _ _ _ _ _ _) (start_options.1 _ _)
  · exact key wr (Authorizer.formWithBuf cfg _ _ _ _ _ _ _) (start_options (wr := wr).2.1 _ _)

/-- With everything pinned, in two worlds that agree on nothing. -/
example := C42_pinned Case.cfg stringWriter .ofBytes (Case.pinned hmacSha1) (by decide) (by decide) Case.trace
  (by rw [Case.standard]; decide) b!"GET" Case.world
  { rng := fun _ => 0, clock := fun _ => 0, rngPos := 3, clockPos := 5 }

/-- The world after consuming `n` random bytes and `c` clock readings. -/
def World.consumed (w : World) (n c : Nat) : World :=
  { w with rngPos := w.rngPos + n, clockPos := w.clockPos + c }

theorem foldl_advance_standard (e : Env) (w : World) (cs : List Call) (h : Standard cs) :
    cs.foldl (advance e) w = w.consumed (if e.useNonce ∧ e.options.nonce = none then 9 else 0)
      (if e.useTimestamp ∧ e.options.timestamp = none then 1 else 0) := by
  have skip : ∀ (cs : List Call) (w : World), cs.foldl (advance e) w =
      (cs.filterMap Call.proto?).foldl (fun w p => advance e w (.oauth p)) w := by
    intro cs
    induction cs with
    | nil => intro w; rfl
    | cons c cs ih =>
      intro w
      cases c with
      | parameter k v =>
        have : advance e w (.parameter k v) = w := by simp [advance, needsRng, needsClock]
        rw [List.foldl_cons, this]; exact ih w
      | parameterEncoded k v =>
        have : advance e w (.parameterEncoded k v) = w := by simp [advance, needsRng, needsClock]
        rw [List.foldl_cons, this]; exact ih w
      | oauth p => exact ih _
  rw [skip, h]
  simp only [allProto, List.foldl_cons, List.foldl_nil]
  cases h1 : e.useNonce <;> cases h2 : e.options.nonce <;> cases h3 : e.useTimestamp <;>
    cases h4 : e.options.timestamp <;>
    simp [advance, needsRng, needsClock, World.consumed, h1, h2, h3, h4]

/-- C42: exactly nine random bytes are consumed if no nonce is configured and the method uses one, and
none otherwise; likewise for one clock reading. -/
theorem C42_consumption {cfg : Cfg} (wr : Writer W) (display : W → Display) {b : Builder S}
    {name : Bytes} {un ut : Bool} (hsg : ConstSign b.signatureMethod.sign name un ut)
    {r : Request} {cs : List Call} (hr : IsTrace r cs) (hstd : Standard cs)
    (method : Bytes) (w : World) :
    let after := w.consumed (if un ∧ b.options.nonce = none then 9 else 0)
      (if ut ∧ b.options.timestamp = none then 1 else 0)
    (∀ uri x, b.authorize cfg method uri r w = .ok x → x.2 = after) ∧
    (∀ uri x, b.toForm cfg method uri r w = .ok x → x.2 = after) ∧
    (∀ uri x, b.toQuery cfg wr display method uri r w = .ok x → x.2 = after) ∧
    (∀ buf uri x, b.authorizeWithBuf cfg wr buf method uri r w = .ok x → x.2 = after) ∧
    (∀ buf uri x, b.toFormWithBuf cfg wr buf method uri r w = .ok x → x.2 = after) := by
  intro after
  have key : ∀ {W : Type} (wr : Writer W) (start : Except Panic (Authorizer S W)),
      (∀ a, start = .ok a → a.options = b.options) →
      ∀ x, runFrom cfg wr b.signatureMethod.sign start r w = .ok x → x.2 = after := by
    intro W wr start ho x hx
    obtain ⟨a, a', h1, h2⟩ := runFrom_world hr hx
    rw [runCalls_consumes (e := b.env name un ut) hsg (ho a h1) h2,
      foldl_advance_standard _ _ _ hstd]
    rfl
  refine ⟨fun uri => ?_, fun uri => ?_, fun uri => ?_, fun buf uri => ?_, fun buf uri => ?_⟩
  · exact key stringWriter (Authorizer.authorization cfg _ _ _ _ _ _) (start_options.1 _ _)
  · exact key stringWriter (Authorizer.form cfg _ _ _ _ _ _)
      (start_options (wr := stringWriter).2.1 _ _)
  · exact key wr (Authorizer.query cfg _ _ _ _ _ _ _) (start_options (wr := wr).2.2 _ _)
  · exact key wr (Authorizer.authorizationWithBuf cfg _ _ _ _ _ _ _ _) (start_options.1 _ _)
  · exact key wr (Authorizer.formWithBuf cfg _ _ _ _ _ _ _) (start_options (wr := wr).2.1 _ _)

/-- The signature methods of the crate use both. -/
example : ConstSign hmacSha1.sign b!"HMAC-SHA1" true true := constSign_hmac _

/-! ### C42: requests with the same parameters -/

/-- What a call conveys: a protocol parameter, or a key and the encoded text of its value. -/
def Spec.Call.conveys : Call → Proto ⊕ (Bytes × Bytes)
  | .oauth p => .inl p
  | .parameter k v => .inr (k, encode v.text)
  | .parameterEncoded k v => .inr (k, v.text)

theorem conveys_item (cfg : Cfg) (e : Env) (w : World) {c1 c2 : Call} (h : c1.conveys = c2.conveys) :
    (itemIn cfg e w c1).map (fun i => (i.key, i.sent)) =
      (itemIn cfg e w c2).map (fun i => (i.key, i.sent)) ∧
    c1.signed? e w.nonce (w.time cfg) = c2.signed? e w.nonce (w.time cfg) ∧
    advance e w c1 = advance e w c2 ∧ needsClock e c1 = needsClock e c2 := by
  cases c1 <;> cases c2 <;>
    simp_all [Call.conveys, itemIn, Call.signed?, advance, needsRng, needsClock]

theorem conveys_run (cfg : Cfg) (e : Env) (w : World) {cs1 cs2 : List Call}
    (h : cs1.map Call.conveys = cs2.map Call.conveys) :
    (itemsFrom cfg e w cs1).map (fun i => (i.key, i.sent)) =
      (itemsFrom cfg e w cs2).map (fun i => (i.key, i.sent)) ∧
    signedIn cfg e w cs1 = signedIn cfg e w cs2 ∧
    cs1.foldl (advance e) w = cs2.foldl (advance e) w ∧
    cs1.any (needsClock e) = cs2.any (needsClock e) := by
  induction cs1 generalizing w cs2 with
  | nil =>
    cases cs2 with
    | nil => exact ⟨rfl, rfl, rfl, rfl⟩
    | cons c cs => simp at h
  | cons c1 cs1 ih =>
    cases cs2 with
    | nil => simp at h
    | cons c2 cs2 =>
      simp only [List.map_cons, List.cons.injEq] at h
      obtain ⟨h1, h2, h3, h4⟩ := conveys_item cfg e w h.1
      obtain ⟨i1, i2, i3, i4⟩ := ih (advance e w c1) h.2
      rw [h3] at i1 i2 i3
      have hl : ∀ o : Option Item, o.toList.map (fun i : Item => (i.key, i.sent)) =
          (o.map fun i => (i.key, i.sent)).toList := by
        intro o; cases o <;> rfl
      refine ⟨?_, ?_, ?_, ?_⟩
      · simp only [itemsFrom, List.map_append, hl, h1, h3, i1]
      · simp only [signedIn] at i2
        simp only [signedIn, annotate, List.filterMap_cons, h2, h3, i2]
      · simp only [List.foldl_cons, h3, i3]
      · simp only [List.any_cons, i4, h4]

theorem sendAll_congr (d : Data Bytes) {is js : List Item}
    (h : is.map (fun i => (i.key, i.sent)) = js.map (fun i => (i.key, i.sent))) :
    d.sendAll is = d.sendAll js := by
  induction is generalizing d js with
  | nil =>
    cases js with
    | nil => rfl
    | cons j js => simp at h
  | cons i is ih =>
    cases js with
    | nil => simp at h
    | cons j js =>
      simp only [List.map_cons, List.cons.injEq, Prod.mk.injEq] at h
      obtain ⟨⟨h1, h2⟩, h3⟩ := h
      simp only [Data.sendAll, List.foldl_cons] at ih ⊢
      rw [h1, h2]
      exact ih _ h3

/-- C42: two requests conveying the same parameters, however written (fragmented, or encoded by the
caller or by the crate), are authorized alike by every signing algorithm that depends on the text of the
base string only. -/
theorem C42_same_parameters {cfg : Cfg} {b : Builder S} {name : Bytes} {un ut : Bool}
    (hsg : ConstSign b.signatureMethod.sign name un ut)
    (hname : ∀ x ∈ name, unreserved x = true) {add : S → Bytes → S}
    (habs : Absorbs b.signatureMethod.sign name add)
    {r1 r2 : Request} {cs1 cs2 : List Call} (hr1 : IsTrace r1 cs1) (hr2 : IsTrace r2 cs2)
    (hok1 : ∀ c ∈ cs1, c.ok) (hok2 : ∀ c ∈ cs2, c.ok)
    (hsame : cs1.map Call.conveys = cs2.map Call.conveys) (method : Bytes) (w w' : World)
    (out : Bytes) :
    (∀ uri : Display, uri.outcome = .ok → (b.authorize cfg method uri r1 w = .ok (out, w') ↔
      b.authorize cfg method uri r2 w = .ok (out, w'))) ∧
    (∀ uri : Display, uri.outcome = .ok → (b.toForm cfg method uri r1 w = .ok (out, w') ↔
      b.toForm cfg method uri r2 w = .ok (out, w'))) ∧
    (∀ uri : Bytes, (b.toQuery cfg stringWriter .ofBytes method uri r1 w = .ok (out, w') ↔
      b.toQuery cfg stringWriter .ofBytes method uri r2 w = .ok (out, w'))) := by
  have key : ∀ (data : Data Bytes) (uri : Display), uri.outcome = .ok →
      (b.runWith cfg data method uri r1 w = .ok (out, w') ↔
        b.runWith cfg data method uri r2 w = .ok (out, w')) := by
    intro data uri huri
    rw [runWith_absorbs hsg hname habs hr1 hok1 data method huri,
      runWith_absorbs hsg hname habs hr2 hok2 data method huri]
    obtain ⟨h1, h2, h3, h4⟩ := conveys_run cfg (b.env name un ut) w hsame
    have hkeys : (itemsFrom cfg (b.env name un ut) w cs1).map Item.key =
        (itemsFrom cfg (b.env name un ut) w cs2).map Item.key := by
      have := congrArg (List.map Prod.fst) h1
      simpa [List.map_map, Function.comp_def] using this
    have hruns : Runs cfg (b.env name un ut) w uri cs1 ↔ Runs cfg (b.env name un ut) w uri cs2 := by
      constructor
      · rintro ⟨a1, a2, a3⟩
        exact ⟨a1, by rw [← h4]; exact a2, by rw [← hkeys]; exact a3⟩
      · rintro ⟨a1, a2, a3⟩
        exact ⟨a1, by rw [h4]; exact a2, by rw [hkeys]; exact a3⟩
    rw [hruns, h2, h3, sendAll_congr data h1]
  refine ⟨fun uri hu => ?_, fun uri hu => ?_, fun uri => ?_⟩
  · rw [authorize_runWith, authorize_runWith]; exact key _ _ hu
  · rw [toForm_runWith, toForm_runWith]; exact key _ _ hu
  · rw [toQuery_runWith, toQuery_runWith]; exact key _ _ rfl

/-- Two ways to convey `a=x y`. -/
example : [Call.parameter b!"a" ⟨[b!"x ", b!"y"], .ok⟩].map Call.conveys =
    [Call.parameterEncoded b!"a" (.ofBytes b!"x%20y")].map Call.conveys := by decide +kernel

/-! ### C30: secrets -/

/-- Two builders that differ in the shared secrets at most. -/
structure SameButSecrets (b1 b2 : Builder S) : Prop where
  method : b1.signatureMethod = b2.signatureMethod
  client : b1.client.identifier = b2.client.identifier
  token : b1.token.map (·.identifier) = b2.token.map (·.identifier)
  options : b1.options = b2.options

/-- C30, for every signature method, also user-defined ones: two authorizations that differ in the
shared secrets at most differ in the text of the signature at most, and consume the same randomness and
clock readings. -/
theorem C30_secrets_only_in_signature {cfg : Cfg} {b1 b2 : Builder S} (hb : SameButSecrets b1 b2)
    {name : Bytes} {un ut : Bool} (hsg : ConstSign b1.signatureMethod.sign name un ut)
    {r : Request} {cs : List Call} (hr : IsTrace r cs) (method : Bytes) (w w1 w2 : World)
    (out1 out2 : Bytes) :
    (∀ uri, b1.authorize cfg method uri r w = .ok (out1, w1) →
      b2.authorize cfg method uri r w = .ok (out2, w2) → w1 = w2 ∧ ∃ pre sig1 sig2,
        out1 = pre ++ b!"oauth_signature=\"" ++ sig1 ++ b!"\"" ∧
        out2 = pre ++ b!"oauth_signature=\"" ++ sig2 ++ b!"\"") ∧
    (∀ uri, b1.toForm cfg method uri r w = .ok (out1, w1) →
      b2.toForm cfg method uri r w = .ok (out2, w2) → w1 = w2 ∧ ∃ pre sig1 sig2,
        out1 = pre ++ b!"oauth_signature=" ++ sig1 ∧ out2 = pre ++ b!"oauth_signature=" ++ sig2) ∧
    (∀ uri, b1.toQuery cfg stringWriter .ofBytes method uri r w = .ok (out1, w1) →
      b2.toQuery cfg stringWriter .ofBytes method uri r w = .ok (out2, w2) → w1 = w2 ∧
        ∃ pre sig1 sig2,
        out1 = pre ++ b!"oauth_signature=" ++ sig1 ∧ out2 = pre ++ b!"oauth_signature=" ++ sig2) := by
  have henv : b1.env name un ut = b2.env name un ut := by
    simp only [Builder.env, hb.client, hb.token, hb.options]
  have hsg2 : ConstSign b2.signatureMethod.sign name un ut := by rw [← hb.method]; exact hsg
  have key : ∀ (data : Data Bytes) (uri : Display),
      b1.runWith cfg data method uri r w = .ok (out1, w1) →
      b2.runWith cfg data method uri r w = .ok (out2, w2) → w1 = w2 ∧ ∃ d t1 t2,
        out1 = Data.finish (data.sendAll d) t1 ∧ out2 = Data.finish (data.sendAll d) t2 := by
    intro data uri h1 h2
    rw [runWith_ok_iff hsg hr] at h1
    rw [runWith_ok_iff hsg2 hr] at h2
    obtain ⟨-, e1, -, -, sig1, -, -, -, -, rfl⟩ := h1
    obtain ⟨-, e2, -, -, sig2, -, -, -, -, rfl⟩ := h2
    refine ⟨by rw [e1, e2, henv], itemsFrom cfg (b2.env name un ut) w cs, _, _, by rw [henv], rfl⟩
  have hform : ∀ d : Data Bytes, (∃ e, d = .urlencode e) → ∃ pre, ∀ t,
      d.finish t = pre ++ b!"oauth_signature=" ++ t := by
    rintro _ ⟨⟨x, n⟩, rfl⟩
    cases n
    · exact ⟨x, fun t => rfl⟩
    · exact ⟨x ++ b!"?", fun t => by simp [Data.finish]⟩
    · exact ⟨x ++ b!"&", fun t => by simp [Data.finish]⟩
  have hshape : ∀ (is : List Item) (d : Data Bytes), (∃ e, d = .urlencode e) →
      ∃ e, d.sendAll is = .urlencode e := by
    intro is
    induction is with
    | nil => exact fun d h => h
    | cons i is ih =>
      rintro _ ⟨⟨x, n⟩, rfl⟩
      simp only [Data.sendAll, List.foldl_cons] at ih ⊢
      apply ih
      cases i.sent with
      | none => exact ⟨_, rfl⟩
      | some t => cases n <;> exact ⟨_, rfl⟩
  refine ⟨fun uri h1 h2 => ?_, fun uri h1 h2 => ?_, fun uri h1 h2 => ?_⟩
  · rw [authorize_runWith] at h1 h2
    obtain ⟨hw, is, t1, t2, rfl, rfl⟩ := key _ _ h1 h2
    rw [sendAll_header]
    exact ⟨hw, _, t1, t2, rfl, rfl⟩
  · rw [toForm_runWith] at h1 h2
    obtain ⟨hw, is, t1, t2, rfl, rfl⟩ := key _ _ h1 h2
    obtain ⟨pre, hp⟩ := hform _ (hshape is _ ⟨_, rfl⟩)
    exact ⟨hw, pre, t1, t2, hp t1, hp t2⟩
  · rw [toQuery_runWith] at h1 h2
    obtain ⟨hw, is, t1, t2, rfl, rfl⟩ := key _ _ h1 h2
    obtain ⟨pre, hp⟩ := hform _ (hshape is _ ⟨_, rfl⟩)
    exact ⟨hw, pre, t1, t2, hp t1, hp t2⟩

theorem Case.sameButSecrets {S : Type} (sm : SignatureMethod S) :
    SameButSecrets (Case.builder sm) (Case.otherSecrets sm) := ⟨rfl, rfl, rfl, rfl⟩

/-- The shared case with two pairs of secrets. -/
example : ∃ out1 out2 w1 w2 pre sig1 sig2,
    (Case.builder hmacSha1).authorize Case.cfg b!"GET" (.ofBytes Case.uri) Case.request Case.world =
      .ok (out1, w1) ∧
    (Case.otherSecrets hmacSha1).authorize Case.cfg b!"GET" (.ofBytes Case.uri) Case.request Case.world =
      .ok (out2, w2) ∧
    out1 = pre ++ b!"oauth_signature=\"" ++ sig1 ++ b!"\"" ∧
    out2 = pre ++ b!"oauth_signature=\"" ++ sig2 ++ b!"\"" := by
  obtain ⟨out1, w1, h1⟩ := Case.header
  obtain ⟨out2, w2, h2⟩ : ∃ out w', (Case.otherSecrets hmacSha1).authorize Case.cfg b!"GET"
    (.ofBytes Case.uri) Case.request Case.world = .ok (out, w') := Case.ok_of_isSome (by decide +kernel)
  obtain ⟨-, pre, sig1, sig2, e1, e2⟩ := (C30_secrets_only_in_signature (Case.sameButSecrets hmacSha1)
    (constSign_hmac _) Case.trace _ _ _ _ _ _).1 _ h1 h2
  exact ⟨out1, out2, w1, w2, pre, sig1, sig2, h1, h2, e1, e2⟩

/-- C30: whether the run panics, and how, does not depend on the secrets either, for signature methods
that sign with both. -/
theorem C30_secrets_never_panic {cfg : Cfg} {b1 b2 : Builder S} (hb : SameButSecrets b1 b2)
    {name : Bytes} {un ut : Bool} {sig1 sig2 : Bytes → Bytes}
    (hs1 : b1.Signs name un ut sig1) (hs2 : b2.Signs name un ut sig2)
    {r : Request} {cs : List Call} (hr : IsTrace r cs) (hcs : ∀ c ∈ cs, c.ok) (method : Bytes)
    (uri : Display) (huri : uri.outcome = .ok) (w : World) :
    (∃ x, b1.authorize cfg method uri r w = .ok x) ↔ ∃ x, b2.authorize cfg method uri r w = .ok x := by
  have henv : b1.env name un ut = b2.env name un ut := by
    simp only [Builder.env, hb.client, hb.token, hb.options]
  constructor
  · rintro ⟨⟨out, w'⟩, h⟩
    rw [authorize_runWith] at h
    have := runWith_runs hs1 hr _ _ h
    rw [henv] at this
    exact ⟨_, authorize_signs hs2 hr hcs method huri this⟩
  · rintro ⟨⟨out, w'⟩, h⟩
    rw [authorize_runWith] at h
    have := runWith_runs hs2 hr _ _ h
    rw [← henv] at this
    exact ⟨_, authorize_signs hs1 hr hcs method huri this⟩

/-- A concrete pair of builders. -/
example : SameButSecrets (Builder.new (.new b!"k" b!"s") plaintext)
    (Builder.new (.new b!"k" b!"other") plaintext) := ⟨rfl, rfl, rfl, rfl⟩

example :
    let go := fun s => (((Builder.new (.new b!"k" s) plaintext).setNonce (some b!"n")).authorize
      ⟨true, true, .std⟩ b!"GET" (.ofBytes b!"http://a/")
      (AssertSorted.request ⟨true, true, .std⟩ examplePairs) World.example).toOption.map (·.1)
    (go b!"secret1").map (·.take 100) = (go b!"other").map (·.take 100) ∧ go b!"secret1" ≠ go b!"other" := by
  decide +kernel

end OAuth
