import Verif.Proofs.Simulate
import Verif.Proofs.Signing
import Verif.Properties.Size
import Verif.Proofs.Cases

/-
C97: PLAINTEXT with any type of buffer for the signing key.
-/

namespace OAuth

open Spec

variable {B : Type}

/-- The fragments of the signing key, in the order they are written. -/
theorem writeSigningKey_eq (cs : Bytes) (ts : Option Bytes) :
    ∃ chunks : List Bytes, chunks.flatten = signingKey cs ts ∧
      ∀ (B : Type) (wr : Writer B) (dst : B), writeSigningKey wr dst cs ts =
        match wr.writeAll dst chunks with
        | some s => .ok s
        | none => .error .fmtUnwrap := by
  have key : ∀ (B : Type) (wr : Writer B) (dst : B) (l₁ l₂ : List Bytes),
      wr.writeAll dst (l₁ ++ l₂) = (wr.writeAll dst l₁).bind fun d => wr.writeAll d l₂ := by
    intro B wr dst l₁ l₂
    induction l₁ generalizing dst with
    | nil => rfl
    | cons c l₁ ih =>
      simp only [List.cons_append, Writer.writeAll]
      cases wr.writeStr dst c with
      | none => rfl
      | some d => exact ih d
  refine ⟨(percentEncodeStr cs).chunks ++ ([b!"&"] ++
    (ts.elim [] fun t => (percentEncodeStr t).chunks)), ?_, fun B wr dst => ?_⟩
  · rw [List.flatten_append, List.flatten_append]
    have : ∀ s, (percentEncodeStr s).chunks.flatten = encode s := percentEncodeStr_text
    cases ts with
    | none => simp [signingKey, this, encode]
    | some t => simp [signingKey, this]
  · rw [key]
    simp only [writeSigningKey, Writer.writeUnwrap, percentEncodeStr_outcome, bind, Except.bind]
    cases wr.writeAll dst (percentEncodeStr cs).chunks with
    | none => rfl
    | some d =>
      simp only [Option.bind, Display.ofBytes, List.cons_append, List.nil_append, Writer.writeAll]
      cases wr.writeStr d b!"&" with
      | none => rfl
      | some d' =>
        cases ts with
        | none => rfl
        | some t =>
          simp only [Option.elim]
          cases wr.writeAll d' (percentEncodeStr t).chunks <;> rfl

/-- C97, signing: what is written to the buffer are fragments of the signing key of RFC 5849, the same for
every type of buffer; the method signs exactly if the buffer accepts them all, and panics otherwise. -/
theorem C97_signing (cs : Bytes) (ts : Option Bytes) :
    ∃ writes : List Bytes, writes.flatten = signingKey cs ts ∧
      ∀ (B : Type) (wr : Writer B) (default : B) (display : B → Display),
        (∀ s, (plaintextWithBuf wr default display).signWith cs ts = .ok s ↔ Writes wr default writes s) ∧
        ((¬ ∃ s, Writes wr default writes s) →
          (plaintextWithBuf wr default display).signWith cs ts = .error .fmtUnwrap) := by
  obtain ⟨chunks, h1, h2⟩ := writeSigningKey_eq cs ts
  refine ⟨chunks, h1, fun B wr default display => ?_⟩
  simp only [plaintextWithBuf, h2, writes_iff]
  cases wr.writeAll default chunks with
  | none => simp
  | some s => simp

/-- The algorithm of PLAINTEXT never changes its state. -/
theorem plaintext_sim (display : B → Display) (s : B) (k : Bytes) :
    SignRel (plaintextSign display) (plaintextSign Display.ofBytes) (fun x y => x = s ∧ y = k) where
  name _ _ _ := rfl
  useNonce _ _ _ := rfl
  useTimestamp _ _ _ := rfl
  parameter _ _ h _ _ := h
  delimiter _ _ h := h
  callback _ _ h _ := h
  consumerKey _ _ h _ := h
  nonce _ _ h _ := h
  signatureMethod _ _ h := h
  timestamp _ _ h _ := h
  token _ _ h _ := h
  verifier _ _ h _ := h
  version _ _ h := h

/-- The output of a run with PLAINTEXT on another buffer, from that of the run with `PLAINTEXT`: the text
shown by the buffer is put where the signing key was; if it cannot be shown, the run panics as the buffer
does. -/
def Replaces (key : Bytes) (shown : Display) (ref other : Except Panic (Bytes × World)) : Prop :=
  (∀ p, ref = .error p → other = .error p) ∧
  ∀ out w', ref = .ok (out, w') → ∃ pre post, out = pre ++ key ++ post ∧
    other = match shown.outcome with
      | .ok => .ok (pre ++ shown.text ++ post, w')
      | .err => .error .fmtUnwrap
      | .panic p => .error p

theorem finish_split (d : Data Bytes) : ∃ pre post, ∀ t, d.finish t = pre ++ t ++ post := by
  cases d with
  | authorization h => exact ⟨h ++ b!"oauth_signature=\"", b!"\"", fun t => by simp [Data.finish]⟩
  | urlencode u =>
    obtain ⟨d, n⟩ := u
    cases n
    · exact ⟨d ++ b!"oauth_signature=", [], fun t => by simp [Data.finish]⟩
    · exact ⟨d ++ b!"?oauth_signature=", [], fun t => by simp [Data.finish]⟩
    · exact ⟨d ++ b!"&oauth_signature=", [], fun t => by simp [Data.finish]⟩

theorem replaces_serialize (cfg : Cfg) (display : B → Display) (s : B) (k : Bytes) {r : Request}
    {cs : List Call} (hr : IsTrace r cs) (data : Data Bytes) (client : Credentials Bytes)
    (token : Option (Credentials Bytes)) (options : Options) (w : World) :
    Replaces k (display s)
      (r.serialize (Authorizer.serializer cfg stringWriter (plaintextSign Display.ofBytes))
        (Authorizer.new_ data k client token options) w)
      (r.serialize (Authorizer.serializer cfg stringWriter (plaintextSign display))
        (Authorizer.new_ data s client token options) w) := by
  have h := sim_calls (plaintext_sim display s k) cfg stringWriter cs
    (a := Authorizer.new_ data s client token options) (b := Authorizer.new_ data k client token options)
    ⟨rfl, rfl, rfl, rfl, ⟨rfl, rfl⟩, rfl, rfl⟩ w
  rw [hr, hr]
  simp only [bind, StateT.bind, Except.bind]
  cases hx : runCalls (Authorizer.serializer cfg stringWriter (plaintextSign display)) cs
      (Authorizer.new_ data s client token options) w with
  | error p =>
    cases hy : runCalls (Authorizer.serializer cfg stringWriter (plaintextSign Display.ofBytes)) cs
        (Authorizer.new_ data k client token options) w with
    | error q =>
      rw [hx, hy] at h
      cases (show p = q from h)
      exact ⟨fun _ h => h, fun _ _ h => nomatch h⟩
    | ok y => rw [hx, hy] at h; exact h.elim
  | ok x =>
    cases hy : runCalls (Authorizer.serializer cfg stringWriter (plaintextSign Display.ofBytes)) cs
        (Authorizer.new_ data k client token options) w with
    | error q => rw [hx, hy] at h; exact h.elim
    | ok y =>
      rw [hx, hy] at h
      obtain ⟨a, w1⟩ := x
      obtain ⟨b, w2⟩ := y
      obtain ⟨hab, hw⟩ := h
      cases (show w1 = w2 from hw)
      obtain ⟨pre, post, hf⟩ := finish_split b.data
      have hb : b.endM stringWriter (plaintextSign Display.ofBytes) = .ok (pre ++ k ++ post) := by
        rw [endM_string, ← hf]
        show (Display.ofBytes b.sign).outcome.check (b.data.finish (Display.ofBytes b.sign).text) = _
        rw [Display.text_ofBytes, hab.sign.2]
        rfl
      have ha : a.endM stringWriter (plaintextSign display) =
          (display s).outcome.check (pre ++ (display s).text ++ post) := by
        rw [endM_string, ← hf, ← hab.data]
        show (display a.sign).outcome.check (a.data.finish (display a.sign).text) = _
        rw [hab.sign.1]
      constructor
      · intro p hp
        replace hp : (liftM (b.endM stringWriter (plaintextSign Display.ofBytes)) : M Bytes) w1 = .error p := hp
        rw [hb] at hp
        cases hp
      · intro out w' ho
        replace ho : (liftM (b.endM stringWriter (plaintextSign Display.ofBytes)) : M Bytes) w1 = .ok (out, w') :=
          ho
        rw [hb] at ho
        injection ho with ho
        injection ho with h1 h2
        refine ⟨pre, post, h1.symm, ?_⟩
        subst h2
        show (liftM (a.endM stringWriter (plaintextSign display)) : M Bytes) w1 = _
        rw [ha]
        cases (display s).outcome <;> rfl

/-- The two ways to make the signing algorithm. -/
theorem plaintext_makeSign (cfg : Cfg) (wr : Writer B) (default : B) (display : B → Display) {client : Credentials Bytes}
    {token : Option (Credentials Bytes)} {s : B}
    (hs : (plaintextWithBuf wr default display).signWith client.secret (token.map (·.secret)) = .ok s)
    (method : Bytes) (uri : Display) :
    (∃ p, makeSign cfg plaintext method uri client token = .error p ∧
      makeSign cfg (plaintextWithBuf wr default display) method uri client token = .error p) ∨
    (makeSign cfg plaintext method uri client token = .ok (signingKey client.secret (token.map (·.secret))) ∧
      makeSign cfg (plaintextWithBuf wr default display) method uri client token = .ok s) := by
  have hk : plaintext.signWith client.secret (token.map (·.secret)) =
      .ok (signingKey client.secret (token.map (·.secret))) := by
    have := writeSigningKey_string client.secret (token.map (·.secret)) []
    simpa [plaintext, plaintextWithBuf] using this
  have hfirst : ∀ (S : Type) (sm : SignatureMethod S), makeSign cfg sm method uri client token =
      ((if cfg.debug then assertNotContainQuestion uri else .ok ()) >>= fun _ =>
        sm.signWith client.secret (token.map (·.secret)) >>= fun s =>
          sm.sign.requestMethod s method >>= fun s => sm.sign.uri s (percentEncode uri)) := by
    intro S sm
    unfold makeSign
    cases cfg.debug <;> rfl
  rw [hfirst, hfirst, hk, hs]
  cases (if cfg.debug then assertNotContainQuestion uri else .ok ()) with
  | error p => exact .inl ⟨p, rfl, rfl⟩
  | ok _ => exact .inr ⟨rfl, rfl⟩

/-- A builder with another signature method. -/
def Builder.using {S T : Type} (b : Builder S) (sm : SignatureMethod T) : Builder T :=
  { signatureMethod := sm, client := b.client, token := b.token, options := b.options }

/-- C97, the output: with a buffer that accepts the signing key and is then `s`, the header, form and query
are those of `PLAINTEXT` with what `s` shows in place of the signing key; nothing else of the buffer, and
nothing of the request, has an effect on the signature. -/
theorem C97_output {S : Type} (cfg : Cfg) (b : Builder S) (wr : Writer B) (default : B) (display : B → Display) {s : B}
    (hs : (plaintextWithBuf wr default display).signWith b.client.secret (b.token.map (·.secret)) = .ok s)
    {r : Request} {cs : List Call} (hr : IsTrace r cs) (method : Bytes) (w : World) :
    let key := signingKey b.client.secret (b.token.map (·.secret))
    let ref := b.using plaintext
    let other := b.using (plaintextWithBuf wr default display)
    (∀ uri, Replaces key (display s) (ref.authorize cfg method uri r w) (other.authorize cfg method uri r w)) ∧
    (∀ uri, Replaces key (display s) (ref.toForm cfg method uri r w) (other.toForm cfg method uri r w)) ∧
    (∀ uri, Replaces key (display s) (ref.toQuery cfg stringWriter .ofBytes method uri r w)
      (other.toQuery cfg stringWriter .ofBytes method uri r w)) := by
  intro key ref other
  have main : ∀ (data : Data Bytes) uri, Replaces key (display s) (ref.runWith cfg data method uri r w)
      (other.runWith cfg data method uri r w) := by
    intro data uri
    unfold Builder.runWith
    rcases plaintext_makeSign cfg wr default display hs method uri with ⟨p, h1, h2⟩ | ⟨h1, h2⟩
    · show Replaces key _ ((liftM (makeSign cfg plaintext method uri b.client b.token) >>= _ : M Bytes) w)
        ((liftM (makeSign cfg (plaintextWithBuf wr default display) method uri b.client b.token) >>= _ : M Bytes) w)
      rw [h1, h2]
      exact ⟨fun _ h => h, fun _ _ h => nomatch h⟩
    · show Replaces key _ ((liftM (makeSign cfg plaintext method uri b.client b.token) >>= _ : M Bytes) w)
        ((liftM (makeSign cfg (plaintextWithBuf wr default display) method uri b.client b.token) >>= _ : M Bytes) w)
      rw [h1, h2]
      exact replaces_serialize cfg display s key hr data b.client b.token b.options w
  refine ⟨fun uri => ?_, fun uri => ?_, fun uri => ?_⟩
  · rw [authorize_runWith, authorize_runWith]; exact main _ uri
  · rw [toForm_runWith, toForm_runWith]; exact main _ uri
  · rw [toQuery_runWith, toQuery_runWith]; exact main _ _

/-- The same results from what a run with `PLAINTEXT` gives. -/
theorem Replaces.eq_iff {key : Bytes} {shown : Display} {ref other : Except Panic (Bytes × World)}
    (h : Replaces key shown ref other) {out : Bytes} {w' : World} (hok : ref = .ok (out, w')) :
    other = ref ↔ shown.outcome = .ok ∧ shown.text = key := by
  obtain ⟨pre, post, rfl, ho⟩ := h.2 out w' hok
  rw [ho, hok]
  cases shown.outcome <;> simp

/-- C97, exactly: where `PLAINTEXT` succeeds, another buffer gives the same header, form and query if and
only if it shows the signing key after accepting it. -/
theorem C97_iff {S : Type} (cfg : Cfg) (b : Builder S) (wr : Writer B) (default : B) (display : B → Display) {s : B}
    (hs : (plaintextWithBuf wr default display).signWith b.client.secret (b.token.map (·.secret)) = .ok s)
    {r : Request} {cs : List Call} (hr : IsTrace r cs) (method : Bytes) (w w' : World) (out : Bytes) :
    let shows := (display s).outcome = .ok ∧
      (display s).text = signingKey b.client.secret (b.token.map (·.secret))
    let ref := b.using plaintext
    let other := b.using (plaintextWithBuf wr default display)
    (∀ uri, ref.authorize cfg method uri r w = .ok (out, w') →
      (other.authorize cfg method uri r w = .ok (out, w') ↔ shows)) ∧
    (∀ uri, ref.toForm cfg method uri r w = .ok (out, w') →
      (other.toForm cfg method uri r w = .ok (out, w') ↔ shows)) ∧
    (∀ uri, ref.toQuery cfg stringWriter .ofBytes method uri r w = .ok (out, w') →
      (other.toQuery cfg stringWriter .ofBytes method uri r w = .ok (out, w') ↔ shows)) := by
  intro shows ref other
  obtain ⟨h1, h2, h3⟩ := C97_output cfg b wr default display hs hr method w
  exact ⟨fun uri h => by have := (h1 uri).eq_iff h; rwa [h] at this,
    fun uri h => by have := (h2 uri).eq_iff h; rwa [h] at this,
    fun uri h => by have := (h3 uri).eq_iff h; rwa [h] at this⟩

/-- C97, buffers that keep what they accept: if the buffer, once it has accepted fragments from its default
value on, shows their concatenation, it gives what `PLAINTEXT` gives, panics included, or refuses the
signing key, and then nothing is ever returned. -/
theorem C97_keeps {S : Type} (cfg : Cfg) (b : Builder S) (wr : Writer B) (default : B) (display : B → Display)
    (hkeep : ∀ cs d, Writes wr default cs d → (display d).outcome = .ok ∧ (display d).text = cs.flatten)
    {r : Request} {cs : List Call} (hr : IsTrace r cs) (method : Bytes) (w : World) :
    let ref := b.using plaintext
    let other := b.using (plaintextWithBuf wr default display)
    ((∀ uri, other.authorize cfg method uri r w = ref.authorize cfg method uri r w) ∧
      (∀ uri, other.toForm cfg method uri r w = ref.toForm cfg method uri r w) ∧
      ∀ uri, other.toQuery cfg stringWriter .ofBytes method uri r w =
        ref.toQuery cfg stringWriter .ofBytes method uri r w) ∨
    ((∀ uri x, other.authorize cfg method uri r w ≠ .ok x) ∧ (∀ uri x, other.toForm cfg method uri r w ≠ .ok x) ∧
      ∀ uri x, other.toQuery cfg stringWriter .ofBytes method uri r w ≠ .ok x) := by
  intro ref other
  obtain ⟨writes, hw, hsig⟩ := C97_signing b.client.secret (b.token.map (·.secret))
  obtain ⟨hs1, hs2⟩ := hsig B wr default display
  by_cases hex : ∃ s, Writes wr default writes s
  · obtain ⟨s, hs⟩ := hex
    obtain ⟨k1, k2⟩ := hkeep _ _ hs
    obtain ⟨h1, h2, h3⟩ := C97_output cfg b wr default display ((hs1 s).mpr hs) hr method w
    have same : ∀ {x y : Except Panic (Bytes × World)},
        Replaces (signingKey b.client.secret (b.token.map (·.secret))) (display s) x y → y = x := by
      intro x y h
      cases hx : x with
      | error p => exact h.1 p hx
      | ok o => rw [← hx]; exact (h.eq_iff (out := o.1) (w' := o.2) hx).mpr ⟨k1, k2.trans hw⟩
    exact .inl ⟨fun uri => same (h1 uri), fun uri => same (h2 uri), fun uri => same (h3 uri)⟩
  · have hbad := hs2 hex
    have main : ∀ (data : Data Bytes) uri x, other.runWith cfg data method uri r w ≠ .ok x := by
      intro data uri x hx
      have hm : ∃ p, makeSign cfg (plaintextWithBuf wr default display) method uri b.client b.token = .error p := by
        unfold makeSign
        rw [hbad]
        cases cfg.debug
        · exact ⟨_, rfl⟩
        · cases hq : assertNotContainQuestion uri with
          | error p => exact ⟨p, by simp [bind, Except.bind, hq]⟩
          | ok _ => exact ⟨.fmtUnwrap, by simp [bind, Except.bind, hq]⟩
      obtain ⟨p, hm⟩ := hm
      replace hx : (liftM (makeSign cfg (plaintextWithBuf wr default display) method uri b.client b.token) >>= _ :
        M Bytes) w = .ok x := hx
      rw [hm] at hx
      cases hx
    refine .inr ⟨fun uri x => ?_, fun uri x => ?_, fun uri x => ?_⟩
    · rw [authorize_runWith]; exact main _ _ x
    · rw [toForm_runWith]; exact main _ _ x
    · rw [toQuery_runWith]; exact main _ _ x

/-- C97 with a buffer of fixed capacity (such as a stack-allocated string): it works exactly if the signing
key fits, and then gives what `PLAINTEXT` gives. -/
theorem C97_capacity (n : Nat) (cs : Bytes) (ts : Option Bytes) :
    (plaintextWithBuf (capacityWriter n) [] .ofBytes).signWith cs ts =
      if (signingKey cs ts).length ≤ n then .ok (signingKey cs ts) else .error .fmtUnwrap := by
  obtain ⟨writes, hw, hsig⟩ := C97_signing cs ts
  obtain ⟨h1, h2⟩ := hsig Bytes (capacityWriter n) [] .ofBytes
  have hc : ∀ s, Writes (capacityWriter n) [] writes s ↔ (signingKey cs ts).length ≤ n ∧ s = signingKey cs ts := by
    intro s
    rw [writes_capacity n writes [] s (Nat.zero_le _), hw]
    simp
  split
  · next h => exact (h1 _).mpr ((hc _).mpr ⟨h, rfl⟩)
  · next h => exact h2 fun ⟨s, hs⟩ => h ((hc s).mp hs).1

/-- Such buffers keep what they accept. -/
theorem capacity_keeps (n : Nat) (cs : List Bytes) (d : Bytes) (h : Writes (capacityWriter n) [] cs d) :
    (Display.ofBytes d).outcome = .ok ∧ (Display.ofBytes d).text = cs.flatten := by
  rw [writes_capacity n cs [] d (Nat.zero_le _)] at h
  exact ⟨rfl, by rw [Display.text_ofBytes, h.2, List.nil_append]⟩

/-- The secrets of the shared case: the key `client%2Fsecret&token%20secret` fits in 30 bytes, not in 29. -/
example : (plaintextWithBuf (capacityWriter 30) [] .ofBytes).signWith b!"client/secret" (some b!"token secret") =
    .ok b!"client%2Fsecret&token%20secret" ∧
    (plaintextWithBuf (capacityWriter 29) [] .ofBytes).signWith b!"client/secret" (some b!"token secret") =
    .error .fmtUnwrap := by
  have e : signingKey b!"client/secret" (some b!"token secret") = b!"client%2Fsecret&token%20secret" := by
    decide +kernel
  constructor
  · rw [C97_capacity, e]; rfl
  · rw [C97_capacity, e]; rfl

/-- Either alternative of `C97_keeps` occurs. -/
example := C97_keeps Case.cfg (Case.builder plaintext) (capacityWriter 30) [] .ofBytes (capacity_keeps 30)
  Case.trace b!"GET" Case.world
example : ∀ uri x, (((Case.builder plaintext).using (plaintextWithBuf (capacityWriter 29) [] .ofBytes)).authorize
    Case.cfg b!"GET" uri Case.request Case.world) ≠ .ok x := by
  rcases C97_keeps Case.cfg (Case.builder plaintext) (capacityWriter 29) [] .ofBytes (capacity_keeps 29)
    Case.trace b!"GET" Case.world with ⟨h, -⟩ | ⟨h, -⟩
  · exfalso
    obtain ⟨out, w', hp⟩ := Case.plaintextHeader
    have h1 := h (.ofBytes Case.uri)
    have h2 : (Case.builder plaintext).using plaintext = Case.builder plaintext := rfl
    rw [h2, hp] at h1
    have h3 : (((Case.builder plaintext).using (plaintextWithBuf (capacityWriter 29) [] .ofBytes)).authorize
      Case.cfg b!"GET" (.ofBytes Case.uri) Case.request Case.world).toOption.isSome = false := by decide +kernel
    rw [h1] at h3
    cases h3
  · exact h

/-- A buffer that is not empty when it is made gives another header. -/
example : ∃ out w', (Case.builder plaintext).authorize Case.cfg b!"GET" (.ofBytes Case.uri) Case.request Case.world =
      .ok (out, w') ∧
    ((Case.builder plaintext).using (plaintextWithBuf stringWriter b!"key: " .ofBytes)).authorize Case.cfg b!"GET"
      (.ofBytes Case.uri) Case.request Case.world ≠ .ok (out, w') := by
  obtain ⟨out, w', hp⟩ := Case.plaintextHeader
  refine ⟨out, w', hp, fun h => ?_⟩
  have := ((C97_iff Case.cfg (Case.builder plaintext) stringWriter b!"key: " .ofBytes
    (writeSigningKey_string b!"client/secret" (some b!"token secret") b!"key: ") Case.trace b!"GET" Case.world w'
    out).1 (.ofBytes Case.uri) hp).mp h
  exact absurd this.2 (by decide +kernel)

end OAuth
