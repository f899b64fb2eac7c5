import Verif.Model.Debug
import Verif.Properties.TwoRuns

/-
C31: `Debug` output and shared secrets.
-/

namespace OAuth

open Spec

variable {S : Type}

/-- C31 for `Credentials` and `Token`: equal identifiers give equal output, for any string types. -/
theorem C31_credentials {C T : Type} (dc : C → Dbg) (dt : T → Dbg) :
    (∀ c c' : Credentials C, c.identifier = c'.identifier → c.debug dc = c'.debug dc) ∧
    (∀ t t' : Token C T, t.client.identifier = t'.client.identifier →
      t.token.identifier = t'.token.identifier → t.debug dc dt = t'.debug dc dt) := by
  refine ⟨fun c c' h => ?_, fun t t' h h' => ?_⟩
  · simp only [Credentials.debug, h]
  · simp only [Token.debug, Credentials.debug, h, h']

example (x : ExternDebug) : (Credentials.new b!"k" b!"s1").debug x.string =
    (Credentials.new b!"k" b!"s2").debug x.string := (C31_credentials x.string x.string).1 _ _ rfl

/-- C31 for `Builder`. -/
theorem C31_builder (x : ExternDebug) (sm : Dbg) {b b' : Builder S} (h : SameButSecrets b b') :
    x.builder sm b = x.builder sm b' := by
  obtain ⟨m, c, t, o⟩ := b
  obtain ⟨m', c', t', o'⟩ := b'
  have h1 : c.identifier = c'.identifier := h.client
  have h2 : t.map (·.identifier) = t'.map (·.identifier) := h.token
  have h3 : o = o' := h.options
  simp only [ExternDebug.builder, Credentials.debug, h1, h3]
  cases t <;> cases t' <;> simp only [Option.map_some, Option.map_none, Option.some.injEq,
    reduceCtorEq] at h2
  · rfl
  · simp only [Dbg.option, Credentials.debug, h2]

/-- The shared case with two pairs of secrets. -/
example (x : ExternDebug) : x.builder ExternDebug.hmacSha1 (Case.builder hmacSha1) =
    x.builder ExternDebug.hmacSha1 (Case.otherSecrets hmacSha1) :=
  C31_builder x _ (Case.sameButSecrets _)

/-- C31: a private RSA key is shown as the `rsa` crate shows it, no more and no less: two keys give the same
`{:?}` of a `Builder` exactly if `Debug for RsaPrivateKey` does not tell them apart. (Nothing in this
crate hides it, as `Credentials` hides the secret.) -/
theorem C31_rsa_key (x : ExternDebug) {K : Type} (dk : K → Dbg) (k k' : K) (b : Builder S) :
    x.builder (ExternDebug.rsaSha1 dk k) b false = x.builder (ExternDebug.rsaSha1 dk k') b false ↔
      dk k false = dk k' false := by
  have key : ∀ k : K, x.builder (ExternDebug.rsaSha1 dk k) b false =
      b!"Builder { signature_method: RsaSha1 { key: " ++ (dk k false ++
        (b!" }, client: " ++ b.client.debug x.string false ++ b!", token: " ++
          Dbg.option (Credentials.debug x.string) b.token false ++ b!", options: " ++
          x.options b.options false ++ b!" }")) := by
    intro k
    unfold ExternDebug.builder
    generalize b.client.debug x.string = d1
    generalize Dbg.option (Credentials.debug x.string) b.token = d2
    generalize x.options b.options = d3
    simp [ExternDebug.rsaSha1, Dbg.struct, List.intercalate]
  rw [key, key]
  exact ⟨fun h => List.append_cancel_right (List.append_cancel_left h), fun h => by rw [h]⟩

/-- The constructors of an `Authorizer` writing to a `String`. -/
inductive Ctor
  | authorization | form | query

def Ctor.make (c : Ctor) (cfg : Cfg) (sm : SignatureMethod S) (method uri : Bytes)
    (client : Credentials Bytes) (token : Option (Credentials Bytes)) (o : Options) :
    Except Panic (Authorizer S Bytes) :=
  match c with
  | .authorization => Authorizer.authorization cfg sm method (.ofBytes uri) client token o
  | .form => Authorizer.form cfg sm method (.ofBytes uri) client token o
  | .query => Authorizer.query cfg .ofBytes sm method uri client token o

theorem Ctor.make_ok {c : Ctor} {cfg : Cfg} {sm : SignatureMethod S} {method uri : Bytes}
    {client : Credentials Bytes} {token : Option (Credentials Bytes)} {o : Options}
    {a : Authorizer S Bytes} (h : c.make cfg sm method uri client token o = .ok a) :
    ∃ s, makeSign cfg sm method (.ofBytes uri) client token = .ok s ∧
      a = Authorizer.new_ (match c with
        | .authorization => .authorization b!"OAuth "
        | .form => .urlencode ⟨[], .none⟩
        | .query => .urlencode ⟨uri, .question⟩) s client token o := by
  have hm : c.make cfg sm method uri client token o =
      (makeSign cfg sm method (.ofBytes uri) client token).bind fun s => .ok (Authorizer.new_ (match c with
        | .authorization => .authorization b!"OAuth "
        | .form => .urlencode ⟨[], .none⟩
        | .query => .urlencode ⟨uri, .question⟩) s client token o) := by
    cases c <;> rfl
  rw [hm] at h
  obtain ⟨s, h1, h2⟩ := Except.bind_ok_iff.mp h
  exact ⟨s, h1, by cases h2; rfl⟩

/-- Two authorizers made from credentials that differ in the secrets at most, after the same calls,
differ in the state of the signing algorithm at most. -/
theorem same_but_sign {c : Ctor} {cfg : Cfg} {sm : SignatureMethod S} {name : Bytes} {un ut : Bool}
    (hsg : ConstSign sm.sign name un ut) {method uri : Bytes} {c1 c2 : Credentials Bytes}
    {t1 t2 : Option (Credentials Bytes)} {o : Options} {a1 a2 : Authorizer S Bytes}
    (hc : c1.identifier = c2.identifier) (ht : t1.map (·.identifier) = t2.map (·.identifier))
    (h1 : c.make cfg sm method uri c1 t1 o = .ok a1) (h2 : c.make cfg sm method uri c2 t2 o = .ok a2)
    (cs : List Call) {w w1 w2 : World} {a1' a2' : Authorizer S Bytes}
    (r1 : runCalls (Authorizer.serializer cfg stringWriter sm.sign) cs a1 w = .ok (a1', w1))
    (r2 : runCalls (Authorizer.serializer cfg stringWriter sm.sign) cs a2 w = .ok (a2', w2)) :
    ∃ L : List SignCall, ∃ s1 s2, makeSign cfg sm method (.ofBytes uri) c1 t1 = .ok s1 ∧
      makeSign cfg sm method (.ofBytes uri) c2 t2 = .ok s2 ∧
      runSign sm.sign L s1 = .ok a1'.sign ∧ runSign sm.sign L s2 = .ok a2'.sign ∧
      a1' = { a2' with sign := a1'.sign } := by
  obtain ⟨s1, hs1, rfl⟩ := Ctor.make_ok h1
  obtain ⟨s2, hs2, rfl⟩ := Ctor.make_ok h2
  let e : Env := ⟨c1.identifier, t1.map (·.identifier), o, name, un, ut⟩
  rw [runCalls_ok_iff (e := e) hsg ⟨rfl, rfl, rfl⟩] at r1
  rw [runCalls_ok_iff (e := e) hsg ⟨hc.symm, ht.symm, rfl⟩] at r2
  obtain ⟨items, i1, p1⟩ := r1
  obtain ⟨items', i2, p2⟩ := r2
  rw [i1] at i2
  cases i2
  obtain ⟨-, u1, q1, e1⟩ := applyItems_ok_iff.mp p1
  obtain ⟨-, u2, q2, e2⟩ := applyItems_ok_iff.mp p2
  refine ⟨_, s1, s2, hs1, hs2, by rw [e1]; exact q1, by rw [e2]; exact q2, ?_⟩
  rw [e1, e2]
  simp only [Authorizer.new_, hc, ht]

/-- C31 for `Authorizer`: the claim for a signature method (whose signing state is shown by `ds`). It
covers the time from construction through any calls. -/
def C31_authorizer_claim (x : ExternDebug) (sm : SignatureMethod S) (ds : S → Dbg) : Prop :=
  ∀ (c : Ctor) (cfg : Cfg) (method uri : Bytes) (c1 c2 : Credentials Bytes)
    (t1 t2 : Option (Credentials Bytes)) (o : Options) (a1 a2 : Authorizer S Bytes),
    c1.identifier = c2.identifier → t1.map (·.identifier) = t2.map (·.identifier) →
    c.make cfg sm method uri c1 t1 o = .ok a1 → c.make cfg sm method uri c2 t2 o = .ok a2 →
  ∀ (cs : List Call) (w w1 w2 : World) (a1' a2' : Authorizer S Bytes),
    runCalls (Authorizer.serializer cfg stringWriter sm.sign) cs a1 w = .ok (a1', w1) →
    runCalls (Authorizer.serializer cfg stringWriter sm.sign) cs a2 w = .ok (a2', w2) →
    x.authorizer cfg ds a1' = x.authorizer cfg ds a2'

/-- C31 for `Authorizer`, where it holds: HMAC-SHA1 and RSA-SHA1. What is missing is PLAINTEXT. -/
theorem C31_authorizer_partial (x : ExternDebug) :
    C31_authorizer_claim x hmacSha1 x.hmacSha1Sign ∧
    ∀ {K : Type} (ops : RsaOps K) (key : K) (dk : K → Dbg),
      C31_authorizer_claim x (rsaOwned Sha1.hash ops key) (x.rsaSha1Sign dk) ∧
      C31_authorizer_claim x (rsaRef Sha1.hash ops key) (x.rsaSha1Sign dk) := by
  have key : ∀ {S : Type} (sm : SignatureMethod S) (name : Bytes) (ds : S → Dbg),
      ConstSign sm.sign name true true →
      (∀ (L : List SignCall) cfg method uri c1 t1 c2 t2 s1 s2 s1' s2',
        makeSign cfg sm method uri c1 t1 = .ok s1 → makeSign cfg sm method uri c2 t2 = .ok s2 →
        runSign sm.sign L s1 = .ok s1' → runSign sm.sign L s2 = .ok s2' → ds s1' = ds s2') →
      C31_authorizer_claim x sm ds := by
    intro S sm name ds hsg hds c cfg method uri c1 c2 t1 t2 o a1 a2 hc ht h1 h2 cs w w1 w2 a1' a2' r1 r2
    obtain ⟨L, s1, s2, m1, m2, e1, e2, e⟩ := same_but_sign hsg hc ht h1 h2 cs r1 r2
    have := hds L cfg method _ c1 t1 c2 t2 s1 s2 _ _ m1 m2 e1 e2
    rw [e]
    simp only [ExternDebug.authorizer, this]
  refine ⟨key _ _ _ (constSign_hmac _) (fun _ _ _ _ _ _ _ _ _ _ _ _ _ _ _ _ => rfl), ?_⟩
  intro K ops k dk
  have hmake : ∀ (sm : SignatureMethod (RsaSign K)), (∀ cs ts, sm.signWith cs ts = .ok ⟨[], k⟩) →
      ∀ (L : List SignCall) cfg method uri c1 t1 c2 t2 s1 s2 s1' s2',
        makeSign cfg sm method uri c1 t1 = .ok s1 → makeSign cfg sm method uri c2 t2 = .ok s2 →
        runSign sm.sign L s1 = .ok s1' → runSign sm.sign L s2 = .ok s2' →
        x.rsaSha1Sign dk s1' = x.rsaSha1Sign dk s2' := by
    intro sm hsm L cfg method uri c1 t1 c2 t2 s1 s2 s1' s2' m1 m2 e1 e2
    unfold makeSign at m1 m2
    rw [hsm] at m1 m2
    rw [m1] at m2
    cases m2
    rw [e1] at e2
    cases e2
    rfl
  exact ⟨key _ _ _ (constSign_rsaOwned _ _) (hmake _ (fun _ _ => rfl)),
    key _ _ _ (constSign_rsaRef _ _) (hmake _ (fun _ _ => rfl))⟩

/-- Two secrets, the calls of the shared case: the premises can be met. -/
example (x : ExternDebug) : ∃ a1 a2 a1' a2' w1 w2,
    Ctor.form.make Case.cfg hmacSha1 b!"POST" Case.uri (.new b!"k" b!"s1") none .new = .ok a1 ∧
    Ctor.form.make Case.cfg hmacSha1 b!"POST" Case.uri (.new b!"k" b!"s2") none .new = .ok a2 ∧
    runCalls (Authorizer.serializer Case.cfg stringWriter hmacSha1.sign) Case.calls a1 Case.world =
      .ok (a1', w1) ∧
    runCalls (Authorizer.serializer Case.cfg stringWriter hmacSha1.sign) Case.calls a2 Case.world =
      .ok (a2', w2) ∧
    x.authorizer Case.cfg x.hmacSha1Sign a1' = x.authorizer Case.cfg x.hmacSha1Sign a2' := by
  have make : ∀ s ∈ [b!"s1", b!"s2"], ∃ a a' w, Ctor.form.make Case.cfg hmacSha1 b!"POST" Case.uri
      (.new b!"k" s) none .new = .ok a ∧ runCalls (Authorizer.serializer Case.cfg stringWriter hmacSha1.sign)
        Case.calls a Case.world = .ok (a', w) := by
    intro s hs
    have h : ∀ s ∈ [b!"s1", b!"s2"], ((Ctor.form.make Case.cfg hmacSha1 b!"POST" Case.uri
        (.new b!"k" s) none .new).toOption.bind fun a => (runCalls (Authorizer.serializer Case.cfg
          stringWriter hmacSha1.sign) Case.calls a Case.world).toOption).isSome = true := by decide +kernel
    have h := h s hs
    cases hm : Ctor.form.make Case.cfg hmacSha1 b!"POST" Case.uri (.new b!"k" s) none .new with
    | error p => rw [hm] at h; cases h
    | ok a =>
      rw [hm] at h
      obtain ⟨a', w, hr⟩ := Case.ok_of_isSome h
      exact ⟨a, a', w, rfl, hr⟩
  obtain ⟨a1, a1', w1, h1, r1⟩ := make b!"s1" (by simp)
  obtain ⟨a2, a2', w2, h2, r2⟩ := make b!"s2" (by simp)
  exact ⟨a1, a2, a1', a2', w1, w2, h1, h2, r1, r2, (C31_authorizer_partial x).1 _ _ _ _ (.new b!"k" b!"s1")
    (.new b!"k" b!"s2") _ _ _ _ _ rfl rfl
    h1 h2 _ _ _ _ _ _ r1 r2⟩

/-- With PLAINTEXT the state of the signing algorithm is the signing key. -/
theorem plaintext_state {cfg : Cfg} {method : Bytes} {uri : Display} {client : Credentials Bytes}
    {token : Option (Credentials Bytes)} {s : Bytes}
    (h : makeSign cfg plaintext method uri client token = .ok s) :
    s = signingKey client.secret (token.map (·.secret)) := by
  unfold makeSign at h
  have hp : plaintext.signWith client.secret (token.map (·.secret)) =
      .ok (signingKey client.secret (token.map (·.secret))) := writeSigningKey_string _ _ _
  rw [hp] at h
  cases hd : cfg.debug with
  | false => rw [hd] at h; cases h; rfl
  | true =>
    rw [hd] at h
    cases ha : assertNotContainQuestion uri with
    | error p => rw [ha] at h; cases h
    | ok u => rw [ha] at h; cases h; rfl

theorem plaintext_run {L : List SignCall} {s s' : Bytes}
    (h : runSign plaintext.sign L s = .ok s') : s' = s := by
  induction L generalizing s with
  | nil => cases h; rfl
  | cons c L ih =>
    rw [runSign] at h
    obtain ⟨s1, h1, h2⟩ := Except.bind_ok_iff.mp h
    have : s1 = s := by
      cases c <;> (cases h1; rfl)
    rw [ih h2, this]

/-- C31 is as false as can be for PLAINTEXT: whatever was called, the `{:?}` output of an
`Authorizer` determines the shared secrets (if `Debug for str` is injective, as it is). -/
theorem C31_plaintext_reveals_secrets (x : ExternDebug)
    (hx : ∀ s s', x.str s = x.str s' → s = s') {c : Ctor} {cfg : Cfg} {method uri : Bytes}
    {c1 c2 : Credentials Bytes} {t1 t2 : Option (Credentials Bytes)} {o : Options}
    {a1 a2 : Authorizer Bytes Bytes} (hc : c1.identifier = c2.identifier)
    (ht : t1.map (·.identifier) = t2.map (·.identifier))
    (h1 : c.make cfg plaintext method uri c1 t1 o = .ok a1)
    (h2 : c.make cfg plaintext method uri c2 t2 o = .ok a2) (cs : List Call) {w w1 w2 : World}
    {a1' a2' : Authorizer Bytes Bytes}
    (r1 : runCalls (Authorizer.serializer cfg stringWriter plaintext.sign) cs a1 w = .ok (a1', w1))
    (r2 : runCalls (Authorizer.serializer cfg stringWriter plaintext.sign) cs a2 w = .ok (a2', w2))
    (h : x.authorizer cfg x.plaintextSign a1' false = x.authorizer cfg x.plaintextSign a2' false) :
    c1.secret = c2.secret ∧ (t1.map (·.secret)).getD [] = (t2.map (·.secret)).getD [] := by
  obtain ⟨L, s1, s2, m1, m2, e1, e2, e⟩ :=
    same_but_sign (sm := plaintext) (constSign_plaintext _) hc ht h1 h2 cs r1 r2
  have hs : a1'.sign = a2'.sign := by
    rw [e] at h
    generalize a1'.sign = u at h
    have inter : ∀ (l : List Bytes) (y z : Bytes) (l' : List Bytes),
        List.intercalate b!", " (l ++ y :: l') = List.intercalate b!", " (l ++ z :: l') → y = z := by
      intro l y z l' hi
      have app : ∀ l (y : Bytes), ∃ p q, ∀ y, List.intercalate b!", " (l ++ y :: l') = p ++ y ++ q := by
        intro l y
        clear hi
        induction l with
        | nil =>
          cases l' with
          | nil => exact ⟨[], [], fun y => by simp [List.intercalate]⟩
          | cons a l' =>
            exact ⟨[], b!", " ++ List.intercalate b!", " (a :: l'), fun y => by
              simp [List.intercalate]⟩
        | cons a l ih =>
          obtain ⟨p, q, hpq⟩ := ih
          refine ⟨a ++ b!", " ++ p, q, fun y => ?_⟩
          have : List.intercalate b!", " (a :: (l ++ y :: l')) =
              a ++ b!", " ++ List.intercalate b!", " (l ++ y :: l') := by
            cases l <;> simp [List.intercalate]
          rw [List.cons_append, this, hpq]
          simp
      obtain ⟨p, q, hpq⟩ := app l y
      rw [hpq, hpq] at hi
      exact List.append_cancel_left (List.append_cancel_right hi)
    have text : ∀ a : Authorizer Bytes Bytes, x.authorizer cfg x.plaintextSign a false =
        b!"Authorizer { " ++ List.intercalate b!", " ([b!"consumer_key: " ++ x.string a.consumerKey false,
          b!"token: " ++ Dbg.option x.string a.token false, b!"options: " ++ x.options a.options false,
          b!"data: " ++ x.data a.data false] ++ (b!"sign: " ++ x.plaintextSign a.sign false) ::
          ((b!"append_delim_to_sign", Dbg.bool a.appendDelimToSign) :: if cfg.checksOrder then
            [(b!"prev_key", x.string a.prevKey)] else []).map fun f => f.1 ++ b!": " ++ f.2 false) ++
        b!" }" := fun _ => rfl
    rw [text, text] at h
    have h := List.append_cancel_left (List.append_cancel_right h)
    have h3 := inter [_, _, _, _] _ _ _ h
    simp only [ExternDebug.plaintextSign, Dbg.struct, List.isEmpty_cons, Bool.false_eq_true, if_false,
      List.map_cons, List.map_nil] at h3
    have h3 := List.append_cancel_left h3
    have h3 := List.append_cancel_left (List.append_cancel_right h3)
    simp only [List.intercalate, List.intersperse, List.flatten_cons, List.flatten_nil,
      List.append_nil] at h3
    exact hx _ _ (List.append_cancel_left h3)
  rw [plaintext_run e1, plaintext_run e2, plaintext_state m1, plaintext_state m2] at hs
  refine (C47_signing_key_injective c1.secret c2.secret (t1.map (·.secret)) (t2.map (·.secret))).mp ?_
  simp only [writeSigningKey_string, hs]

/-- C31 is false for PLAINTEXT. -/
theorem C31_violated (x : ExternDebug) (hx : ∀ s s', x.str s = x.str s' → s = s') :
    ¬ C31_authorizer_claim x plaintext x.plaintextSign := by
  intro h
  let cfg : Cfg := ⟨true, true, .std⟩
  obtain ⟨a1, h1⟩ : ∃ a, Ctor.form.make cfg plaintext b!"GET" b!"http://a/" (.new b!"k" b!"s1") none
    .new = .ok a := ⟨_, rfl⟩
  obtain ⟨a2, h2⟩ : ∃ a, Ctor.form.make cfg plaintext b!"GET" b!"http://a/" (.new b!"k" b!"s2") none
    .new = .ok a := ⟨_, rfl⟩
  have heq := h .form cfg b!"GET" b!"http://a/" (.new b!"k" b!"s1") (.new b!"k" b!"s2") none none .new a1 a2 rfl rfl h1 h2 []
    World.example _ _ a1 a2 rfl rfl
  have := (C31_plaintext_reveals_secrets x hx (c1 := .new b!"k" b!"s1") (c2 := .new b!"k" b!"s2") rfl rfl h1 h2 [] (w := World.example) rfl rfl
    (congrFun heq false)).1
  exact absurd this (by decide)

/-- A `Debug` for plain ASCII strings, and what is shown. -/
def ExternDebug.example : ExternDebug where
  str s := b!"\"" ++ s ++ b!"\""
  hmac := b!"Hmac<Sha1> { .. }"
  sha1 := b!"Sha1 { .. }"

example : (Credentials.new b!"key" b!"secret").debug ExternDebug.example.string false =
    b!"Credentials { identifier: \"key\", secret: <hidden> }" := by decide
example : (Token.fromParts b!"a" b!"b" b!"c" b!"d").debug ExternDebug.example.string
    ExternDebug.example.string true =
    b!"Token {\n    client: Credentials {\n        identifier: \"a\",\n        secret: <hidden>,\n    },\n    token: Credentials {\n        identifier: \"c\",\n        secret: <hidden>,\n    },\n}" := by
  decide +kernel
/-- With a `Debug` of keys that prints them. -/
example : ExternDebug.example.builder (ExternDebug.rsaSha1 (fun n : Nat => .text (decimal n)) 12345)
      (Builder.new (.new b!"k" b!"hunter2") plaintext) false =
    b!"Builder { signature_method: RsaSha1 { key: 12345 }, client: Credentials { identifier: \"k\", secret: <hidden> }, token: None, options: Options { callback: None, verifier: None, nonce: None, timestamp: None, version: false } }" := by
  decide +kernel
example : ((Ctor.form.make ⟨true, true, .std⟩ plaintext b!"GET" b!"http://a/" (.new b!"k" b!"hunter2")
      none .new).toOption.map fun a =>
        ExternDebug.example.authorizer ⟨true, true, .std⟩ ExternDebug.example.plaintextSign a false) =
    some b!"Authorizer { consumer_key: \"k\", token: None, options: Options { callback: None, verifier: None, nonce: None, timestamp: None, version: false }, data: Urlencode(Urlencoder { data: \"\", next_append: None }), sign: PlaintextSign { signing_key: \"hunter2&\" }, append_delim_to_sign: false, prev_key: \"\" }" := by
  decide +kernel

end OAuth
