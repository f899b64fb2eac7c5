import Verif.Properties.Signature

/-
C29: `Either` against the signature method it holds.
-/

namespace OAuth

open Spec

variable {A B W : Type}

/-- `φ` embeds the states of signing algorithm `a` into those of `b`, such that `b` does on the image
what `a` does. -/
structure SignSim (a : Sign A) (b : Sign B) (φ : A → B) : Prop where
  name : ∀ s, b.name (φ s) = a.name s
  useNonce : ∀ s, b.useNonce (φ s) = a.useNonce s
  useTimestamp : ∀ s, b.useTimestamp (φ s) = a.useTimestamp s
  call : ∀ (c : SignCall) (s : A), c.run b (φ s) = φ <$> c.run a s
  fin : ∀ s, b.end (φ s) = a.end s

/-- The same authorizer, with the signing state embedded. -/
def Authorizer.mapSign (φ : A → B) (a : Authorizer A W) : Authorizer B W where
  consumerKey := a.consumerKey
  token := a.token
  options := a.options
  data := a.data
  sign := φ a.sign
  appendDelimToSign := a.appendDelimToSign
  prevKey := a.prevKey

section
variable {sa : Sign A} {sb : Sign B} {φ : A → B} (h : SignSim sa sb φ) (cfg : Cfg) (wr : Writer W)
include h

theorem signDelimiter_sim (a : Authorizer A W) :
    (a.mapSign φ).signDelimiter sb = Authorizer.mapSign φ <$> a.signDelimiter sa := by
  have hd := h.call .delimiter a.sign
  simp only [SignCall.run] at hd
  unfold Authorizer.signDelimiter
  simp only [Authorizer.mapSign, hd]
  cases a.appendDelimToSign with
  | false => rfl
  | true =>
    simp only [if_true]
    cases sa.delimiter a.sign <;> rfl

omit h in
theorem checkOrder_sim (a : Authorizer A W) (k : Bytes) :
    (a.mapSign φ).checkDictionaryOrder cfg k =
      Authorizer.mapSign φ <$> a.checkDictionaryOrder cfg k := by
  unfold Authorizer.checkDictionaryOrder
  simp only [Authorizer.mapSign]
  cases cfg.checksOrder with
  | false => rfl
  | true => by_cases hb : bytesLe a.prevKey k = true <;> simp only [hb] <;> rfl

theorem append_sim (a : Authorizer A W) (k : Bytes) (v : Display) :
    (a.mapSign φ).appendToHeaderEncoded cfg wr sb k v =
      Authorizer.mapSign φ <$> a.appendToHeaderEncoded cfg wr sa k v := by
  unfold Authorizer.appendToHeaderEncoded
  rw [checkOrder_sim]
  cases a.checkDictionaryOrder cfg k with
  | error p => rfl
  | ok a =>
    simp only [Functor.map, Except.map, bind, Except.bind]
    rw [show (a.mapSign φ).data = a.data from rfl]
    cases Authorizer.appendData wr a.data k v with
    | error p => rfl
    | ok d => exact signDelimiter_sim h { a with data := d }

/-- Feeding a call and storing the new signing state. -/
theorem feed_sim (c : SignCall) (x : Except Panic (Authorizer A W)) :
    ((Authorizer.mapSign φ <$> x) >>= fun a => do
      let s ← c.run sb a.sign
      Except.ok { a with sign := s }) =
    Authorizer.mapSign φ <$> (x >>= fun a => do
      let s ← c.run sa a.sign
      Except.ok { a with sign := s }) := by
  cases x with
  | error p => rfl
  | ok a =>
    simp only [Functor.map, Except.map, bind, Except.bind]
    rw [show (a.mapSign φ).sign = φ a.sign from rfl, h.call]
    cases c.run sa a.sign <;> rfl

theorem appendInner_sim (a : Authorizer A W) (k : Bytes) (v : Display) (c : SignCall) :
    (a.mapSign φ).appendInner cfg wr sb k v (fun s => c.run sb s) =
      Authorizer.mapSign φ <$> a.appendInner cfg wr sa k v (fun s => c.run sa s) := by
  unfold Authorizer.appendInner
  rw [append_sim h]
  exact feed_sim h c _

omit h in
theorem lift_map {α β : Type} (f : α → β) (x : Except Panic α) :
    (liftM (f <$> x) : M β) = f <$> (liftM x : M α) := by
  cases x <;> rfl

/-- Each call simulates. -/
theorem call_sim (c : Call) (a : Authorizer A W) :
    c.run (Authorizer.serializer cfg wr sb) (a.mapSign φ) =
      Authorizer.mapSign φ <$> c.run (Authorizer.serializer cfg wr sa) a := by
  have hp : ∀ (k : Bytes) (d : Display),
      (do
        let x ← (a.mapSign φ).checkDictionaryOrder cfg k
        let x ← x.signDelimiter sb
        let s ← sb.parameter x.sign k d
        Except.ok { x with sign := s }) =
      Authorizer.mapSign φ <$> (do
        let x ← a.checkDictionaryOrder cfg k
        let x ← x.signDelimiter sa
        let s ← sa.parameter x.sign k d
        Except.ok { x with sign := s }) := by
    intro k d
    rw [checkOrder_sim]
    cases a.checkDictionaryOrder cfg k with
    | error p => rfl
    | ok a =>
      have := feed_sim h (.parameter k d) (a.signDelimiter sa)
      rw [← signDelimiter_sim h] at this
      exact this
  cases c with
  | parameter k v =>
    show (liftM _ : M _) = _ <$> (liftM _ : M _)
    rw [← lift_map]
    exact congrArg _ (hp k _)
  | parameterEncoded k v =>
    show (liftM _ : M _) = _ <$> (liftM _ : M _)
    rw [← lift_map]
    exact congrArg _ (hp k _)
  | oauth p =>
    cases p with
    | callback =>
      show (liftM ((a.mapSign φ).callback cfg wr sb) : M _) = _ <$> (liftM (a.callback cfg wr sa) : M _)
      rw [← lift_map]
      congr 1
      unfold Authorizer.callback
      rw [show (a.mapSign φ).options = a.options from rfl]
      cases a.options.callback with
      | none => rfl
      | some c => exact appendInner_sim h cfg wr a _ _ (.callback _)
    | consumerKey =>
      show (liftM ((a.mapSign φ).consumerKeyM cfg wr sb) : M _) =
        _ <$> (liftM (a.consumerKeyM cfg wr sa) : M _)
      rw [← lift_map]
      congr 1
      exact appendInner_sim h cfg wr a _ _ (.consumerKey _)
    | nonce =>
      show (a.mapSign φ).nonce cfg wr sb = _ <$> a.nonce cfg wr sa
      unfold Authorizer.nonce
      rw [show (a.mapSign φ).sign = φ a.sign from rfl, h.useNonce,
        show (a.mapSign φ).options = a.options from rfl]
      split
      · cases a.options.nonce with
        | none =>
          simp only []
          funext w
          simp only [Functor.map, StateT.map, bind, StateT.bind, Except.bind, fillBytes]
          cases hg : Authorizer.genNonce ((List.range 9).map fun i => w.rng (w.rngPos + i)) with
          | error p => rfl
          | ok n =>
            have := appendInner_sim h cfg wr a b!"oauth_nonce" (.ofBytes n) (.nonce (.ofBytes n))
            simp only [SignCall.run] at this
            simp only [liftM, monadLift, MonadLift.monadLift, StateT.lift, bind, Except.bind, pure,
              Except.pure, this]
            cases a.appendInner cfg wr sa b!"oauth_nonce" (.ofBytes n)
              (fun s => sa.nonce s (.ofBytes n)) <;> rfl
        | some n =>
          simp only []
          rw [← lift_map]
          congr 1
          exact appendInner_sim h cfg wr a _ _ (.nonce _)
      · rfl
    | signatureMethod =>
      show (liftM ((a.mapSign φ).signatureMethod cfg wr sb) : M _) =
        _ <$> (liftM (a.signatureMethod cfg wr sa) : M _)
      rw [← lift_map]
      congr 1
      unfold Authorizer.signatureMethod
      rw [show (a.mapSign φ).sign = φ a.sign from rfl, h.name]
      simp only []
      rw [append_sim h]
      exact feed_sim h .signatureMethod _
    | timestamp =>
      show (a.mapSign φ).timestamp cfg wr sb = _ <$> a.timestamp cfg wr sa
      unfold Authorizer.timestamp
      rw [show (a.mapSign φ).sign = φ a.sign from rfl, h.useTimestamp,
        show (a.mapSign φ).options = a.options from rfl]
      split
      · have hx : ∀ t : Nat, (liftM ((a.mapSign φ).appendInner cfg wr sb b!"oauth_timestamp"
            (.ofBytes (decimal t)) (fun s => sb.timestamp s t)) : M _) =
            Authorizer.mapSign φ <$> (liftM (a.appendInner cfg wr sa b!"oauth_timestamp"
            (.ofBytes (decimal t)) (fun s => sa.timestamp s t)) : M _) := by
          intro t
          rw [← lift_map]
          congr 1
          exact appendInner_sim h cfg wr a _ _ (.timestamp t)
        have hy : ∀ x : M Nat, (x >>= fun t => (liftM ((a.mapSign φ).appendInner cfg wr sb
            b!"oauth_timestamp" (.ofBytes (decimal t)) (fun s => sb.timestamp s t)) : M _)) =
            Authorizer.mapSign φ <$> (x >>= fun t => (liftM (a.appendInner cfg wr sa
            b!"oauth_timestamp" (.ofBytes (decimal t)) (fun s => sa.timestamp s t)) : M _)) := by
          intro x
          funext w
          simp only [hx]
          simp only [Functor.map, StateT.map, bind, StateT.bind, Except.bind, Except.map]
          cases x w <;> rfl
        cases a.options.timestamp with
        | none => exact hy _
        | some t => exact hy _
      · rfl
    | token =>
      show (liftM ((a.mapSign φ).tokenM cfg wr sb) : M _) = _ <$> (liftM (a.tokenM cfg wr sa) : M _)
      rw [← lift_map]
      congr 1
      unfold Authorizer.tokenM
      rw [show (a.mapSign φ).token = a.token from rfl]
      cases a.token with
      | none => rfl
      | some c => exact appendInner_sim h cfg wr a _ _ (.token _)
    | verifier =>
      show (liftM ((a.mapSign φ).verifier cfg wr sb) : M _) = _ <$> (liftM (a.verifier cfg wr sa) : M _)
      rw [← lift_map]
      congr 1
      unfold Authorizer.verifier
      rw [show (a.mapSign φ).options = a.options from rfl]
      cases a.options.verifier with
      | none => rfl
      | some c => exact appendInner_sim h cfg wr a _ _ (.verifier _)
    | version =>
      show (liftM ((a.mapSign φ).version cfg wr sb) : M _) = _ <$> (liftM (a.version cfg wr sa) : M _)
      rw [← lift_map]
      congr 1
      unfold Authorizer.version
      rw [show (a.mapSign φ).options = a.options from rfl]
      split
      · rw [append_sim h]
        exact feed_sim h .version _
      · rfl

theorem runCalls_sim (cs : List Call) (a : Authorizer A W) :
    runCalls (Authorizer.serializer cfg wr sb) cs (a.mapSign φ) =
      Authorizer.mapSign φ <$> runCalls (Authorizer.serializer cfg wr sa) cs a := by
  induction cs generalizing a with
  | nil => rfl
  | cons c cs ih =>
    simp only [runCalls, call_sim h]
    funext w
    simp only [Functor.map, StateT.map, bind, StateT.bind, Except.bind, Except.map]
    cases c.run (Authorizer.serializer cfg wr sa) a w with
    | error p => rfl
    | ok r =>
      have := congrFun (ih r.1) r.2
      simp only [Functor.map, StateT.map, bind, StateT.bind, Except.bind, Except.map] at this
      exact this

theorem end_sim (a : Authorizer A W) : (a.mapSign φ).endM wr sb = a.endM wr sa := by
  unfold Authorizer.endM
  simp only [Authorizer.mapSign, h.fin]

theorem serialize_sim {r : Request} {cs : List Call} (hr : IsTrace r cs) (a : Authorizer A W) :
    r.serialize (Authorizer.serializer cfg wr sb) (a.mapSign φ) =
      r.serialize (Authorizer.serializer cfg wr sa) a := by
  rw [hr, hr, runCalls_sim h]
  funext w
  simp only [Functor.map, StateT.map, bind, StateT.bind, Except.bind, Except.map]
  cases runCalls (Authorizer.serializer cfg wr sa) cs a w with
  | error p => rfl
  | ok x =>
    show (liftM ((x.1.mapSign φ).endM wr sb) : M W) x.2 = (liftM (x.1.endM wr sa) : M W) x.2
    rw [end_sim h]

end

/-- Signature methods related by an embedding of their signing states. -/
structure MethodSim (a : SignatureMethod A) (b : SignatureMethod B) (φ : A → B) : Prop where
  sign : SignSim a.sign b.sign φ
  signWith : ∀ cs ts, b.signWith cs ts = φ <$> a.signWith cs ts

theorem makeSign_sim {a : SignatureMethod A} {b : SignatureMethod B} {φ : A → B}
    (h : MethodSim a b φ) (cfg : Cfg) (method : Bytes) (uri : Display) (client : Credentials Bytes)
    (token : Option (Credentials Bytes)) :
    makeSign cfg b method uri client token = φ <$> makeSign cfg a method uri client token := by
  unfold makeSign
  rw [h.signWith]
  have step : ((do
      let ret ← φ <$> a.signWith client.secret (token.map (·.secret))
      let ret ← b.sign.requestMethod ret method
      b.sign.uri ret (percentEncode uri)) : Except Panic B) = φ <$> (do
      let ret ← a.signWith client.secret (token.map (·.secret))
      let ret ← a.sign.requestMethod ret method
      a.sign.uri ret (percentEncode uri)) := by
    cases a.signWith client.secret (token.map (·.secret)) with
    | error p => rfl
    | ok s =>
      have h1 := h.sign.call (.requestMethod method) s
      simp only [SignCall.run] at h1
      simp only [Functor.map, Except.map, bind, Except.bind, h1]
      cases a.sign.requestMethod s method with
      | error p => rfl
      | ok s =>
        have h2 := h.sign.call (.uri (percentEncode uri)) s
        simp only [SignCall.run] at h2
        exact h2
  split
  · cases assertNotContainQuestion uri with
    | error p => rfl
    | ok u => exact step
  · exact step

/-- The results of a builder are determined by its signature method up to such an embedding. -/
theorem builder_sim {a : SignatureMethod A} {b : SignatureMethod B} {φ : A → B}
    (h : MethodSim a b φ) (cfg : Cfg) (client : Credentials Bytes)
    (token : Option (Credentials Bytes)) (options : Options) {r : Request} {cs : List Call}
    (hr : IsTrace r cs) (method : Bytes) :
    (∀ uri, (Builder.mk b client token options).authorize cfg method uri r =
      (Builder.mk a client token options).authorize cfg method uri r) ∧
    (∀ uri, (Builder.mk b client token options).toForm cfg method uri r =
      (Builder.mk a client token options).toForm cfg method uri r) ∧
    (∀ (wr : Writer W) (d : W → Display) (uri : W),
      (Builder.mk b client token options).toQuery cfg wr d method uri r =
        (Builder.mk a client token options).toQuery cfg wr d method uri r) := by
  have hser : ∀ {W : Type} (wr : Writer W) (data : Data W) (s : A) (c : Credentials Bytes)
      (t : Option (Credentials Bytes)),
      r.serialize (Authorizer.serializer cfg wr b.sign) (Authorizer.new_ data (φ s) c t options) =
      r.serialize (Authorizer.serializer cfg wr a.sign) (Authorizer.new_ data s c t options) :=
    fun wr data s c t => serialize_sim h.sign cfg wr hr (Authorizer.new_ data s c t options)
  refine ⟨fun uri => ?_, fun uri => ?_, fun wr d uri => ?_⟩
  · unfold Builder.authorize Authorizer.authorization Authorizer.authorizationWithBuf
    simp only [makeSign_sim h]
    cases stringWriter.writeUnwrap [] (.ofBytes b!"OAuth ") with
    | error p => rfl
    | ok buf =>
      simp only [bind, Except.bind]
      cases makeSign cfg a method uri _ _ with
      | error p => rfl
      | ok s => exact hser stringWriter (.authorization buf) s _ _
  · unfold Builder.toForm Authorizer.form Authorizer.formWithBuf
    simp only [makeSign_sim h, bind, Except.bind]
    cases makeSign cfg a method uri _ _ with
    | error p => rfl
    | ok s => exact hser stringWriter _ s _ _
  · unfold Builder.toQuery Authorizer.query
    simp only [makeSign_sim h, bind, Except.bind]
    cases makeSign cfg a method (d uri) _ _ with
    | error p => rfl
    | ok s => exact hser wr _ s _ _

/-! ### `Either` -/

/-- The signing algorithm does not override `consumer_key`. -/
def Sign.DefaultConsumerKey (s : Sign A) : Prop :=
  ∀ st v, s.consumerKey st v = s.parameter st b!"oauth_consumer_key" v

theorem either_left_sim (l : Sign A) (r : Sign B) (hl : l.DefaultConsumerKey) :
    SignSim l (eitherSign l r) Sum.inl where
  name _ := rfl
  useNonce _ := rfl
  useTimestamp _ := rfl
  call c s := by
    cases c <;> try rfl
    simp only [SignCall.run, hl _ _]
    rfl
  fin _ := rfl

theorem either_right_sim (l : Sign A) (r : Sign B) (hr : r.DefaultConsumerKey) :
    SignSim r (eitherSign l r) Sum.inr where
  name _ := rfl
  useNonce _ := rfl
  useTimestamp _ := rfl
  call c s := by
    cases c <;> try rfl
    simp only [SignCall.run, hr _ _]
    rfl
  fin _ := rfl

/-- C29, the claim: `Left(l)` gives what `l` gives. -/
def C29_claim : Prop :=
  ∀ (A B : Type) (l : SignatureMethod A) (r : Sign B) (cfg : Cfg) (client : Credentials Bytes)
    (token : Option (Credentials Bytes)) (options : Options) (pairs : List Pair) (method : Bytes)
    (uri : Display) (w : World),
    ((Builder.mk (eitherLeft l r) client token options).authorize cfg method uri
      (ParameterList.request cfg pairs) w) =
    ((Builder.mk l client token options).authorize cfg method uri
      (ParameterList.request cfg pairs) w)

/-- C29 for signing algorithms that do not override `consumer_key` (all of the crate's), whatever else
they override: authorizing with `Left(l)`/`Right(r)` is authorizing with `l`/`r`, panics, clock
readings and randomness included, for header, form and query. Missing: algorithms that override
`consumer_key`, for which `Either` forgets to delegate it. -/
theorem C29_either_partial (l : SignatureMethod A) (r : SignatureMethod B) (cfg : Cfg)
    (client : Credentials Bytes) (token : Option (Credentials Bytes)) (options : Options)
    {req : Request} {cs : List Call} (hr : IsTrace req cs) (method : Bytes) :
    (l.sign.DefaultConsumerKey →
      let e := Builder.mk (eitherLeft l r.sign) client token options
      let b := Builder.mk l client token options
      (∀ uri, e.authorize cfg method uri req = b.authorize cfg method uri req) ∧
      (∀ uri, e.toForm cfg method uri req = b.toForm cfg method uri req) ∧
      (∀ (wr : Writer W) (d : W → Display) (uri : W),
        e.toQuery cfg wr d method uri req = b.toQuery cfg wr d method uri req)) ∧
    (r.sign.DefaultConsumerKey →
      let e := Builder.mk (eitherRight l.sign r) client token options
      let b := Builder.mk r client token options
      (∀ uri, e.authorize cfg method uri req = b.authorize cfg method uri req) ∧
      (∀ uri, e.toForm cfg method uri req = b.toForm cfg method uri req) ∧
      (∀ (wr : Writer W) (d : W → Display) (uri : W),
        e.toQuery cfg wr d method uri req = b.toQuery cfg wr d method uri req)) :=
  ⟨fun hl => builder_sim ⟨either_left_sim l.sign r.sign hl, fun _ _ => rfl⟩ cfg client token options
      hr method,
    fun hr' => builder_sim ⟨either_right_sim l.sign r.sign hr', fun _ _ => rfl⟩ cfg client token
      options hr method⟩

/-- The shared case: `Left(HMAC-SHA1)` next to PLAINTEXT. -/
example : (Builder.mk (eitherLeft hmacSha1 plaintext.sign) (.new b!"k" b!"s") none .new).authorize Case.cfg
      b!"GET" (.ofBytes Case.uri) Case.request =
    (Builder.mk hmacSha1 (.new b!"k" b!"s") none .new).authorize Case.cfg b!"GET" (.ofBytes Case.uri)
      Case.request :=
  ((C29_either_partial (W := Bytes) hmacSha1 plaintext Case.cfg (.new b!"k" b!"s") none .new Case.trace
    b!"GET").1 (fun _ _ => rfl)).1 _

/-- The signature methods of the crate, and `Either`s of them, meet the condition. -/
theorem C29_crate_methods (H : Bytes → Bytes) {K W' : Type} (ops : RsaOps K) (d : W' → Display) :
    (hmacSign H).DefaultConsumerKey ∧ (plaintextSign d).DefaultConsumerKey ∧
    (rsaSignOwned H ops).DefaultConsumerKey ∧ (rsaSignRef H ops).DefaultConsumerKey ∧
    ∀ (l : Sign A) (r : Sign B), (eitherSign l r).DefaultConsumerKey :=
  ⟨fun _ _ => rfl, fun _ _ => rfl, fun _ _ => rfl, fun _ _ => rfl, fun _ _ _ _ => rfl⟩

/-- A concrete case: `Right(PLAINTEXT)` next to HMAC-SHA1 authorizes as PLAINTEXT does. -/
example :
    let o : Options := { timestamp := some ⟨1, by decide, by decide⟩, nonce := some b!"n" }
    ((Builder.mk (eitherRight (hmacSign Sha1.hash) plaintext) (.new b!"k" b!"s") none o).authorize
      ⟨true, true, .std⟩ b!"GET" (.ofBytes b!"http://a/")
      (requestOf (.parameter b!"a" (.ofBytes b!"1") :: allProto.map .oauth)) World.example).toOption.map
      (·.1) =
    some b!"OAuth oauth_consumer_key=\"k\",oauth_nonce=\"n\",oauth_signature_method=\"PLAINTEXT\",oauth_timestamp=\"1\",oauth_signature=\"s&\"" := by
  decide +kernel

/-- A user-defined signing algorithm that hashes the consumer key in a way of its own (here, it leaves
it out), as the provided methods of the trait allow. -/
def noConsumerKey : Sign Bytes where
  name _ := b!"X"
  requestMethod s m := .ok (s ++ m)
  uri s d := .ok (s ++ d.text)
  parameter s k d := .ok (s ++ k ++ d.text)
  delimiter s := .ok s
  «end» s := .ok (percentEncode (.ofBytes s))
  consumerKey s _ := .ok s

/-- C29 is false for it. -/
theorem C29_violated : ¬ C29_claim := by
  intro h
  have := h Bytes Bytes ⟨noConsumerKey, fun _ _ => .ok []⟩ noConsumerKey ⟨true, true, .std⟩
    (.new b!"k" b!"s") none { timestamp := some ⟨1, by decide, by decide⟩, nonce := some b!"n" } []
    b!"GET" (.ofBytes b!"http://a/") World.example
  have h2 := congrArg (fun x => x.toOption.map (·.1)) this
  revert h2
  decide +kernel

end OAuth
