import Verif.Proofs.Authorize

/-
Closed form of `Builder::authorize`, `to_form` and `to_query`.
-/

namespace OAuth

open Spec

variable {S : Type}

/-! ### Creating the signing state -/

/-- How formatting ends, as the panic of an `unwrap`. -/
theorem assertGo_eq (uri : Display) (cs : List Bytes) :
    assertNotContainQuestion.go uri cs =
      if (0x3F : UInt8) ∈ cs.flatten then .error .uriQuery else uri.outcome.check () := by
  induction cs with
  | nil =>
    simp only [assertNotContainQuestion.go, List.flatten_nil, List.not_mem_nil, if_false]
    cases uri.outcome <;> rfl
  | cons c cs ih =>
    simp only [assertNotContainQuestion.go, ih, List.flatten_cons, List.mem_append]
    by_cases h : (0x3F : UInt8) ∈ c <;> simp [h]

theorem assertNotContainQuestion_eq (uri : Display) :
    assertNotContainQuestion uri =
      if (0x3F : UInt8) ∈ uri.text then .error .uriQuery else uri.outcome.check () :=
  assertGo_eq uri uri.chunks

/-- The first two calls made on a signing state. -/
def openCalls (method : Bytes) (uri : Display) : List SignCall :=
  [.requestMethod method, .uri (percentEncode uri)]

theorem makeSign_ok_iff (cfg : Cfg) (sm : SignatureMethod S) (method : Bytes) (uri : Display)
    (client : Credentials Bytes) (token : Option (Credentials Bytes)) (s : S) :
    makeSign cfg sm method uri client token = .ok s ↔
      (cfg.debug = true → (0x3F : UInt8) ∉ uri.text ∧ uri.outcome = .ok) ∧
      ∃ s0, sm.signWith client.secret (token.map (·.secret)) = .ok s0 ∧
        runSign sm.sign (openCalls method uri) s0 = .ok s := by
  have tail : (do
      let ret ← sm.signWith client.secret (token.map (·.secret))
      let ret ← sm.sign.requestMethod ret method
      sm.sign.uri ret (percentEncode uri)) = (.ok s : Except Panic S) ↔
      ∃ s0, sm.signWith client.secret (token.map (·.secret)) = .ok s0 ∧
        runSign sm.sign (openCalls method uri) s0 = .ok s := by
    simp only [bind, Except.bind]
    cases sm.signWith client.secret (token.map (·.secret)) with
    | error p => simp
    | ok s0 =>
      simp only [Except.ok.injEq, exists_eq_left', openCalls, runSign, SignCall.run, bind, Except.bind]
      cases sm.sign.requestMethod s0 method with
      | error p => simp
      | ok s1 =>
        simp only []
        cases sm.sign.uri s1 (percentEncode uri) <;> simp
  unfold makeSign
  cases hd : cfg.debug with
  | false =>
    simp only [Bool.false_eq_true, if_false, false_implies, true_and]
    exact tail
  | true =>
    simp only [if_true, assertNotContainQuestion_eq, true_implies]
    by_cases hq : (0x3F : UInt8) ∈ uri.text
    · simp [hq, bind, Except.bind]
    · cases ho : uri.outcome with
      | ok =>
        simp only [hq, if_false, not_false_eq_true, true_and]
        exact tail
      | err => simp [hq, Outcome.check, bind, Except.bind]
      | panic p => simp [hq, Outcome.check, bind, Except.bind]

/-! ### Runs started by a builder -/

/-- Conditions for a run not to panic before the signing algorithm is asked for the signature. -/
structure Runs (cfg : Cfg) (e : Env) (w : World) (uri : Display) (cs : List Call) : Prop where
  uri : cfg.debug = true → (0x3F : UInt8) ∉ uri.text ∧ uri.outcome = .ok
  clock : ¬ (cfg.clock = .none ∧ cs.any (needsClock e) = true)
  order : cfg.checksOrder = true →
    ((itemsFrom cfg e w cs).map Item.key).Pairwise (fun x y => bytesLe x y = true)

/-- All calls made on the signing algorithm during a run. -/
def allSignCalls (cfg : Cfg) (e : Env) (w : World) (method : Bytes) (uri : Display)
    (cs : List Call) : List SignCall :=
  openCalls method uri ++ signCalls false (itemsFrom cfg e w cs)

/-- A run of a builder, with the initial data as a parameter. -/
def Builder.runWith (cfg : Cfg) (b : Builder S) (data : Data Bytes) (method : Bytes)
    (uri : Display) (r : Request) : M Bytes := do
  let s ← (liftM (makeSign cfg b.signatureMethod method uri b.client b.token) : M S)
  r.serialize (Authorizer.serializer cfg stringWriter b.signatureMethod.sign)
    (Authorizer.new_ data s b.client b.token b.options)

theorem asRefStr_eq (c : Credentials Bytes) : Builder.asRefStr c = c := rfl

theorem map_asRefStr (t : Option (Credentials Bytes)) : t.map Builder.asRefStr = t := by
  cases t <;> rfl

theorem authorize_runWith (cfg : Cfg) (b : Builder S) (method : Bytes) (uri : Display)
    (r : Request) :
    b.authorize cfg method uri r = b.runWith cfg (.authorization b!"OAuth ") method uri r := by
  unfold Builder.authorize Authorizer.authorization Authorizer.authorizationWithBuf Builder.runWith
  simp only [stringWriter_writeUnwrap, Display.text_ofBytes, asRefStr_eq, map_asRefStr]
  simp only [Display.ofBytes, Outcome.check, bind, Except.bind]
  funext w
  simp only [StateT.bind, bind, Except.bind, List.nil_append]
  cases makeSign cfg b.signatureMethod method uri b.client b.token with
  | error p => rfl
  | ok s => rfl

theorem toForm_runWith (cfg : Cfg) (b : Builder S) (method : Bytes) (uri : Display)
    (r : Request) :
    b.toForm cfg method uri r = b.runWith cfg (.urlencode ⟨[], .none⟩) method uri r := by
  unfold Builder.toForm Authorizer.form Authorizer.formWithBuf Builder.runWith
  simp only [asRefStr_eq, map_asRefStr, Urlencoder.formWithBuf]
  funext w
  simp only [StateT.bind, bind, Except.bind]
  cases makeSign cfg b.signatureMethod method uri b.client b.token with
  | error p => rfl
  | ok s => rfl

theorem toQuery_runWith (cfg : Cfg) (b : Builder S) (method uri : Bytes) (r : Request) :
    b.toQuery cfg stringWriter .ofBytes method uri r =
      b.runWith cfg (.urlencode ⟨uri, .question⟩) method (.ofBytes uri) r := by
  unfold Builder.toQuery Authorizer.query Builder.runWith
  simp only [asRefStr_eq, map_asRefStr, Urlencoder.query]
  funext w
  simp only [StateT.bind, bind, Except.bind]
  cases makeSign cfg b.signatureMethod method (.ofBytes uri) b.client b.token with
  | error p => rfl
  | ok s => rfl

theorem runWith_ok_iff {cfg : Cfg} {b : Builder S} {name : Bytes} {un ut : Bool}
    (hsg : ConstSign b.signatureMethod.sign name un ut) {r : Request} {cs : List Call}
    (h : IsTrace r cs) (data : Data Bytes) (method : Bytes) (uri : Display) (w w' : World)
    (out : Bytes) :
    b.runWith cfg data method uri r w = .ok (out, w') ↔
      Runs cfg (b.env name un ut) w uri cs ∧ w' = cs.foldl (advance (b.env name un ut)) w ∧
      ∃ s0 s sig, b.signatureMethod.signWith b.client.secret (b.token.map (·.secret)) = .ok s0 ∧
        runSign b.signatureMethod.sign (allSignCalls cfg (b.env name un ut) w method uri cs) s0
          = .ok s ∧
        b.signatureMethod.sign.end s = .ok sig ∧ sig.outcome = .ok ∧
        out = (data.sendAll (itemsFrom cfg (b.env name un ut) w cs)).finish sig.text := by
  unfold Builder.runWith
  simp only [M.bind_ok, M.lift_ok, makeSign_ok_iff]
  have hser : ∀ s, r.serialize (Authorizer.serializer cfg stringWriter b.signatureMethod.sign)
      (Authorizer.new_ data s b.client b.token b.options) w = .ok (out, w') ↔ _ := fun s =>
    serialize_ok_iff (e := b.env name un ut) hsg
      (a := Authorizer.new_ data s b.client b.token b.options) ⟨rfl, rfl, rfl⟩ rfl rfl h w w' out
  constructor
  · rintro ⟨s1, w1, ⟨⟨huri, s0, h0, hopen⟩, rfl⟩, hrun⟩
    obtain ⟨hclock, rfl, hord, s, sig, hs, hend, hout, rfl⟩ := (hser s1).mp hrun
    refine ⟨⟨huri, hclock, hord⟩, rfl, s0, s, sig, h0, ?_, hend, hout, rfl⟩
    rw [allSignCalls, runSign_append, hopen]
    exact hs
  · rintro ⟨⟨huri, hclock, hord⟩, rfl, s0, s, sig, h0, hall, hend, hout, rfl⟩
    rw [allSignCalls, runSign_append] at hall
    simp only [bind, Except.bind] at hall
    cases hopen : runSign b.signatureMethod.sign (openCalls method uri) s0 with
    | error p => simp [hopen] at hall
    | ok s1 =>
      simp only [hopen] at hall
      exact ⟨s1, w, ⟨⟨huri, s0, h0, hopen⟩, rfl⟩,
        (hser s1).mpr ⟨hclock, rfl, hord, s, sig, hall, hend, hout, rfl⟩⟩

/-- The text of everything the signing algorithm is fed. -/
theorem allSignCalls_render {cfg : Cfg} {e : Env} (hname : ∀ b ∈ e.name, unreserved b = true)
    (w : World) (method : Bytes) (uri : Display) (cs : List Call) :
    ((allSignCalls cfg e w method uri cs).map (SignCall.render e.name)).flatten =
      baseString method uri.text
        ((annotate cfg e w cs).filterMap fun r => r.1.signed? e r.2.1 r.2.2) := by
  have h := congrArg (List.map Prod.snd) (itemsFrom_signed cfg e hname w cs)
  simp only [List.map_map, Function.comp_def] at h
  have ho : ((openCalls method uri).map (SignCall.render e.name)).flatten =
      method ++ b!"&" ++ encode uri.text ++ b!"&" := by
    simp only [openCalls, List.map_cons, List.map_nil, List.flatten_cons, List.flatten_nil,
      SignCall.render, percentEncode_text, List.append_nil, List.append_assoc]
  rw [allSignCalls, List.map_append, List.flatten_append, signCalls_render, h, ho]
  rfl

/-! ### Signing algorithms that absorb text -/

theorem Absorbs.run {sg : Sign S} {name : Bytes} {add : S → Bytes → S} (h : Absorbs sg name add)
    (cs : List SignCall) (hok : ∀ c ∈ cs, c.outcome = .ok) (s : S) :
    runSign sg cs s = .ok (add s ((cs.map (SignCall.render name)).flatten)) := by
  induction cs generalizing s with
  | nil => simp [runSign, h.nil]
  | cons c cs ih =>
    simp only [runSign, h.call c s (hok c (by simp)), bind, Except.bind,
      ih (fun c hc => hok c (by simp [hc]))]
    simp [h.append]

theorem itemIn_outcome {cfg : Cfg} {e : Env} {w : World} {c : Call} (hc : c.ok) {i : Item}
    (h : itemIn cfg e w c = some i) : i.feed.outcome = .ok := by
  have hof : ∀ b : Bytes, (Display.ofBytes b).outcome = .ok := fun _ => rfl
  cases c with
  | parameter k v =>
    simp only [itemIn, Option.some.injEq] at h; subst h
    simp [SignCall.outcome, hc v rfl]
  | parameterEncoded k v =>
    simp only [itemIn, Option.some.injEq] at h; subst h
    simp [SignCall.outcome, hc v rfl]
  | oauth p =>
    cases p <;> simp only [itemIn, Option.map_eq_some_iff, Option.some.injEq] at h
    case callback => obtain ⟨v, _, rfl⟩ := h; simp [mkItem, SignCall.outcome, hof]
    case consumerKey => subst h; simp [mkItem, SignCall.outcome, hof]
    case nonce =>
      split at h
      · split at h <;> cases h <;> simp [mkItem, SignCall.outcome, hof]
      · cases h
    case signatureMethod => subst h; rfl
    case timestamp =>
      split at h
      · cases h; rfl
      · cases h
    case token => obtain ⟨v, _, rfl⟩ := h; simp [mkItem, SignCall.outcome, hof]
    case verifier => obtain ⟨v, _, rfl⟩ := h; simp [mkItem, SignCall.outcome, hof]
    case version =>
      split at h
      · cases h; rfl
      · cases h

theorem itemsFrom_outcome {cfg : Cfg} {e : Env} {w : World} {cs : List Call}
    (hcs : ∀ c ∈ cs, c.ok) : ∀ i ∈ itemsFrom cfg e w cs, i.feed.outcome = .ok := by
  induction cs generalizing w with
  | nil => simp [itemsFrom]
  | cons c cs ih =>
    intro i hi
    simp only [itemsFrom, List.mem_append, Option.mem_toList] at hi
    rcases hi with hi | hi
    · exact itemIn_outcome (hcs c (by simp)) hi
    · exact ih (fun c hc => hcs c (by simp [hc])) i hi

theorem signCalls_outcome {items : List Item} (h : ∀ i ∈ items, i.feed.outcome = .ok) (d : Bool) :
    ∀ c ∈ signCalls d items, c.outcome = .ok := by
  induction items generalizing d with
  | nil => simp [signCalls]
  | cons i is ih =>
    intro c hc
    simp only [signCalls, List.mem_append, List.mem_cons] at hc
    rcases hc with hc | rfl | hc
    · cases d <;> simp at hc
      subst hc; rfl
    · exact h i (by simp)
    · exact ih (fun i hi => h i (by simp [hi])) true c hc

theorem allSignCalls_outcome {cfg : Cfg} {e : Env} {w : World} {method : Bytes} {uri : Display}
    {cs : List Call} (huri : uri.outcome = .ok) (hcs : ∀ c ∈ cs, c.ok) :
    ∀ c ∈ allSignCalls cfg e w method uri cs, c.outcome = .ok := by
  intro c hc
  simp only [allSignCalls, openCalls, List.mem_append, List.mem_cons, List.not_mem_nil,
    or_false] at hc
  rcases hc with (rfl | rfl) | hc
  · rfl
  · simpa [SignCall.outcome] using huri
  · exact signCalls_outcome (itemsFrom_outcome hcs) false c hc

/-- `runWith` for absorbing signing algorithms and well-behaved values. -/
theorem runWith_absorbs {cfg : Cfg} {b : Builder S} {name : Bytes} {un ut : Bool}
    (hsg : ConstSign b.signatureMethod.sign name un ut)
    (hname : ∀ x ∈ name, unreserved x = true) {add : S → Bytes → S}
    (habs : Absorbs b.signatureMethod.sign name add) {r : Request} {cs : List Call}
    (h : IsTrace r cs) (hcs : ∀ c ∈ cs, c.ok) (data : Data Bytes) (method : Bytes) {uri : Display}
    (huri : uri.outcome = .ok) (w w' : World) (out : Bytes) :
    b.runWith cfg data method uri r w = .ok (out, w') ↔
      Runs cfg (b.env name un ut) w uri cs ∧ w' = cs.foldl (advance (b.env name un ut)) w ∧
      ∃ s0 sig, b.signatureMethod.signWith b.client.secret (b.token.map (·.secret)) = .ok s0 ∧
        b.signatureMethod.sign.end (add s0 (baseString method uri.text
          (signedIn cfg (b.env name un ut) w cs))) = .ok sig ∧ sig.outcome = .ok ∧
        out = (data.sendAll (itemsFrom cfg (b.env name un ut) w cs)).finish sig.text := by
  rw [runWith_ok_iff hsg h]
  have hrun : ∀ s0, runSign b.signatureMethod.sign
      (allSignCalls cfg (b.env name un ut) w method uri cs) s0 = .ok (add s0 (baseString method
        uri.text (signedIn cfg (b.env name un ut) w cs))) := by
    intro s0
    have hr := allSignCalls_render (cfg := cfg) (e := b.env name un ut) hname w method uri cs
    rw [habs.run _ (allSignCalls_outcome huri hcs)]
    exact congrArg (fun t => Except.ok (add s0 t)) hr
  simp only [hrun, Except.ok.injEq]
  constructor
  · rintro ⟨h1, h2, s0, s, sig, h3, rfl, h4, h5, h6⟩
    exact ⟨h1, h2, s0, sig, h3, h4, h5, h6⟩
  · rintro ⟨h1, h2, s0, sig, h3, h4, h5, h6⟩
    exact ⟨h1, h2, s0, _, sig, h3, rfl, h4, h5, h6⟩

theorem authorize_absorbs {cfg : Cfg} {b : Builder S} {name : Bytes} {un ut : Bool}
    (hsg : ConstSign b.signatureMethod.sign name un ut)
    (hname : ∀ x ∈ name, unreserved x = true) {add : S → Bytes → S}
    (habs : Absorbs b.signatureMethod.sign name add) {r : Request} {cs : List Call}
    (h : IsTrace r cs) (hcs : ∀ c ∈ cs, c.ok) (method : Bytes) {uri : Display}
    (huri : uri.outcome = .ok) (w w' : World) (out : Bytes) :
    b.authorize cfg method uri r w = .ok (out, w') ↔
      Runs cfg (b.env name un ut) w uri cs ∧ w' = cs.foldl (advance (b.env name un ut)) w ∧
      ∃ s0 sig, b.signatureMethod.signWith b.client.secret (b.token.map (·.secret)) = .ok s0 ∧
        b.signatureMethod.sign.end (add s0 (baseString method uri.text
          (signedIn cfg (b.env name un ut) w cs))) = .ok sig ∧ sig.outcome = .ok ∧
        out = b!"OAuth " ++ ((sentIn cfg (b.env name un ut) w cs).map headerItem).flatten ++
          b!"oauth_signature=\"" ++ sig.text ++ b!"\"" := by
  rw [authorize_runWith, runWith_absorbs hsg hname habs h hcs _ _ huri]
  simp only [sendAll_header, Data.finish]
  rw [itemsFrom_sent cfg _ hname]
  rfl

end OAuth
