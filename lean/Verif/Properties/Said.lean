import Verif.Spec.Said
import Verif.Proofs.Cases
import Verif.Proofs.Signing
import Verif.Proofs.Signers
import Verif.Properties.Exact
import Verif.Properties.Names

/-
C92, C93: signing algorithms, the crate's or one's own: the calls by which they are given the signature base
string, what one has to implement, and how their name is sent.
-/

namespace OAuth

open Spec

variable {S : Type}

theorem itemIn_said (cfg : Cfg) (e : Env) (w : World) (c : Call) :
    (itemIn cfg e w c).map (fun i => i.feed.said) = c.said? e w.nonce (w.time cfg) := by
  have hnon : encode w.nonce = w.nonce := encode_of_unreserved w.nonce_unreserved
  cases c with
  | parameter k v => simp [itemIn, Call.said?, SignCall.said]
  | parameterEncoded k v => simp [itemIn, Call.said?, SignCall.said]
  | oauth p =>
    cases p with
    | callback => cases h : e.options.callback <;> simp [itemIn, Call.said?, SignCall.said, h, mkItem]
    | consumerKey => simp [itemIn, Call.said?, SignCall.said, mkItem]
    | nonce =>
      cases hu : e.useNonce
      · simp [itemIn, Call.said?, hu]
      · cases h : e.options.nonce <;>
          simp [itemIn, Call.said?, SignCall.said, h, hu, mkItem, hnon]
    | signatureMethod => simp [itemIn, Call.said?, SignCall.said]
    | timestamp => cases hu : e.useTimestamp <;> simp [itemIn, Call.said?, SignCall.said, hu]
    | token => cases h : e.token <;> simp [itemIn, Call.said?, SignCall.said, h, mkItem]
    | verifier => cases h : e.options.verifier <;> simp [itemIn, Call.said?, SignCall.said, h, mkItem]
    | version => cases h : e.options.version <;> simp [itemIn, Call.said?, SignCall.said, h]

theorem itemsFrom_said (cfg : Cfg) (e : Env) (w : World) (cs : List Call) :
    (itemsFrom cfg e w cs).map (fun i => i.feed.said) =
      (annotate cfg e w cs).filterMap fun r => r.1.said? e r.2.1 r.2.2 := by
  induction cs generalizing w with
  | nil => rfl
  | cons c cs ih =>
    have h := itemIn_said cfg e w c
    simp only [itemsFrom, annotate, List.map_append, List.filterMap_cons, ih, ← h]
    cases itemIn cfg e w c <;> rfl

theorem signCalls_said (items : List Item) :
    (signCalls false items).map SignCall.said =
      (items.map fun i => i.feed.said).intersperse .delimiter := by
  have aux : ∀ (i : Item) (is : List Item), 
      ((i :: is).map (fun i => i.feed.said)).intersperse .delimiter =
      i.feed.said :: (signCalls true is).map SignCall.said := by
    intro i is
    induction is generalizing i with
    | nil => rfl
    | cons j is ih =>
      simp only [List.map_cons] at ih ⊢
      rw [List.intersperse_cons_cons, ih]
      simp [signCalls, SignCall.said]
  cases items with
  | nil => rfl
  | cons i is => rw [aux]; simp [signCalls]

theorem allSignCalls_said (cfg : Cfg) (e : Env) (w : World) (method : Bytes) (uri : Display)
    (cs : List Call) :
    (allSignCalls cfg e w method uri cs).map SignCall.said =
      documented method uri.text
        ((annotate cfg e w cs).filterMap fun r => r.1.said? e r.2.1 r.2.2) := by
  rw [allSignCalls, List.map_append, signCalls_said, itemsFrom_said]
  simp [openCalls, SignCall.said, documented]

/-- C92: for every request and every signing algorithm (also one that overrides any of the methods of the
trait): there is one sequence `L` of calls, which is the documented one (the method, the URI, and for each
parameter the method it has, in order, with `delimiter` between), and whenever `authorize`, `to_form` or
`to_query` returns, the state whose signature is sent is the one that `sign_with` returns after `L`. -/
theorem C92_calls (cfg : Cfg) (b : Builder S) {name : Bytes} {un ut : Bool}
    (hsg : ConstSign b.signatureMethod.sign name un ut) {r : Request} {cs : List Call}
    (hr : IsTrace r cs) (method : Bytes) (uri : Display) (w : World) :
    ∃ L : List SignCall,
      L.map SignCall.said = documented method uri.text
        ((annotate cfg (b.env name un ut) w cs).filterMap fun x =>
          x.1.said? (b.env name un ut) x.2.1 x.2.2) ∧
      (∀ out w', b.authorize cfg method uri r w = .ok (out, w') →
        ∃ s0 s sig pre, b.signatureMethod.signWith b.client.secret (b.token.map (·.secret)) = .ok s0 ∧
          runSign b.signatureMethod.sign L s0 = .ok s ∧ b.signatureMethod.sign.end s = .ok sig ∧
          out = pre ++ b!"oauth_signature=\"" ++ sig.text ++ b!"\"") ∧
      (∀ out w', b.toForm cfg method uri r w = .ok (out, w') →
        ∃ s0 s sig pre, b.signatureMethod.signWith b.client.secret (b.token.map (·.secret)) = .ok s0 ∧
          runSign b.signatureMethod.sign L s0 = .ok s ∧ b.signatureMethod.sign.end s = .ok sig ∧
          out = pre ++ b!"oauth_signature=" ++ sig.text) ∧
      (∀ u, uri = .ofBytes u →
        ∀ out w', b.toQuery cfg stringWriter .ofBytes method u r w = .ok (out, w') →
        ∃ s0 s sig pre, b.signatureMethod.signWith b.client.secret (b.token.map (·.secret)) = .ok s0 ∧
          runSign b.signatureMethod.sign L s0 = .ok s ∧ b.signatureMethod.sign.end s = .ok sig ∧
          out = u ++ b!"?" ++ pre ++ b!"oauth_signature=" ++ sig.text) := by
  have hj : ∀ (ps : List (Bytes × Bytes)) (t : Bytes), ∃ pre,
      join b!"&" ((ps ++ [(b!"oauth_signature", t)]).map formItem) = pre ++ b!"oauth_signature=" ++ t := by
    intro ps t
    induction ps with
    | nil => exact ⟨[], rfl⟩
    | cons p ps ih =>
      obtain ⟨pre, h⟩ := ih
      refine ⟨formItem p ++ b!"&" ++ pre, ?_⟩
      have hne : ∃ q qs, (ps ++ [(b!"oauth_signature", t)]).map formItem = q :: qs := by
        cases ps <;> exact ⟨_, _, rfl⟩
      obtain ⟨q, qs, hq⟩ := hne
      rw [List.cons_append, List.map_cons]
      rw [hq] at h ⊢
      simp only [join]
      rw [h]
      simp [List.append_assoc]
  refine ⟨allSignCalls cfg (b.env name un ut) w method uri cs, allSignCalls_said _ _ _ _ _ _, ?_, ?_, ?_⟩
  · intro out w' h
    rw [authorize_runWith, runWith_ok_iff hsg hr] at h
    obtain ⟨-, -, s0, s, sig, h0, h1, h2, -, rfl⟩ := h
    exact ⟨s0, s, sig, _, h0, h1, h2, by rw [sendAll_header, Data.finish]⟩
  · intro out w' h
    rw [toForm_runWith, runWith_ok_iff hsg hr] at h
    obtain ⟨-, -, s0, s, sig, h0, h1, h2, -, rfl⟩ := h
    obtain ⟨pre, hp⟩ := hj (sentOf (itemsFrom cfg (b.env name un ut) w cs)) sig.text
    exact ⟨s0, s, sig, pre, h0, h1, h2, by rw [(sendAll_finish_form _ _ _).1]; exact hp⟩
  · rintro u rfl out w' h
    rw [toQuery_runWith, runWith_ok_iff hsg hr] at h
    obtain ⟨-, -, s0, s, sig, h0, h1, h2, -, rfl⟩ := h
    obtain ⟨pre, hp⟩ := hj (sentOf (itemsFrom cfg (b.env name un ut) w cs)) sig.text
    refine ⟨s0, s, sig, pre, h0, h1, h2, ?_⟩
    rw [(sendAll_finish_form _ _ _).2]
    have := congrArg (fun x => u ++ b!"?" ++ x) hp
    simpa [List.append_assoc] using this

/-- A concrete case: an algorithm, and a request for which all three return. -/
example : ConstSign (Case.builder hmacSha1).signatureMethod.sign b!"HMAC-SHA1" true true ∧
    IsTrace Case.request Case.calls ∧
    (∃ out w', (Case.builder hmacSha1).authorize Case.cfg b!"GET" (.ofBytes Case.uri) Case.request
      Case.world = .ok (out, w')) ∧
    (∃ out w', (Case.builder hmacSha1).toForm Case.cfg b!"POST" (.ofBytes Case.uri) Case.request
      Case.world = .ok (out, w')) ∧
    (∃ out w', (Case.builder hmacSha1).toQuery Case.cfg stringWriter .ofBytes b!"GET" Case.uri Case.request
      Case.world = .ok (out, w')) :=
  ⟨constSign_hmac _, Case.trace, Case.header, Case.form, Case.query⟩

/-- An algorithm that writes down what it is told, method by method, and whose signature is any function
`f` of the record. -/
def recorder (name : Bytes) (un ut : Bool) (f : List Said → Bytes) : SignatureMethod (List Said) where
  sign := {
    name := fun _ => name
    requestMethod := fun s m => .ok (s ++ [.requestMethod m])
    uri := fun s d => d.outcome.check (s ++ [.uri d.text])
    parameter := fun s k d => d.outcome.check (s ++ [.parameter k d.text])
    delimiter := fun s => .ok (s ++ [.delimiter])
    «end» := fun s => .ok (.ofBytes (f s))
    callback := fun s d => d.outcome.check (s ++ [.callback d.text])
    consumerKey := fun s d => d.outcome.check (s ++ [.consumerKey d.text])
    nonce := fun s d => d.outcome.check (s ++ [.nonce d.text])
    useNonce := fun _ => un
    signatureMethod := fun s => .ok (s ++ [.signatureMethod])
    timestamp := fun s t => .ok (s ++ [.timestamp t])
    useTimestamp := fun _ => ut
    token := fun s d => d.outcome.check (s ++ [.token d.text])
    verifier := fun s d => d.outcome.check (s ++ [.verifier d.text])
    version := fun s => .ok (s ++ [.version]) }
  signWith := fun _ _ => .ok []

theorem recorder_const (name : Bytes) (un ut : Bool) (f : List Said → Bytes) :
    ConstSign (recorder name un ut f).sign name un ut := ⟨fun _ => rfl, fun _ => rfl, fun _ => rfl⟩

theorem recorder_run {name : Bytes} {un ut : Bool} {f : List Said → Bytes} (L : List SignCall)
    {s s' : List Said} (h : runSign (recorder name un ut f).sign L s = .ok s') :
    s' = s ++ L.map SignCall.said := by
  have hck : ∀ {x : Outcome} {u u' : List Said}, x.check u = .ok u' → u' = u := by
    intro x u u' e
    cases x <;> simp [Outcome.check] at e
    exact e.symm
  induction L generalizing s with
  | nil => cases h; simp
  | cons c L ih =>
    simp only [runSign, bind, Except.bind] at h
    split at h
    · cases h
    · next s1 h1 =>
      have : s1 = s ++ [c.said] := by
        cases c <;> first
          | exact hck h1
          | (cases h1; rfl)
      rw [ih h, this]
      simp

/-- C92, what an algorithm is told: an algorithm that writes down each call has, when its signature is
asked for, written down the documented calls, each exactly once and in order, and nothing else. As the
signature is any function of the record, the output shows the whole of it. -/
theorem C92_recorded (cfg : Cfg) {name : Bytes} {un ut : Bool} (f : List Said → Bytes)
    (b : Builder (List Said)) (hb : b.signatureMethod = recorder name un ut f)
    (hname : ∀ x ∈ name, unreserved x = true) {r : Request} {cs : List Call}
    (hr : IsTrace r cs) (method : Bytes) (uri : Display) (w : World) :
    let e := b.env name un ut
    let sig := f (documented method uri.text
      ((annotate cfg e w cs).filterMap fun x => x.1.said? e x.2.1 x.2.2))
    (∀ out w', b.authorize cfg method uri r w = .ok (out, w') →
      out = headerText (sentIn cfg e w cs) sig) ∧
    (∀ out w', b.toForm cfg method uri r w = .ok (out, w') →
      out = formText (sentIn cfg e w cs) sig) ∧
    (∀ u, uri = .ofBytes u →
      ∀ out w', b.toQuery cfg stringWriter .ofBytes method u r w = .ok (out, w') →
        out = u ++ b!"?" ++ formText (sentIn cfg e w cs) sig) := by
  intro e sig
  have hsg : ConstSign b.signatureMethod.sign name un ut := by rw [hb]; exact recorder_const _ _ _ _
  have hend : ∀ {s0 s : List Said} {d : Display},
      b.signatureMethod.signWith b.client.secret (b.token.map (·.secret)) = .ok s0 →
      runSign b.signatureMethod.sign (allSignCalls cfg e w method uri cs) s0 = .ok s →
      b.signatureMethod.sign.end s = .ok d → d.text = sig := by
    intro s0 s d h0 h1 h2
    rw [hb] at h0 h1 h2
    cases h0
    have := recorder_run _ h1
    rw [allSignCalls_said, List.nil_append] at this
    subst this
    cases h2
    exact Display.text_ofBytes _
  refine ⟨?_, ?_, ?_⟩
  · intro out w' h
    rw [authorize_runWith, runWith_ok_iff hsg hr] at h
    obtain ⟨-, -, s0, s, d, h0, h1, h2, -, rfl⟩ := h
    rw [sendAll_header, Data.finish, itemsFrom_sent cfg _ hname, hend h0 h1 h2]
    rfl
  · intro out w' h
    rw [toForm_runWith, runWith_ok_iff hsg hr] at h
    obtain ⟨-, -, s0, s, d, h0, h1, h2, -, rfl⟩ := h
    rw [(sendAll_finish_form _ _ _).1, itemsFrom_sent cfg _ hname, hend h0 h1 h2]
    rfl
  · rintro u rfl out w' h
    rw [toQuery_runWith, runWith_ok_iff hsg hr] at h
    obtain ⟨-, -, s0, s, d, h0, h1, h2, -, rfl⟩ := h
    rw [(sendAll_finish_form _ _ _).2, itemsFrom_sent cfg _ hname, hend h0 h1 h2]
    rfl

/-- The example of the documentation of the trait (signature_method.rs l.109-131): the request of
RFC 5849, and the calls listed there. -/
example :
    let b : Builder (List Said) := (Builder.withToken
        (.fromParts b!"9djdj82h48djs9d2" b!"" b!"kkk9d7dh3k39sjv7" b!"")
        (recorder b!"HMAC-SHA1" true true fun s => if s =
          [.requestMethod b!"POST", .uri b!"http%3A%2F%2Fexample.com%2Frequest",
           .parameter b!"a" b!"r%2520b", .delimiter, .parameter b!"a2" b!"a", .delimiter,
           .consumerKey b!"9djdj82h48djs9d2", .delimiter, .nonce b!"7d8f3e4a", .delimiter,
           .signatureMethod, .delimiter, .timestamp 137131201, .delimiter,
           .token b!"kkk9d7dh3k39sjv7", .delimiter, .parameter b!"z" b!""]
          then b!"as-documented" else b!"otherwise")).setNonce (some b!"7d8f3e4a")
        |>.setTimestamp (some ⟨137131201, by decide, by decide⟩)
    let r := ParameterList.request Case.cfg
      [(b!"a", .ofBytes b!"r b"), (b!"a2", .ofBytes b!"a"), (b!"z", .ofBytes b!"")]
    (b.toForm Case.cfg b!"POST" (.ofBytes b!"http://example.com/request") r Case.world).toOption.map
        (·.1) =
      some b!"oauth_consumer_key=9djdj82h48djs9d2&oauth_nonce=7d8f3e4a&oauth_signature_method=HMAC-SHA1&oauth_timestamp=137131201&oauth_token=kkk9d7dh3k39sjv7&oauth_signature=as-documented" := by
  decide +kernel

/-! ### An algorithm of one's own -/

/-- A signature method of one's own, which implements what the trait requires as its documentation says:
each call adds its piece of the signature base string, and the signature is any function `f` of the secrets
and of the whole. Everything else is left to the methods the trait provides. -/
def own (name : Bytes) (f : Bytes → Option Bytes → Bytes → Bytes) :
    SignatureMethod ((Bytes → Bytes) × Bytes) where
  sign := {
    name := fun _ => name
    requestMethod := fun s m => .ok (s.1, s.2 ++ (m ++ b!"&"))
    uri := fun s d => d.outcome.check (s.1, s.2 ++ (d.text ++ b!"&"))
    parameter := fun s k d => d.outcome.check (s.1, s.2 ++ (k ++ b!"%3D" ++ d.text))
    delimiter := fun s => .ok (s.1, s.2 ++ b!"%26")
    «end» := fun s => .ok (.ofBytes (s.1 s.2)) }
  signWith := fun cs ts => .ok (f cs ts, [])

theorem own_const (name : Bytes) (f : Bytes → Option Bytes → Bytes → Bytes) :
    ConstSign (own name f).sign name true true := ⟨fun _ => rfl, fun _ => rfl, fun _ => rfl⟩

theorem own_absorbs (name : Bytes) (f : Bytes → Option Bytes → Bytes → Bytes) :
    Absorbs (own name f).sign name (fun s t => (s.1, s.2 ++ t)) where
  nil s := by simp
  append s a b := by simp
  call c s hc := by
    cases c <;> simp only [SignCall.outcome] at hc <;>
      simp [SignCall.run, own, SignCall.render, hc, Outcome.check, Display.ofBytes, Display.text]

/-- C92, what one has to implement: a signature method which implements only what the trait requires,
each method by the piece of base string it is documented with, signs the signature base string: what is
sent is its function of the secrets and of `METHOD&encoded URI&` and the parameters, joined by `%26`. -/
theorem C92_required {name : Bytes} (hname : ∀ x ∈ name, unreserved x = true)
    (f : Bytes → Option Bytes → Bytes → Bytes) (cs : Bytes) (ts : Option Bytes) :
    Signs (own name f) cs ts name true true (f cs ts) where
  const := own_const name f
  safe := hname
  run := ⟨_, (f cs ts, []), own_absorbs name f, rfl, fun m =>
    ⟨.ofBytes (f cs ts m), by simp [own], rfl, Display.text_ofBytes _⟩⟩

/-- C92, what one gets: the header, form and query of a request with such a method. -/
theorem C92_own (cfg : Cfg) {name : Bytes} (hname : ∀ x ∈ name, unreserved x = true)
    (f : Bytes → Option Bytes → Bytes → Bytes) (b : Builder ((Bytes → Bytes) × Bytes))
    (hb : b.signatureMethod = own name f) {r : Request} {cs : List Call} (hr : IsTrace r cs)
    (hstd : Standard cs) (hcs : ∀ c ∈ cs, c.ok) (method : Bytes) (w w' : World) (out : Bytes) :
    let sig := fun uri => f b.client.secret (b.token.map (·.secret)) (b.base cfg name method uri cs w)
    let sent := (b.params cfg name w).map fun p => (p.1, encode p.2)
    (∀ uri : Display, uri.outcome = .ok → b.authorize cfg method uri r w = .ok (out, w') →
      out = headerText sent (sig uri)) ∧
    (∀ uri : Display, uri.outcome = .ok → b.toForm cfg method uri r w = .ok (out, w') →
      out = formText sent (sig uri)) ∧
    (∀ u, b.toQuery cfg stringWriter .ofBytes method u r w = .ok (out, w') →
      out = u ++ b!"?" ++ formText sent (sig (.ofBytes u))) := by
  have hs : b.Signs name true true (f b.client.secret (b.token.map (·.secret))) := by
    rw [Builder.Signs, hb]; exact C92_required hname f _ _
  exact signs_output hs hr hstd hcs method w w' out

/-- A concrete case: all three are returned for a method of one's own with the shared request. -/
example : let b := Case.builder (own b!"MINE" fun _ _ m => m.take 4)
    (∀ x ∈ b!"MINE", unreserved x = true) ∧ IsTrace Case.request Case.calls ∧ Standard Case.calls ∧
    (b.authorize Case.cfg b!"GET" (.ofBytes Case.uri) Case.request Case.world).toOption.isSome = true ∧
    (b.toForm Case.cfg b!"GET" (.ofBytes Case.uri) Case.request Case.world).toOption.isSome = true ∧
    (b.toQuery Case.cfg stringWriter .ofBytes b!"GET" Case.uri Case.request
      Case.world).toOption.isSome = true :=
  ⟨by decide, Case.trace, Case.standard, by decide +kernel, by decide +kernel, by decide +kernel⟩

/-! ### The name of an algorithm of one's own -/

theorem itemIn_raw (cfg : Cfg) (e : Env) (w : World) (c : Call) :
    (itemIn cfg e w c).map (fun i => i.feed.render e.name) =
      (c.fed? e w.nonce (w.time cfg)).map signedItem ∧
    (itemIn cfg e w c).bind (fun i => i.sent.map fun t => (i.key, t)) =
      c.written? e w.nonce (w.time cfg) := by
  by_cases hc : c = .oauth .signatureMethod
  · subst hc
    exact ⟨rfl, rfl⟩
  · let e' : Env := { e with name := [] }
    have hv : ∀ p, p ≠ .signatureMethod → e'.value w.nonce (w.time cfg) p = e.value w.nonce (w.time cfg) p := by
      intro p hp
      cases p <;> first | rfl | exact absurd rfl hp
    have h := itemIn_spec cfg e' (by simp [e']) w c
    have hi : itemIn cfg e' w c = itemIn cfg e w c := by
      cases c with
      | parameter k v => rfl
      | parameterEncoded k v => rfl
      | oauth p => cases p <;> first | rfl | exact absurd rfl hc
    have hf : c.fed? e w.nonce (w.time cfg) = c.signed? e' w.nonce (w.time cfg) := by
      cases c with
      | parameter k v => rfl
      | parameterEncoded k v => rfl
      | oauth p => cases p <;> first | rfl | exact absurd rfl hc
    have hw : c.written? e w.nonce (w.time cfg) = c.sent? e' w.nonce (w.time cfg) := by
      cases c with
      | parameter k v => rfl
      | parameterEncoded k v => rfl
      | oauth p => cases p <;> first | rfl | exact absurd rfl hc
    have hr : ∀ i, itemIn cfg e w c = some i → i.feed.render e.name = i.feed.render e'.name := by
      intro i hi
      cases c with
      | parameter k v => simp only [itemIn, Option.some.injEq] at hi; subst hi; rfl
      | parameterEncoded k v => simp only [itemIn, Option.some.injEq] at hi; subst hi; rfl
      | oauth p =>
        cases p with
        | signatureMethod => exact absurd rfl hc
        | callback =>
          simp only [itemIn, Option.map_eq_some_iff] at hi
          obtain ⟨_, -, rfl⟩ := hi; rfl
        | consumerKey => simp only [itemIn, Option.some.injEq] at hi; subst hi; rfl
        | nonce =>
          simp only [itemIn] at hi
          split at hi
          · split at hi <;> (cases hi; rfl)
          · cases hi
        | timestamp =>
          simp only [itemIn] at hi
          split at hi
          · cases hi; rfl
          · cases hi
        | token =>
          simp only [itemIn, Option.map_eq_some_iff] at hi
          obtain ⟨_, -, rfl⟩ := hi; rfl
        | verifier =>
          simp only [itemIn, Option.map_eq_some_iff] at hi
          obtain ⟨_, -, rfl⟩ := hi; rfl
        | version =>
          simp only [itemIn] at hi
          split at hi
          · cases hi; rfl
          · cases hi
    rw [hi] at h
    rw [hf, hw]
    refine ⟨?_, h.2⟩
    have h1 := congrArg (Option.map Prod.snd) h.1
    simp only [Option.map_map, Function.comp_def] at h1
    have h2 : (c.signed? e' w.nonce (w.time cfg)).map signedItem =
        (c.signed? e' w.nonce (w.time cfg)).map (fun kv => signedItem kv) := rfl
    rw [h2, ← h1]
    cases hx : itemIn cfg e w c with
    | none => rfl
    | some i => simp [hr i hx]

theorem itemsFrom_fed (cfg : Cfg) (e : Env) (w : World) (cs : List Call) :
    (itemsFrom cfg e w cs).map (fun i => i.feed.render e.name) =
      ((annotate cfg e w cs).filterMap fun r => r.1.fed? e r.2.1 r.2.2).map signedItem := by
  induction cs generalizing w with
  | nil => rfl
  | cons c cs ih =>
    have h := (itemIn_raw cfg e w c).1
    simp only [itemsFrom, annotate, List.map_append, List.filterMap_cons, ih]
    cases hi : itemIn cfg e w c <;> cases hs : c.fed? e w.nonce (w.time cfg) <;> simp_all

theorem itemsFrom_written (cfg : Cfg) (e : Env) (w : World) (cs : List Call) :
    sentOf (itemsFrom cfg e w cs) =
      (annotate cfg e w cs).filterMap fun r => r.1.written? e r.2.1 r.2.2 := by
  induction cs generalizing w with
  | nil => rfl
  | cons c cs ih =>
    have h := (itemIn_raw cfg e w c).2
    simp only [sentOf] at ih
    simp only [sentOf, itemsFrom, annotate, List.filterMap_append, List.filterMap_cons, ih, ← h]
    cases hi : itemIn cfg e w c with
    | none => simp
    | some i => cases hs : i.sent <;> simp [hs]

/-- C93, what is written: whatever the name of a signature method of one's own, it is sent as it is, and
is as it is in the signature base string. -/
theorem C93_written (cfg : Cfg) {name : Bytes} (f : Bytes → Option Bytes → Bytes → Bytes)
    (b : Builder ((Bytes → Bytes) × Bytes)) (hb : b.signatureMethod = own name f) {r : Request}
    {cs : List Call} (hr : IsTrace r cs) (hcs : ∀ c ∈ cs, c.ok) (method : Bytes) {uri : Display}
    (huri : uri.outcome = .ok) {w w' : World} {out : Bytes}
    (h : b.authorize cfg method uri r w = .ok (out, w')) :
    let e := b.env name true true
    out = headerText ((annotate cfg e w cs).filterMap fun x => x.1.written? e x.2.1 x.2.2)
      (f b.client.secret (b.token.map (·.secret)) (baseString method uri.text
        ((annotate cfg e w cs).filterMap fun x => x.1.fed? e x.2.1 x.2.2))) := by
  intro e
  have hsg : ConstSign b.signatureMethod.sign name true true := by rw [hb]; exact own_const _ _
  have habs : Absorbs b.signatureMethod.sign name (fun s t => (s.1, s.2 ++ t)) := by
    rw [hb]; exact own_absorbs _ _
  rw [authorize_runWith, runWith_ok_iff hsg hr] at h
  obtain ⟨-, -, s0, s, d, h0, h1, h2, -, rfl⟩ := h
  rw [habs.run _ (allSignCalls_outcome huri hcs)] at h1
  have hfed : ((allSignCalls cfg e w method uri cs).map (SignCall.render name)).flatten =
      baseString method uri.text
        ((annotate cfg e w cs).filterMap fun x => x.1.fed? e x.2.1 x.2.2) := by
    have ho : ((openCalls method uri).map (SignCall.render name)).flatten =
        method ++ b!"&" ++ encode uri.text ++ b!"&" := by
      simp only [openCalls, List.map_cons, List.map_nil, List.flatten_cons, List.flatten_nil,
        SignCall.render, percentEncode_text, List.append_nil, List.append_assoc]
    have := itemsFrom_fed cfg e w cs
    rw [show e.name = name from rfl] at this
    rw [allSignCalls, List.map_append, List.flatten_append, signCalls_render, this, ho]
    rfl
  rw [hfed] at h1
  rw [hb] at h0 h2
  cases h0
  cases h1
  cases h2
  rw [sendAll_header, Data.finish, itemsFrom_written]
  simp [headerText, Display.text_ofBytes]
  rfl

/-- What is written and what RFC 5849 asks for, if the name is of unreserved characters. -/
theorem written_of_unreserved {e : Env} (hname : ∀ x ∈ e.name, unreserved x = true) (n : Bytes) (t : Nat)
    (c : Call) : c.written? e n t = c.sent? e n t ∧ c.fed? e n t = c.signed? e n t := by
  have h := encode_of_unreserved hname
  cases c with
  | parameter k v => exact ⟨rfl, rfl⟩
  | parameterEncoded k v => exact ⟨rfl, rfl⟩
  | oauth p =>
    cases p <;> first
      | exact ⟨rfl, rfl⟩
      | (simp only [Call.written?, Call.sent?, Call.fed?, Call.signed?, Env.value, Option.map_some, h]
         exact ⟨rfl, rfl⟩)

/-- The number of parameters written is right, and their length is less by what encoding the name adds. -/
theorem fed_length (e : Env) (xs : List (Call × Bytes × Nat)) :
    (xs.filterMap fun x => x.1.fed? e x.2.1 x.2.2).length =
      (xs.filterMap fun x => x.1.signed? e x.2.1 x.2.2).length ∧
    (((xs.filterMap fun x => x.1.fed? e x.2.1 x.2.2).map signedItem).map List.length).sum ≤
      (((xs.filterMap fun x => x.1.signed? e x.2.1 x.2.2).map signedItem).map List.length).sum ∧
    (.oauth .signatureMethod ∈ xs.map (·.1) →
      (((xs.filterMap fun x => x.1.fed? e x.2.1 x.2.2).map signedItem).map List.length).sum +
        ((encode (encode e.name)).length - e.name.length) ≤
      (((xs.filterMap fun x => x.1.signed? e x.2.1 x.2.2).map signedItem).map List.length).sum) := by
  have hl : e.name.length ≤ (encode (encode e.name)).length :=
    Nat.le_trans (encode_length_le _) (encode_length_le _)
  induction xs with
  | nil => simp
  | cons x xs ih =>
    obtain ⟨i1, i2, i3⟩ := ih
    obtain ⟨c, n, t⟩ := x
    by_cases hc : c = .oauth .signatureMethod
    · subst hc
      have e1 : Call.fed? e n t (.oauth .signatureMethod) = some (b!"oauth_signature_method", e.name) := rfl
      have e2 : Call.signed? e n t (.oauth .signatureMethod) =
          some (b!"oauth_signature_method", encode (encode e.name)) := rfl
      simp only [List.filterMap_cons, e1, e2, List.map_cons, List.sum_cons, List.length_cons, i1,
        signedItem, List.length_append, true_and]
      constructor
      · omega
      · intro _; omega
    · have e1 : c.fed? e n t = c.signed? e n t := by
        cases c with
        | parameter k v => rfl
        | parameterEncoded k v => rfl
        | oauth p => cases p <;> first | rfl | exact absurd rfl hc
      simp only [List.filterMap_cons, e1, List.map_cons, List.mem_cons, Ne.symm hc, false_or]
      cases c.signed? e n t with
      | none => exact ⟨i1, i2, i3⟩
      | some kv =>
        simp only [List.length_cons, List.map_cons, List.sum_cons, i1, true_and]
        exact ⟨by omega, fun h => by have := i3 h; omega⟩

/-- C93, exactly: the name of a signature method is sent percent-encoded, and is in the signature base
string percent-encoded twice, as RFC 5849 says of any value, if and only if it is made of unreserved
characters. -/
theorem C93_iff (cfg : Cfg) (e : Env) (w : World) {cs : List Call}
    (hcs : .oauth .signatureMethod ∈ cs) (method uri : Bytes) :
    (((annotate cfg e w cs).filterMap fun x => x.1.written? e x.2.1 x.2.2) = sentIn cfg e w cs ↔
      ∀ x ∈ e.name, unreserved x = true) ∧
    (baseString method uri ((annotate cfg e w cs).filterMap fun x => x.1.fed? e x.2.1 x.2.2) =
        baseString method uri (signedIn cfg e w cs) ↔
      ∀ x ∈ e.name, unreserved x = true) := by
  have hm : .oauth .signatureMethod ∈ (annotate cfg e w cs).map (·.1) := by
    rw [annotate_fst]; exact hcs
  refine ⟨⟨fun h => ?_, fun h => ?_⟩, ⟨fun h => ?_, fun h => ?_⟩⟩
  · obtain ⟨x, hx, hxc⟩ := List.mem_map.mp hm
    have : ∀ xs : List (Call × Bytes × Nat), x ∈ xs →
        (xs.filterMap fun x => x.1.written? e x.2.1 x.2.2) =
          (xs.filterMap fun x => x.1.sent? e x.2.1 x.2.2) → encode e.name = e.name := by
      intro xs
      induction xs with
      | nil => intro h; cases h
      | cons y ys ih =>
        intro hx h
        obtain ⟨c, n, t⟩ := y
        by_cases hc : c = .oauth .signatureMethod
        · subst hc
          have e1 : Call.written? e n t (.oauth .signatureMethod) =
              some (b!"oauth_signature_method", e.name) := rfl
          have e2 : Call.sent? e n t (.oauth .signatureMethod) =
              some (b!"oauth_signature_method", encode e.name) := rfl
          simp only [List.filterMap_cons, e1, e2, List.cons.injEq, Prod.mk.injEq, true_and] at h
          exact h.1.symm
        · have e1 : c.written? e n t = c.sent? e n t := by
            cases c with
            | parameter k v => rfl
            | parameterEncoded k v => rfl
            | oauth p => cases p <;> first | rfl | exact absurd rfl hc
          have hx' : x ∈ ys := by
            rcases List.mem_cons.mp hx with rfl | hx
            · exact absurd hxc hc
            · exact hx
          simp only [List.filterMap_cons, e1] at h
          cases hs : c.sent? e n t with
          | none => rw [hs] at h; exact ih hx' h
          | some kv =>
            rw [hs] at h
            exact ih hx' (List.cons.inj h).2
    exact unreserved_of_encode_length (Nat.le_of_eq (congrArg List.length (this _ hx h)))
  · unfold sentIn
    congr 1
    funext x
    exact (written_of_unreserved h _ _ _).1
  · simp only [baseString, List.append_cancel_left_eq] at h
    have hlen := congrArg List.length h
    obtain ⟨i1, -, i3⟩ := fed_length e (annotate cfg e w cs)
    have i3 := i3 hm
    unfold signedIn at hlen
    rw [length_join, length_join, List.length_map, List.length_map, i1] at hlen
    have l1 := encode_length_le e.name
    have l2 := encode_length_le (encode e.name)
    exact unreserved_of_encode_length (by omega)
  · unfold signedIn
    congr 2
    funext x
    exact (written_of_unreserved h _ _ _).2

/-- A concrete case of each side: the hypothesis holds of every request of the crate. -/
example : .oauth .signatureMethod ∈ Case.calls ∧ (∀ x ∈ b!"HMAC-SHA256", unreserved x = true) ∧
    ¬ ∀ x ∈ b!"urn:x", unreserved x = true := ⟨by decide, by decide, by decide⟩

/-- C93 as claimed: for every signature method of one's own, the header has its name percent-encoded, and
the signature is the one of the base string that has it percent-encoded twice. -/
def C93_claim : Prop :=
  ∀ (cfg : Cfg) (name : Bytes) (f : Bytes → Option Bytes → Bytes → Bytes)
    (b : Builder ((Bytes → Bytes) × Bytes)) (r : Request) (cs : List Call) (method : Bytes)
    (uri : Display) (w w' : World) (out : Bytes), b.signatureMethod = own name f →
    IsTrace r cs → Standard cs → (∀ c ∈ cs, c.ok) → uri.outcome = .ok →
    b.authorize cfg method uri r w = .ok (out, w') →
    out = headerText ((b.params cfg name w).map fun p => (p.1, encode p.2))
      (f b.client.secret (b.token.map (·.secret)) (b.base cfg name method uri cs w))

/-- C93, where it holds: names of unreserved characters, such as those of RFC 5849. -/
theorem C93_partial (cfg : Cfg) {name : Bytes} (hname : ∀ x ∈ name, unreserved x = true)
    (f : Bytes → Option Bytes → Bytes → Bytes) (b : Builder ((Bytes → Bytes) × Bytes))
    (hb : b.signatureMethod = own name f) {r : Request} {cs : List Call} (hr : IsTrace r cs)
    (hstd : Standard cs) (hcs : ∀ c ∈ cs, c.ok) (method : Bytes) {uri : Display}
    (huri : uri.outcome = .ok) {w w' : World} {out : Bytes}
    (h : b.authorize cfg method uri r w = .ok (out, w')) :
    out = headerText ((b.params cfg name w).map fun p => (p.1, encode p.2))
      (f b.client.secret (b.token.map (·.secret)) (b.base cfg name method uri cs w)) :=
  (C92_own cfg hname f b hb hr hstd hcs method w w' out).1 uri huri h

/-- A method named by a URN, as a server may define it (RFC 5849 section 3.4), whose signature shows the
end of the base string. -/
def urnMethod : SignatureMethod ((Bytes → Bytes) × Bytes) :=
  own b!"urn:x" fun _ _ m => m.drop 17

/-- What is returned with this method: the name is not encoded. -/
theorem C93_urn :
    ((Builder.new (.new b!"key" b!"secret") urnMethod |>.setNonce (some b!"n")
        |>.setTimestamp (some ⟨1, by decide, by decide⟩)).authorize Case.cfg b!"GET" (.ofBytes b!"http://a")
        Request.unit Case.world).toOption.map (·.1) =
      some b!"OAuth oauth_consumer_key=\"key\",oauth_nonce=\"n\",oauth_signature_method=\"urn:x\",oauth_timestamp=\"1\",oauth_signature=\"a&oauth_consumer_key%3Dkey%26oauth_nonce%3Dn%26oauth_signature_method%3Durn:x%26oauth_timestamp%3D1\"" := by
  decide +kernel

/-- `C93_written` for it. -/
example {w' : World} {out : Bytes} (h : (Builder.new (.new b!"key" b!"secret") urnMethod).authorize Case.cfg
    b!"GET" (.ofBytes Case.uri) Case.request Case.world = .ok (out, w')) :=
  C93_written Case.cfg _ _ rfl Case.trace (weave_ok Case.ok) b!"GET" rfl h

/-- C93 does not hold: a name with a colon is sent, and signed, as it is. -/
theorem C93_violated : ¬ C93_claim := by
  intro h
  obtain ⟨w', hw⟩ := Case.ok_of_eq C93_urn
  have := h Case.cfg b!"urn:x" _ _ Request.unit (allProto.map .oauth) b!"GET" (.ofBytes b!"http://a")
    Case.world w' _ rfl isTrace_unit (by unfold Standard; decide)
    (by intro c hc v hv; obtain ⟨p, -, rfl⟩ := List.mem_map.mp hc; cases hv) rfl hw
  revert this
  decide +kernel

/-- C93 does not hold of forms either: a server reads another parameter, with a part of the name. -/
theorem C93_form_violated :
    ((Builder.new (.new b!"key" b!"secret") (own b!"a&z=1" fun _ _ _ => b!"s") |>.setNonce (some b!"n")
        |>.setTimestamp (some ⟨1, by decide, by decide⟩)).toForm Case.cfg b!"POST" (.ofBytes b!"http://a")
        Request.unit Case.world).toOption.bind (fun x => parseForm x.1) =
      some [(b!"oauth_consumer_key", b!"key"), (b!"oauth_nonce", b!"n"),
        (b!"oauth_signature_method", b!"a"), (b!"z", b!"1"), (b!"oauth_timestamp", b!"1"),
        (b!"oauth_signature", b!"s")] := by
  decide +kernel

end OAuth
