import Verif.Properties.TwoRuns
import Verif.Properties.Writers

/-
C34, C35: setters, and agreement of the entry points.
-/

namespace OAuth

open Spec

variable {S : Type}

/-! ### C34: histories of setter and authorize calls -/

/-- What a user can do with a builder they keep. -/
inductive BuilderOp
  | token (v : Option (Credentials Bytes))
  | callback (v : Option Bytes)
  | verifier (v : Option Bytes)
  | nonce (v : Option Bytes)
  | timestamp (v : Option NonZeroU64)
  | version (v : Bool)
  /-- Any of the methods taking `&self`. -/
  | authorize (method : Bytes) (uri : Display) (request : Request)

/-- The builder after one operation. Methods taking `&self` leave it alone. -/
def BuilderOp.apply (b : Builder S) : BuilderOp → Builder S
  | .token v => b.setToken v
  | .callback v => b.setCallback v
  | .verifier v => b.setVerifier v
  | .nonce v => b.setNonce v
  | .timestamp v => b.setTimestamp v
  | .version v => b.setVersion v
  | .authorize .. => b

/-- The argument of the last call of a setter in a history, if there is one. -/
def lastSet {α : Type} (is : BuilderOp → Option α) (history : List BuilderOp) : Option α :=
  (history.filterMap is).getLast?

theorem lastSet_nil {α : Type} (is : BuilderOp → Option α) : lastSet is [] = none := rfl

theorem lastSet_snoc {α : Type} (is : BuilderOp → Option α) (h : List BuilderOp) (o : BuilderOp) :
    lastSet is (h ++ [o]) = (is o).or (lastSet is h) := by
  unfold lastSet
  rw [List.filterMap_append]
  cases hi : is o with
  | none => simp [hi]
  | some v => simp [hi]

/-- The settings in effect after a history. -/
def settings (h : List BuilderOp) : Option (Credentials Bytes) × Options :=
  (((lastSet (fun | .token v => some v | _ => none) h).getD none),
   { callback := (lastSet (fun | .callback v => some v | _ => none) h).getD none
     verifier := (lastSet (fun | .verifier v => some v | _ => none) h).getD none
     nonce := (lastSet (fun | .nonce v => some v | _ => none) h).getD none
     timestamp := (lastSet (fun | .timestamp v => some v | _ => none) h).getD none
     version := (lastSet (fun | .version v => some v | _ => none) h).getD false })

/-- C34: after any history of setter and authorize calls, the builder holds the argument of the last call
of each setter, and nothing where a setter was not called or was last called with `None`. -/
theorem C34_last_call_wins (client : Credentials Bytes) (sm : SignatureMethod S)
    (history : List BuilderOp) :
    history.foldl BuilderOp.apply (Builder.new client sm) =
      { signatureMethod := sm, client := client, token := (settings history).1,
        options := (settings history).2 } := by
  have gen : ∀ rev : List BuilderOp, rev.reverse.foldl BuilderOp.apply (Builder.new client sm) =
      { signatureMethod := sm, client := client, token := (settings rev.reverse).1,
        options := (settings rev.reverse).2 } := by
    intro rev
    induction rev with
    | nil => rfl
    | cons o rev ih =>
      rw [List.reverse_cons, List.foldl_append, ih]
      cases o <;>
        simp [settings, lastSet_snoc, BuilderOp.apply, Builder.setToken, Builder.setCallback,
          Builder.setVerifier, Builder.setNonce, Builder.setTimestamp, Builder.setVersion,
          Options.setCallback, Options.setVerifier, Options.setNonce, Options.setTimestamp,
          Options.setVersion]
  have := gen history.reverse
  rwa [List.reverse_reverse] at this

example : ([.nonce (some b!"a"), .callback (some b!"oob"), .token (some (.new b!"t" b!"s")),
      .authorize b!"GET" (.ofBytes Case.uri) Case.request, .callback none, .nonce (some b!"b")].foldl
        BuilderOp.apply (Builder.new (.new b!"c" b!"d") hmacSha1)) =
    ⟨hmacSha1, .new b!"c" b!"d", some (.new b!"t" b!"s"), { nonce := some b!"b" }⟩ :=
  C34_last_call_wins _ _ _

/-- C34: two histories with the same last calls make builders with the same output, text or panic, when
nonce and timestamp are pinned, whatever the random source and the clock, in particular whatever the
authorizations in between consumed. -/
theorem C34_outputs (cfg : Cfg) (client : Credentials Bytes) (sm : SignatureMethod S)
    (h1 h2 : List BuilderOp) (hs : settings h1 = settings h2)
    (hn : (settings h1).2.nonce ≠ none) (ht : (settings h1).2.timestamp ≠ none)
    {r : Request} {cs : List Call} (hr : IsTrace r cs) (hnd : (cs.filterMap Call.proto?).Nodup)
    (method : Bytes) (uri : Display) (w1 w2 : World) :
    let b1 := h1.foldl BuilderOp.apply (Builder.new client sm)
    let b2 := h2.foldl BuilderOp.apply (Builder.new client sm)
    result (b1.authorize cfg method uri r w1) = result (b2.authorize cfg method uri r w2) ∧
    result (b1.toForm cfg method uri r w1) = result (b2.toForm cfg method uri r w2) := by
  intro b1 b2
  have e : b1 = b2 := by
    simp only [b1, b2, C34_last_call_wins, hs]
  have hb1 := C34_last_call_wins client sm h1
  obtain ⟨p1, p2, -⟩ := C42_pinned cfg stringWriter .ofBytes b1
    (by simp only [b1, hb1]; exact hn) (by simp only [b1, hb1]; exact ht) hr hnd method w1 w2
  rw [← e]
  exact ⟨(p1 uri).1, (p2 uri).1⟩

/-- Two histories that end with the same settings. -/
example :
    let ts : NonZeroU64 := ⟨1234567890, by decide, by decide⟩
    let h1 : List BuilderOp := [.nonce (some b!"n"), .timestamp (some ts)]
    let h2 : List BuilderOp := [.timestamp (some ts), .version true, .nonce (some b!"m"),
      .authorize b!"GET" (.ofBytes Case.uri) Case.request, .nonce (some b!"n"), .version false]
    settings h1 = settings h2 ∧ (settings h1).2.nonce ≠ none ∧ (settings h1).2.timestamp ≠ none ∧
      IsTrace Case.request Case.calls ∧ (Case.calls.filterMap Call.proto?).Nodup :=
  ⟨by decide, by decide, by decide, Case.trace, by decide⟩

/-- Whether an operation is about another setting than another one. -/
def BuilderOp.kind : BuilderOp → Nat
  | .token _ => 0
  | .callback _ => 1
  | .verifier _ => 2
  | .nonce _ => 3
  | .timestamp _ => 4
  | .version _ => 5
  | .authorize .. => 6

/-- C34: setters of different options commute on every builder; authorizing commutes with everything. -/
theorem C34_commute (b : Builder S) (x y : BuilderOp) (h : x.kind ≠ y.kind) :
    y.apply (x.apply b) = x.apply (y.apply b) := by
  cases x <;> cases y <;> first | rfl | exact absurd rfl h

example (b : Builder S) :
    (b.setCallback (some b!"oob")).setNonce none = (b.setNonce none).setCallback (some b!"oob") :=
  C34_commute b (.callback (some b!"oob")) (.nonce none) (by decide)

/-- A concrete history. -/
example : settings [.nonce (some b!"a"), .callback (some b!"oob"),
      .authorize b!"GET" (.ofBytes b!"http://a/") Request.unit, .callback none,
      .timestamp (some ⟨1, by decide, by decide⟩), .nonce (some b!"b")] =
    (none, { nonce := some b!"b", timestamp := some ⟨1, by decide, by decide⟩ }) := by decide

/-! ### C35: entry points -/

section
variable {W : Type}

/-- C35: the nine method shorthands of a builder are `authorize` with that method. -/
theorem C35_shorthands (cfg : Cfg) (b : Builder S) (uri : Display) (r : Request) :
    b.get cfg uri r = b.authorize cfg b!"GET" uri r ∧
    b.put cfg uri r = b.authorize cfg b!"PUT" uri r ∧
    b.post cfg uri r = b.authorize cfg b!"POST" uri r ∧
    b.delete cfg uri r = b.authorize cfg b!"DELETE" uri r ∧
    b.optionsMethod cfg uri r = b.authorize cfg b!"OPTIONS" uri r ∧
    b.head cfg uri r = b.authorize cfg b!"HEAD" uri r ∧
    b.connect cfg uri r = b.authorize cfg b!"CONNECT" uri r ∧
    b.patch cfg uri r = b.authorize cfg b!"PATCH" uri r ∧
    b.trace cfg uri r = b.authorize cfg b!"TRACE" uri r := by
  exact ⟨rfl, rfl, rfl, rfl, rfl, rfl, rfl, rfl, rfl⟩

/-- C35: the four form shorthands. -/
theorem C35_form_shorthands (cfg : Cfg) (b : Builder S) (uri : Display) (r : Request) :
    b.putForm cfg uri r = b.toForm cfg b!"PUT" uri r ∧
    b.postForm cfg uri r = b.toForm cfg b!"POST" uri r ∧
    b.optionsForm cfg uri r = b.toForm cfg b!"OPTIONS" uri r ∧
    b.patchForm cfg uri r = b.toForm cfg b!"PATCH" uri r := by
  exact ⟨rfl, rfl, rfl, rfl⟩

/-- C35: the nine query shorthands. -/
theorem C35_query_shorthands (cfg : Cfg) (wr : Writer W) (d : W → Display) (b : Builder S) (uri : W)
    (r : Request) :
    b.getQuery cfg wr d uri r = b.toQuery cfg wr d b!"GET" uri r ∧
    b.putQuery cfg wr d uri r = b.toQuery cfg wr d b!"PUT" uri r ∧
    b.postQuery cfg wr d uri r = b.toQuery cfg wr d b!"POST" uri r ∧
    b.deleteQuery cfg wr d uri r = b.toQuery cfg wr d b!"DELETE" uri r ∧
    b.optionsQuery cfg wr d uri r = b.toQuery cfg wr d b!"OPTIONS" uri r ∧
    b.headQuery cfg wr d uri r = b.toQuery cfg wr d b!"HEAD" uri r ∧
    b.connectQuery cfg wr d uri r = b.toQuery cfg wr d b!"CONNECT" uri r ∧
    b.patchQuery cfg wr d uri r = b.toQuery cfg wr d b!"PATCH" uri r ∧
    b.traceQuery cfg wr d uri r = b.toQuery cfg wr d b!"TRACE" uri r := by
  exact ⟨rfl, rfl, rfl, rfl, rfl, rfl, rfl, rfl, rfl⟩

/-- C35: the consuming methods give what the borrowing ones give. -/
theorem C35_consuming (cfg : Cfg) (wr : Writer W) (d : W → Display) (b : Builder S) (method : Bytes)
    (uri : Display) (wuri buf : W) (r : Request) :
    b.intoAuthorization cfg method uri r = b.authorize cfg method uri r ∧
    b.intoForm cfg method uri r = b.toForm cfg method uri r ∧
    b.intoQuery cfg wr d method wuri r = b.toQuery cfg wr d method wuri r ∧
    b.intoAuthorizationWithBuf cfg wr buf method uri r = b.authorizeWithBuf cfg wr buf method uri r ∧
    b.intoFormWithBuf cfg wr buf method uri r = b.toFormWithBuf cfg wr buf method uri r := by
  exact ⟨rfl, rfl, rfl, rfl, rfl⟩

/-- C35: the free functions are a builder with both pairs of credentials and default options. -/
theorem C35_free {C T : Type} (cfg : Cfg) (ac : C → Bytes) (at' : T → Bytes) (uri : Display)
    (r : Request) (t : Token C T) (sm : SignatureMethod S) :
    let b : Builder S :=
      { signatureMethod := sm
        client := ⟨ac t.client.identifier, ac t.client.secret⟩
        token := some ⟨at' t.token.identifier, at' t.token.secret⟩
        options := { callback := none, verifier := none, nonce := none, timestamp := none,
                     version := false } }
    (∀ method, Free.authorize cfg ac at' method uri r t sm = b.authorize cfg method uri r) ∧
    Free.get cfg ac at' uri r t sm = b.authorize cfg b!"GET" uri r ∧
    Free.put cfg ac at' uri r t sm = b.authorize cfg b!"PUT" uri r ∧
    Free.post cfg ac at' uri r t sm = b.authorize cfg b!"POST" uri r ∧
    Free.delete cfg ac at' uri r t sm = b.authorize cfg b!"DELETE" uri r ∧
    Free.options cfg ac at' uri r t sm = b.authorize cfg b!"OPTIONS" uri r ∧
    Free.head cfg ac at' uri r t sm = b.authorize cfg b!"HEAD" uri r ∧
    Free.connect cfg ac at' uri r t sm = b.authorize cfg b!"CONNECT" uri r ∧
    Free.patch cfg ac at' uri r t sm = b.authorize cfg b!"PATCH" uri r ∧
    Free.trace cfg ac at' uri r t sm = b.authorize cfg b!"TRACE" uri r := by
  exact ⟨fun _ => rfl, rfl, rfl, rfl, rfl, rfl, rfl, rfl, rfl, rfl⟩

/-- C35: on a string buffer the buffer forms append what the others return. -/
theorem C35_with_buf (cfg : Cfg) (b : Builder S) {r : Request} {cs : List Call} (hr : IsTrace r cs)
    (method : Bytes) (uri : Display) (buf : Bytes) (w : World) :
    (∀ s w', b.authorize cfg method uri r w = .ok (s, w') →
      b.authorizeWithBuf cfg stringWriter buf method uri r w = .ok (buf ++ s, w')) ∧
    (∀ s w', b.toForm cfg method uri r w = .ok (s, w') →
      b.toFormWithBuf cfg stringWriter buf method uri r w = .ok (buf ++ s, w')) := by
  have key : ∀ {ref} {F : ∀ W, Writer W → W → Except Panic (W × World)}, WritesAllOrPanics ref F →
      ∀ s w', ref = .ok (s, w') → F Bytes stringWriter buf = .ok (buf ++ s, w') := by
    intro ref F h s w' he
    obtain ⟨writes, hw, hF⟩ := h.1 s w' he
    refine ((hF Bytes stringWriter buf).1 (buf ++ s) w').mpr ⟨?_, rfl⟩
    rw [writes_iff, stringWriter_writeAll, hw]
  exact ⟨key (C36_header cfg b hr method uri w).1, key (C36_form cfg b hr method uri w).1⟩

example : ∃ s w', (Case.builder hmacSha1).authorizeWithBuf Case.cfg stringWriter b!"Authorization: " b!"GET"
    (.ofBytes Case.uri) Case.request Case.world = .ok (b!"Authorization: " ++ s, w') := by
  obtain ⟨s, w', h⟩ := Case.header
  exact ⟨s, w', (C35_with_buf _ _ Case.trace _ _ _ _).1 s w' h⟩

/-- C35, relating the three kinds of output, for every signing algorithm with a fixed name and every
request: with the same builder, method, URI and environment the header, the form and the query carry the
same parameters and the same signature, and one of them is returned iff the others are. -/
theorem C35_outputs {cfg : Cfg} {b : Builder S} {name : Bytes} {un ut : Bool}
    (hsg : ConstSign b.signatureMethod.sign name un ut) {r : Request} {cs : List Call}
    (hr : IsTrace r cs) (method uri : Bytes) (w : World) :
    ∃ sent : Option (List (Bytes × Bytes) × Bytes × World),
      (b.authorize cfg method (.ofBytes uri) r w).toOption = sent.map (fun x =>
        (b!"OAuth " ++ (x.1.map fun kv => kv.1 ++ b!"=\"" ++ kv.2 ++ b!"\",").flatten ++
          b!"oauth_signature=\"" ++ x.2.1 ++ b!"\"", x.2.2)) ∧
      (b.toForm cfg method (.ofBytes uri) r w).toOption = sent.map (fun x =>
        (join b!"&" ((x.1 ++ [(b!"oauth_signature", x.2.1)]).map fun kv => kv.1 ++ b!"=" ++ kv.2),
          x.2.2)) ∧
      (b.toQuery cfg stringWriter .ofBytes method uri r w).toOption = sent.map (fun x =>
        (uri ++ b!"?" ++ join b!"&"
          ((x.1 ++ [(b!"oauth_signature", x.2.1)]).map fun kv => kv.1 ++ b!"=" ++ kv.2), x.2.2)) := by
  rw [authorize_runWith, toForm_runWith, toQuery_runWith]
  have iff := fun data => runWith_ok_iff (cfg := cfg) hsg hr data method (.ofBytes uri) w
  by_cases h : ∃ w' s0 s sig, Runs cfg (b.env name un ut) w (.ofBytes uri) cs ∧
      w' = cs.foldl (advance (b.env name un ut)) w ∧
      b.signatureMethod.signWith b.client.secret (b.token.map (·.secret)) = .ok s0 ∧
      runSign b.signatureMethod.sign
        (allSignCalls cfg (b.env name un ut) w method (.ofBytes uri) cs) s0 = .ok s ∧
      b.signatureMethod.sign.end s = .ok sig ∧ sig.outcome = .ok
  · obtain ⟨w', s0, s, sig, h1, h2, h3, h4, h5, h6⟩ := h
    have run := fun data => (iff data w' _).mpr ⟨h1, h2, s0, s, sig, h3, h4, h5, h6, rfl⟩
    refine ⟨some (sentOf (itemsFrom cfg (b.env name un ut) w cs), sig.text, w'), ?_, ?_, ?_⟩
    · rw [run, sendAll_header, Data.finish]; rfl
    · rw [run, (sendAll_finish_form _ _ _).1]; rfl
    · rw [run, (sendAll_finish_form _ _ _).2]; rfl
  · have none : ∀ data, (b.runWith cfg data method (.ofBytes uri) r w).toOption = none := by
      intro data
      cases hd : b.runWith cfg data method (.ofBytes uri) r w with
      | error p => rfl
      | ok x =>
        obtain ⟨h1, h2, s0, s, sig, h3, h4, h5, h6, -⟩ := (iff data x.2 x.1).mp hd
        exact absurd ⟨x.2, s0, s, sig, h1, h2, h3, h4, h5, h6⟩ h
    exact ⟨.none, none _, none _, none _⟩

/-- A concrete case: `ConstSign` holds of HMAC-SHA1 and each of the three is returned. -/
example :
    let b := Builder.withToken (.fromParts b!"a" b!"b" b!"c" b!"d") hmacSha1 |>.setNonce (some b!"n")
    ConstSign b.signatureMethod.sign b!"HMAC-SHA1" true true ∧ IsTrace Request.unit (allProto.map .oauth) ∧
    (b.toForm ⟨true, true, .std⟩ b!"GET" (.ofBytes b!"http://a/") Request.unit
      World.example).toOption.isSome = true :=
  ⟨constSign_hmac _, isTrace_unit, by decide +kernel⟩

/-- A concrete case. -/
example :
    let b := Builder.withToken (.fromParts b!"a" b!"b" b!"c" b!"d") plaintext |>.setNonce (some b!"n")
    ((b.authorizeWithBuf ⟨true, true, .std⟩ stringWriter b!"Authorization: " b!"GET"
      (.ofBytes b!"http://a/") Request.unit World.example).toOption.map (·.1)) =
    ((b.get ⟨true, true, .std⟩ (.ofBytes b!"http://a/") Request.unit World.example).toOption.map
      fun x => b!"Authorization: " ++ x.1) ∧
    ((b.get ⟨true, true, .std⟩ (.ofBytes b!"http://a/") Request.unit World.example).toOption.isSome
      = true) := by
  decide +kernel

end

end OAuth
