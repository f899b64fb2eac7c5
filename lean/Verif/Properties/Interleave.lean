import Verif.Proofs.ParameterList
import Verif.Proofs.Trace
import Verif.Proofs.TextOnly
import Verif.Properties.Form

/-
C17, C18, C41, C37: what requests do to a serializer.
-/

namespace OAuth

open Spec

/-- A serializer that just collects the calls made on it. -/
def collector : Serializer (List Call) (List Call) where
  parameter s k v := pure (s ++ [.parameter k v])
  parameterEncoded s k v := pure (s ++ [.parameterEncoded k v])
  callback s := pure (s ++ [.oauth .callback])
  consumerKey s := pure (s ++ [.oauth .consumerKey])
  nonce s := pure (s ++ [.oauth .nonce])
  signatureMethod s := pure (s ++ [.oauth .signatureMethod])
  timestamp s := pure (s ++ [.oauth .timestamp])
  token s := pure (s ++ [.oauth .token])
  verifier s := pure (s ++ [.oauth .verifier])
  version s := pure (s ++ [.oauth .version])
  «end» s := pure s

theorem run_collector (cs s : List Call) : runCalls collector cs s = pure (s ++ cs) := by
  induction cs generalizing s with
  | nil => simp [runCalls]
  | cons c cs ih =>
    have : Call.run collector c s = pure (s ++ [c]) := by
      cases c with
      | oauth p => cases p <;> rfl
      | _ => rfl
    simp [runCalls, this, ih]

/-- A request makes at most one sequence of calls: `IsTrace` determines it. -/
theorem isTrace_unique {r : Request} {cs cs' : List Call} (h : IsTrace r cs) (h' : IsTrace r cs') :
    cs = cs' := by
  have e := (h _ _ collector []).symm.trans (h' _ _ collector [])
  simp only [run_collector, pure_bind, List.nil_append] at e
  have := congrFun e World.example
  simpa [collector, pure, StateT.pure, Except.pure] using this

/-- C17: on every serializer, a list of pairs (in any order, any keys) makes each of the eight
protocol calls exactly once and in order, and one `serialize_parameter` per pair, in order; nothing
else. -/
theorem C17_protocol_once_in_order (cfg : Cfg) (pairs : List Pair) :
    ∃ cs, IsTrace (AssertSorted.request cfg pairs) cs ∧
      cs.filterMap Call.proto? = [.callback, .consumerKey, .nonce, .signatureMethod, .timestamp,
        .token, .verifier, .version] ∧
      cs.filterMap Call.pair? = pairs ∧
      cs.length = 8 + pairs.length ∧
      ∀ k v, Call.parameterEncoded k v ∉ cs := by
  refine ⟨weave allProto pairs, isTrace_assertSorted cfg pairs, weave_protos _ _, weave_pairs _ _,
    ?_, ?_⟩
  · have : ∀ (ps : List Proto), (weave ps pairs).length = ps.length + pairs.length := by
      induction pairs with
      | nil => intro ps; simp [weave]
      | cons kv rest ih =>
        intro ps
        obtain ⟨k, v⟩ := kv
        have := congrArg List.length
          (List.takeWhile_append_dropWhile (p := fun p : Proto => cmpBytes p.name k == .lt) (l := ps))
        simp only [List.length_append] at this
        simp [weave, ih]
        omega
    simpa [allProto] using this allProto
  · intro k v hm
    rcases weave_no_encoded _ _ _ hm with ⟨p, h⟩ | ⟨kv, _, h⟩ <;> cases h

example := C17_protocol_once_in_order Case.cfg Case.pairs

/-- C17 for `()` and `None`. -/
theorem C17_empty : IsTrace Request.unit (allProto.map .oauth) ∧
    IsTrace (Request.option none) (allProto.map .oauth) := ⟨isTrace_unit, isTrace_none⟩

/-- Unsorted keys, some equal to or between protocol parameter names. -/
example : weave allProto [(b!"zzz", .ofBytes []), (b!"oauth_nonce", .ofBytes []),
    (b!"abc", .ofBytes [])] =
    [.oauth .callback, .oauth .consumerKey, .oauth .nonce, .oauth .signatureMethod,
     .oauth .timestamp, .oauth .token, .oauth .verifier, .oauth .version,
     .parameter b!"zzz" (.ofBytes []), .parameter b!"oauth_nonce" (.ofBytes []),
     .parameter b!"abc" (.ofBytes [])] := by decide +kernel

/-- C18: ascending pairs give an ascending sequence of all keys. -/
theorem C18_sorted_interleaving (cfg : Cfg) (pairs : List Pair)
    (h : (pairs.map (·.1)).Pairwise (fun a b => bytesLe a b = true)) :
    ∃ cs, IsTrace (AssertSorted.request cfg pairs) cs ∧
      (cs.map Call.key).Pairwise (fun a b => bytesLe a b = true) ∧
      (cs.map Call.key).Perm (allProto.map Proto.name ++ pairs.map (·.1)) := by
  refine ⟨weave allProto pairs, isTrace_assertSorted cfg pairs,
    (weave_sorted _ _ allProto_sorted h).1, ?_⟩
  clear h
  generalize allProto = ps
  induction pairs generalizing ps with
  | nil => simp [weave, Call.key, Function.comp_def]
  | cons kv rest ih =>
    obtain ⟨k, v⟩ := kv
    simp only [weave, List.map_append, List.map_cons, List.map_map]
    rw [show (Call.key ∘ Call.oauth) = Proto.name from rfl]
    have h1 := ih (ps.dropWhile (fun p => cmpBytes p.name k == .lt))
    have h2 : (ps.takeWhile (fun p => cmpBytes p.name k == .lt)).map Proto.name ++
        (ps.dropWhile (fun p => cmpBytes p.name k == .lt)).map Proto.name = ps.map Proto.name := by
      rw [← List.map_append, List.takeWhile_append_dropWhile]
    rw [← h2, List.append_assoc]
    refine List.Perm.append_left _ ?_
    refine ((h1.cons _).trans ?_)
    exact List.perm_middle.symm

/-- Keys before, equal to, between and after protocol parameters. -/
example : let pairs : List Pair := [(b!"abc", .ofBytes []), (b!"oauth_callback", .ofBytes []),
      (b!"oauth_d", .ofBytes []), (b!"zzz", .ofBytes [])]
    (pairs.map (·.1)).Pairwise (fun a b => bytesLe a b = true) ∧
    (weave allProto pairs).map Call.key =
      [b!"abc", b!"oauth_callback", b!"oauth_callback", b!"oauth_consumer_key", b!"oauth_d",
       b!"oauth_nonce", b!"oauth_signature_method", b!"oauth_timestamp", b!"oauth_token",
       b!"oauth_verifier", b!"oauth_version", b!"zzz"] := by decide +kernel

/-- C41: forwarding implementations behave as the request they wrap on every serializer; `()` and
`None` behave as an empty list; a `ParameterList` as the `AssertSorted` of its pairs. -/
theorem C41_forwarding (cfg : Cfg) (r : Request) (pairs : List Pair) {σ ω : Type}
    (S : Serializer σ ω) (s : σ) :
    (Request.ref r).serialize S s = r.serialize S s ∧
    (Request.refMut r).serialize S s = r.serialize S s ∧
    (Request.option (some r)).serialize S s = r.serialize S s ∧
    Request.unit.serialize S s = (AssertSorted.request cfg []).serialize S s ∧
    (Request.option none).serialize S s = (AssertSorted.request cfg []).serialize S s ∧
    (ParameterList.request cfg pairs).serialize S s = (AssertSorted.request cfg pairs).serialize S s := by
  refine ⟨rfl, rfl, rfl, ?_, ?_, ?_⟩
  · rw [isTrace_unit, isTrace_assertSorted]; rfl
  · rw [isTrace_none, isTrace_assertSorted]; rfl
  · rw [isTrace_parameterList, isTrace_assertSorted]

/-- C41: nesting wrappers around a request with parameters. -/
example : ((Free.toForm (Request.ref (Request.option (some (Request.refMut
    (ParameterList.request ⟨true, true, .std⟩ examplePairs)))))).run World.example).toOption.map (·.1)
    = some b!"article_id=123456789&text=Hello%2C%20w%C3%B6rld%21&x=" := by decide +kernel

/-! ### C37: the recorder -/

/-- The record that stands for a call. -/
def recordOf : Call → Record Bytes
  | .parameter k v => .parameter k v.text
  | .parameterEncoded k v => .parameterEncoded k v.text
  | .oauth .callback => .callback
  | .oauth .consumerKey => .consumerKey
  | .oauth .nonce => .nonce
  | .oauth .signatureMethod => .signatureMethod
  | .oauth .timestamp => .timestamp
  | .oauth .token => .token
  | .oauth .verifier => .verifier
  | .oauth .version => .version

/-- The call a record stands for. -/
def callOf : Record Bytes → Call
  | .parameter k v => .parameter k (.ofBytes v)
  | .parameterEncoded k v => .parameterEncoded k (.ofBytes v)
  | .callback => .oauth .callback
  | .consumerKey => .oauth .consumerKey
  | .nonce => .oauth .nonce
  | .signatureMethod => .oauth .signatureMethod
  | .timestamp => .oauth .timestamp
  | .token => .oauth .token
  | .verifier => .oauth .verifier
  | .version => .oauth .version

theorem run_recorder (cs : List Call) (h : Recorder.State) :
    runCalls Recorder.serializer cs h =
      match firstFailure cs with
      | some p => panicM p
      | none => pure (h ++ cs.map recordOf) := by
  induction cs generalizing h with
  | nil => simp [runCalls, firstFailure]
  | cons c cs ih =>
    have key : ∀ (v : Display) (f : Bytes → Record Bytes),
        ((do let t ← (liftM v.toStringM : M Bytes); pure (h ++ [f t])) >>= fun s =>
          runCalls Recorder.serializer cs s) =
        match (match v.outcome with
          | .ok => firstFailure cs | .err => some .fmtUnwrap | .panic p => some p) with
        | some p => panicM p
        | none => pure (h ++ f v.text :: cs.map recordOf) := by
      intro v f
      unfold Display.toStringM
      cases v.outcome with
      | ok => simp only [liftOk, pure_bind, ih]; simp
      | err => rfl
      | panic p => rfl
    cases c with
    | parameter k v =>
      refine (key v (.parameter k)).trans ?_
      simp only [firstFailure, List.findSome?_cons, Call.failure?, Call.value?]
      cases v.outcome <;> rfl
    | parameterEncoded k v =>
      refine (key v (.parameterEncoded k)).trans ?_
      simp only [firstFailure, List.findSome?_cons, Call.failure?, Call.value?]
      cases v.outcome <;> rfl
    | oauth p =>
      have : Call.run Recorder.serializer (.oauth p) h = pure (h ++ [recordOf (.oauth p)]) := by
        cases p <;> rfl
      simp only [runCalls, this, pure_bind, ih]
      simp only [List.append_assoc, List.singleton_append, List.map_cons]
      rfl

/-- C37: the history of a recorder is the sequence of calls made on it, one record per call. -/
theorem C37_history {r : Request} {cs : List Call} (h : IsTrace r cs)
    (hok : ∀ c ∈ cs, Call.ok c) (w : World) :
    (r.serialize Recorder.serializer Recorder.new).run w = .ok (cs.map recordOf, w) := by
  rw [h, run_recorder, firstFailure_none hok]
  simp only [pure_bind, Recorder.new, List.nil_append]
  rfl

/-- The shared case, recorded. -/
example : (Case.request.serialize Recorder.serializer Recorder.new).run Case.world =
    .ok (Case.calls.map recordOf, Case.world) := C37_history Case.trace (weave_ok Case.ok) Case.world

/-- C37: replaying the records on any serializer that looks at texts only has the same effect as the
original calls. -/
theorem C37_replay {r : Request} {cs : List Call} (h : IsTrace r cs) (hok : ∀ c ∈ cs, Call.ok c)
    (w : World) (records : List (Record Bytes)) (w' : World)
    (hrec : (r.serialize Recorder.serializer Recorder.new).run w = .ok (records, w'))
    {σ ω : Type} (S : Serializer σ ω) (hS : TextOnly S) (s : σ) :
    (requestOf (records.map callOf)).serialize S s = r.serialize S s := by
  rw [C37_history h hok] at hrec
  simp only [Except.ok.injEq, Prod.mk.injEq] at hrec
  obtain ⟨rfl, -⟩ := hrec
  rw [h]
  have : SameCalls ((cs.map recordOf).map callOf) cs := by
    clear h
    induction cs with
    | nil => exact .nil
    | cons c cs ih =>
      refine .cons ?_ (ih (fun c hc => hok c (by simp [hc])))
      have hc := hok c (by simp)
      cases c with
      | parameter k v => exact .parameter ⟨by simp, by simp [hc v rfl]⟩
      | parameterEncoded k v => exact .parameterEncoded ⟨by simp, by simp [hc v rfl]⟩
      | oauth p => cases p <;> exact .oauth
  simp only [requestOf, runCalls_same hS this]

/-- The shared case, recorded and replayed into a form. -/
example : ((requestOf ((Case.calls.map recordOf).map callOf)).serialize (Urlencoder.serializer stringWriter)
      Urlencoder.form Case.world).toOption.map (·.1) = some b!"a=1%20%C3%A9&p=%26%3D%2B&p=~%25" := by
  rw [C37_replay Case.trace (weave_ok Case.ok) Case.world _ _
    (C37_history Case.trace (weave_ok Case.ok) Case.world) _ textOnly_urlencoder]
  decide +kernel

/-- C37: the crate's own serializers over strings look at texts only, for every signing algorithm
that does (all four of the crate). -/
theorem C37_replay_serializers (cfg : Cfg) {S : Type} (sg : Sign S) (h : SignTextOnly sg) :
    TextOnly (Urlencoder.serializer stringWriter) ∧ TextOnly Recorder.serializer ∧
    (∀ {W : Type} (wr : Writer W), TextOnly (Authorizer.serializer cfg wr sg)) ∧
    SignTextOnly (hmacSign Sha1.hash) ∧ SignTextOnly (plaintextSign Display.ofBytes) ∧
    (∀ {K : Type} (ops : RsaOps K), SignTextOnly (rsaSignRef Sha1.hash ops) ∧
      SignTextOnly (rsaSignOwned Sha1.hash ops)) :=
  ⟨textOnly_urlencoder, textOnly_recorder, fun wr => textOnly_authorizer cfg wr h,
    textOnly_hmac _, textOnly_plaintext _, fun ops => ⟨textOnly_rsaRef _ ops, textOnly_rsaOwned _ ops⟩⟩

example : TextOnly (Authorizer.serializer Case.cfg stringWriter hmacSha1.sign) :=
  (C37_replay_serializers Case.cfg hmacSha1.sign (textOnly_hmac _)).2.2.1 stringWriter

/-- A record with its value replaced by the text. -/
def Record.shown : Record Display → Record Bytes
  | .parameter k v => .parameter k v.text
  | .parameterEncoded k v => .parameterEncoded k v.text
  | .callback => .callback
  | .consumerKey => .consumerKey
  | .nonce => .nonce
  | .signatureMethod => .signatureMethod
  | .timestamp => .timestamp
  | .token => .token
  | .verifier => .verifier
  | .version => .version

/-- C37: record equality is equality of kind, key and displayed value. -/
theorem C37_record_eq (a b : Record Display) : a.eq b = true ↔ a.shown = b.shown := by
  cases a <;> cases b <;> simp [Record.eq, Record.shown, fmtCmp, cmpBytes_eq_iff]

example : Record.eq (.parameter b!"k" ⟨[b!"12", b!"3"], .ok⟩) (.parameter b!"k" (.ofBytes b!"123"))
    = true := by decide
example : Record.eq (.parameter b!"k" (.ofBytes b!"1")) (.parameterEncoded b!"k" (.ofBytes b!"1"))
    = false := by decide

/-- C37: `OAUTH_PARAMETERS` is the history of `()`. -/
theorem C37_oauth_parameters (w : World) :
    (Request.unit.serialize Recorder.serializer Recorder.new).run w =
      .ok (Recorder.oauthParameters, w) :=
  C37_history isTrace_unit (by
    intro c hc v hv
    obtain ⟨p, _, rfl⟩ := List.mem_map.mp hc
    simp [Call.value?] at hv) w

example : ((AssertSorted.request ⟨true, true, .std⟩ [(b!"foo", .ofBytes b!"1"),
    (b!"qux", .ofBytes b!"2")]).serialize Recorder.serializer Recorder.new |>.run
      World.example).toOption.map (·.1) =
    some (.parameter b!"foo" b!"1" :: Recorder.oauthParameters ++ [.parameter b!"qux" b!"2"]) := by
  decide +kernel

/-- C18: "sorted" above and in other theorems means in the lexicographic order of bytes, which is the order
of `List UInt8`. -/
theorem C18_order (a b : Bytes) : bytesLe a b = true ↔ a ≤ b := bytesLe_iff_le a b

example : bytesLe b!"oauth" b!"oauth_a" = true ∧ bytesLe b!"z" b!"oauth" = false := by decide

end OAuth
