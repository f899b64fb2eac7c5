import Verif.Model.Auth
import Verif.Spec.Calls
import Verif.Spec.SignCalls
import Verif.Spec.Auth
import Verif.Proofs.PercentEncoding
import Verif.Proofs.Trace
import Verif.Proofs.Urlencode

/-
The authorizing serializer, refined to a list of emitted items.
-/

namespace OAuth

open Spec

/-- What one call emits: the key, the text sent (protocol parameters only), the call made on the
signing algorithm. -/
structure Item where
  key : Bytes
  sent : Option Bytes
  feed : SignCall

/-- A protocol parameter whose value is percent-encoded when sent. -/
def mkItem (cfg : Cfg) (p : Proto) (feed : Display → SignCall) (v : Bytes) : Item :=
  ⟨p.name, some (encode v), feed (doublePercentEncode cfg (.ofBytes v))⟩

/-- The nonce item: configured, or generated. -/
def emitNonce (cfg : Cfg) (e : Env) : M (Option Item) :=
  if e.useNonce then
    match e.options.nonce with
    | some n => pure (some (mkItem cfg .nonce .nonce n))
    | none => do
      let rand ← fillBytes 9
      let n ← Authorizer.genNonce rand
      pure (some ⟨Proto.name .nonce, some n, .nonce (.ofBytes n)⟩)
  else pure none

/-- The timestamp item: configured, or from the clock. -/
def emitTimestamp (cfg : Cfg) (e : Env) : M (Option Item) :=
  if e.useTimestamp then do
    let t ← match e.options.timestamp with
      | some t => pure t.val
      | none => Authorizer.getCurrentTimestamp cfg
    pure (some ⟨Proto.name .timestamp, some (decimal t), .timestamp t⟩)
  else pure none

/-- The item emitted by a call, if any. -/
def emit (cfg : Cfg) (e : Env) : Call → M (Option Item)
  | .parameter k v => pure (some ⟨k, none, .parameter k (doublePercentEncode cfg v)⟩)
  | .parameterEncoded k v => pure (some ⟨k, none, .parameter k (percentEncode v)⟩)
  | .oauth .callback => pure (e.options.callback.map (mkItem cfg .callback .callback))
  | .oauth .consumerKey => pure (some (mkItem cfg .consumerKey .consumerKey e.consumerKey))
  | .oauth .nonce => emitNonce cfg e
  | .oauth .signatureMethod =>
    pure (some ⟨Proto.name .signatureMethod, some e.name, .signatureMethod⟩)
  | .oauth .timestamp => emitTimestamp cfg e
  | .oauth .token => pure (e.token.map (mkItem cfg .token .token))
  | .oauth .verifier => pure (e.options.verifier.map (mkItem cfg .verifier .verifier))
  | .oauth .version =>
    pure (if e.options.version then
      some ⟨Proto.name .version, some b!"1.0", .version⟩ else none)

/-- The items emitted by a sequence of calls. -/
def emitAll (cfg : Cfg) (e : Env) : List Call → M (List Item)
  | [] => pure []
  | c :: cs => do
    let i ← emit cfg e c
    let is ← emitAll cfg e cs
    pure (i.toList ++ is)

/-- The output part of a state after sending `key=text`. -/
def Data.send : Data Bytes → Bytes → Bytes → Data Bytes
  | .authorization h, k, t => .authorization (h ++ k ++ b!"=\"" ++ t ++ b!"\",")
  | .urlencode ⟨d, .none⟩, k, t => .urlencode ⟨d ++ k ++ b!"=" ++ t, .ampersand⟩
  | .urlencode ⟨d, .question⟩, k, t => .urlencode ⟨d ++ b!"?" ++ k ++ b!"=" ++ t, .ampersand⟩
  | .urlencode ⟨d, .ampersand⟩, k, t => .urlencode ⟨d ++ b!"&" ++ k ++ b!"=" ++ t, .ampersand⟩

variable {S : Type}

/-- The effect of one item on an authorizer over a `String`. -/
def applyItem (cfg : Cfg) (sg : Sign S) (a : Authorizer S Bytes) (i : Item) :
    Except Panic (Authorizer S Bytes) := do
  if cfg.checksOrder && !bytesLe a.prevKey i.key then throw .keyOrder
  let s ← runSign sg ((if a.appendDelimToSign then [.delimiter] else []) ++ [i.feed]) a.sign
  pure { a with
    prevKey := if cfg.checksOrder then i.key else a.prevKey
    data := match i.sent with | some t => a.data.send i.key t | none => a.data
    appendDelimToSign := true
    sign := s }

def applyItems (cfg : Cfg) (sg : Sign S) : List Item → Authorizer S Bytes →
    Except Panic (Authorizer S Bytes)
  | [], a => pure a
  | i :: is, a => do
    let a ← applyItem cfg sg a i
    applyItems cfg sg is a

/-- The environment of an authorizer state. -/
structure HasEnv (e : Env) (a : Authorizer S Bytes) : Prop where
  consumerKey : a.consumerKey = e.consumerKey
  token : a.token = e.token
  options : a.options = e.options

/-- Sending on the data part of a string authorizer. -/
theorem send_eq (data : Data Bytes) (k : Bytes) (v : Display) (hv : v.outcome = .ok) :
    Authorizer.appendData stringWriter data k v = Except.ok (data.send k v.text) := by
  unfold Authorizer.appendData
  cases data with
  | authorization h =>
    simp only [Display.concat_cons, Display.concat_nil]
    have e : (Display.ofBytes b!"\"," ++ ⟨[], .ok⟩ : Display) = .ofBytes b!"\"," := rfl
    rw [e, stringWriter_writeUnwrap]
    rw [Display.outcome_append_ok (by rfl), Display.outcome_append_ok (by rfl),
      Display.outcome_append_ok hv, Display.text_append_ok (by rfl), Display.text_append_ok (by rfl),
      Display.text_append_ok hv]
    simp [Outcome.check, Functor.map, Except.map, Data.send, Display.ofBytes, Display.text]
  | urlencode e =>
    simp only [Urlencoder.parameterEncoded_string, hv, Outcome.check]
    obtain ⟨d, n⟩ := e
    cases n <;> simp [Functor.map, Except.map, Data.send, Urlencoder.push]

theorem runSign_append (sg : Sign S) (xs ys : List SignCall) (s : S) :
    runSign sg (xs ++ ys) s = (do let s ← runSign sg xs s; runSign sg ys s) := by
  induction xs generalizing s with
  | nil => rfl
  | cons c xs ih =>
    simp only [List.cons_append, runSign, bind, Except.bind] at ih ⊢
    cases c.run sg s with
    | error e => rfl
    | ok s => exact ih s

/-- The part common to all emitting methods. -/
theorem delimThenFeed_eq (sg : Sign S) (a : Authorizer S Bytes) (feed : SignCall) :
    (do let a ← a.signDelimiter sg
        let s ← feed.run sg a.sign
        Except.ok { a with sign := s }) = (do
      let s ← runSign sg ((if a.appendDelimToSign then [.delimiter] else []) ++ [feed]) a.sign
      Except.ok { a with appendDelimToSign := true, sign := s }) := by
  cases hd : a.appendDelimToSign with
  | false =>
    simp [Authorizer.signDelimiter, hd, runSign, bind, Except.bind]
    cases feed.run sg a.sign <;> rfl
  | true =>
    simp [Authorizer.signDelimiter, hd, runSign, bind, Except.bind]
    have : SignCall.run sg .delimiter a.sign = sg.delimiter a.sign := rfl
    rw [this]
    cases sg.delimiter a.sign with
    | error e => rfl
    | ok s =>
      simp only []
      cases feed.run sg s <;> rfl

/-- `append_to_header!`: check, send, delimiter, feed. -/
theorem appendThenFeed_eq (cfg : Cfg) (sg : Sign S) (a : Authorizer S Bytes) (k : Bytes)
    (v : Display) (hv : v.outcome = .ok) (feed : SignCall) :
    (do let a ← a.appendToHeaderEncoded cfg stringWriter sg k v
        let s ← feed.run sg a.sign
        Except.ok { a with sign := s }) = applyItem cfg sg a ⟨k, some v.text, feed⟩ := by
  simp only [Authorizer.appendToHeaderEncoded, send_eq _ k v hv, bind_assoc,
    Authorizer.checkDictionaryOrder, applyItem]
  cases hc : cfg.checksOrder with
  | false =>
    exact delimThenFeed_eq sg { a with data := a.data.send k v.text } feed
  | true =>
    cases hb : bytesLe a.prevKey k with
    | false => rfl
    | true => exact delimThenFeed_eq sg { a with prevKey := k, data := a.data.send k v.text } feed

theorem checkThenFeed_eq (cfg : Cfg) (sg : Sign S) (a : Authorizer S Bytes) (k : Bytes)
    (feed : SignCall) :
    (do let a ← a.checkDictionaryOrder cfg k
        let a ← a.signDelimiter sg
        let s ← feed.run sg a.sign
        Except.ok { a with sign := s }) = applyItem cfg sg a ⟨k, none, feed⟩ := by
  simp only [Authorizer.checkDictionaryOrder, applyItem]
  cases hc : cfg.checksOrder with
  | false => exact delimThenFeed_eq sg a feed
  | true =>
    cases hb : bytesLe a.prevKey k with
    | false => rfl
    | true => exact delimThenFeed_eq sg { a with prevKey := k } feed

/-- The effect of an optional item. -/
def applyOpt (cfg : Cfg) (sg : Sign S) (a : Authorizer S Bytes) (i : Option Item) :
    Except Panic (Authorizer S Bytes) :=
  match i with
  | none => .ok a
  | some i => applyItem cfg sg a i

theorem run_call_eq {cfg : Cfg} {sg : Sign S} {e : Env}
    (hsg : ConstSign sg e.name e.useNonce e.useTimestamp) {a : Authorizer S Bytes}
    (ha : HasEnv e a) (c : Call) :
    Call.run (Authorizer.serializer cfg stringWriter sg) c a = (do
      let i ← emit cfg e c
      liftM (applyOpt cfg sg a i)) := by
  have henc : ∀ (v : Bytes), (percentEncodeStr v).outcome = .ok := percentEncodeStr_outcome
  cases c with
  | parameter k v =>
    simp only [emit, pure_bind, applyOpt, ← checkThenFeed_eq]
    rfl
  | parameterEncoded k v =>
    simp only [emit, pure_bind, applyOpt, ← checkThenFeed_eq]
    rfl
  | oauth p =>
    cases p with
    | callback =>
      simp only [emit, pure_bind, Call.run, Authorizer.serializer, Authorizer.callback, ha.options]
      cases e.options.callback with
      | none => rfl
      | some c =>
        simp only [Option.map_some, applyOpt, mkItem, ← percentEncodeStr_text,
          ← appendThenFeed_eq _ _ _ _ _ (henc c)]
        rfl
    | consumerKey =>
      simp only [emit, pure_bind, Call.run, Authorizer.serializer, Authorizer.consumerKeyM,
        ha.consumerKey, applyOpt, mkItem, ← percentEncodeStr_text,
        ← appendThenFeed_eq _ _ _ _ _ (henc e.consumerKey)]
      rfl
    | nonce =>
      simp only [emit, emitNonce, Call.run, Authorizer.serializer, Authorizer.nonce, ha.options,
        hsg.useNonce]
      cases e.useNonce with
      | false => rfl
      | true =>
        cases e.options.nonce with
        | some n =>
          simp only [if_true, pure_bind, applyOpt, mkItem, ← percentEncodeStr_text,
            ← appendThenFeed_eq _ _ _ _ _ (henc n)]
          rfl
        | none =>
          simp only [if_true, bind_assoc, pure_bind, applyOpt]
          congr 1; funext rand
          congr 1; funext n
          have := appendThenFeed_eq cfg sg a (Proto.name .nonce) (.ofBytes n) rfl
            (.nonce (.ofBytes n))
          rw [Display.text_ofBytes] at this
          rw [← this]
          rfl
    | signatureMethod =>
      simp only [emit, pure_bind, applyOpt]
      have := appendThenFeed_eq cfg sg a (Proto.name .signatureMethod) (.ofBytes e.name) rfl
        .signatureMethod
      rw [Display.text_ofBytes] at this
      rw [← this]
      simp only [Call.run, Authorizer.serializer, Authorizer.signatureMethod, hsg.name]
      rfl
    | timestamp =>
      simp only [emit, emitTimestamp, Call.run, Authorizer.serializer, Authorizer.timestamp,
        ha.options, hsg.useTimestamp]
      cases e.useTimestamp with
      | false => rfl
      | true =>
        simp only [if_true, pure_bind, applyOpt]
        have key : ∀ t, (liftM (a.appendInner cfg stringWriter sg b!"oauth_timestamp"
            (.ofBytes (decimal t)) (sg.timestamp · t)) : M _) =
            liftM (applyItem cfg sg a ⟨Proto.name .timestamp, some (decimal t), .timestamp t⟩) := by
          intro t
          have := appendThenFeed_eq cfg sg a (Proto.name .timestamp) (.ofBytes (decimal t)) rfl
            (.timestamp t)
          rw [Display.text_ofBytes] at this
          rw [← this]
          rfl
        simp only [key]
        cases e.options.timestamp <;> simp
    | token =>
      simp only [emit, pure_bind, Call.run, Authorizer.serializer, Authorizer.tokenM, ha.token]
      cases e.token with
      | none => rfl
      | some c =>
        simp only [Option.map_some, applyOpt, mkItem, ← percentEncodeStr_text,
          ← appendThenFeed_eq _ _ _ _ _ (henc c)]
        rfl
    | verifier =>
      simp only [emit, pure_bind, Call.run, Authorizer.serializer, Authorizer.verifier, ha.options]
      cases e.options.verifier with
      | none => rfl
      | some c =>
        simp only [Option.map_some, applyOpt, mkItem, ← percentEncodeStr_text,
          ← appendThenFeed_eq _ _ _ _ _ (henc c)]
        rfl
    | version =>
      simp only [emit, pure_bind, Call.run, Authorizer.serializer, Authorizer.version, ha.options]
      cases e.options.version with
      | false => rfl
      | true =>
        simp only [if_true, applyOpt]
        have := appendThenFeed_eq cfg sg a (Proto.name .version) (.ofBytes b!"1.0") rfl .version
        rw [Display.text_ofBytes] at this
        rw [← this]
        rfl

/-! ### Sequences of calls -/

theorem applyItem_env {cfg : Cfg} {sg : Sign S} {e : Env} {a a' : Authorizer S Bytes} {i : Item}
    (ha : HasEnv e a) (h : applyItem cfg sg a i = .ok a') : HasEnv e a' := by
  unfold applyItem at h
  simp only [bind, Except.bind, pure, Except.pure, throw, throwThe, MonadExceptOf.throw] at h
  split at h
  · cases h
  · split at h
    · cases h
    · cases h
      exact ⟨ha.consumerKey, ha.token, ha.options⟩

theorem M.bind_ok {α β : Type} {x : M α} {f : α → M β} {w : World} {b : β} {w' : World} :
    (x >>= f) w = .ok (b, w') ↔ ∃ a w1, x w = .ok (a, w1) ∧ f a w1 = .ok (b, w') := by
  simp only [bind, StateT.bind, Except.bind]
  cases hx : x w with
  | error e => simp
  | ok r =>
    obtain ⟨a, w1⟩ := r
    constructor
    · intro h; exact ⟨a, w1, rfl, h⟩
    · rintro ⟨a', w1', h1, h2⟩; cases h1; exact h2

theorem M.pure_ok {α : Type} {a b : α} {w w' : World} :
    (pure a : M α) w = .ok (b, w') ↔ a = b ∧ w = w' := by
  simp [pure, StateT.pure, Except.pure]

theorem M.lift_ok {α : Type} {x : Except Panic α} {b : α} {w w' : World} :
    (liftM x : M α) w = .ok (b, w') ↔ x = .ok b ∧ w = w' := by
  cases x with
  | error e =>
    constructor
    · intro h; exact absurd h (by intro h; cases h)
    · rintro ⟨h, _⟩; cases h
  | ok a =>
    rw [liftOk, M.pure_ok]
    simp

/-- A sequence of calls succeeds exactly if the items can be produced and applied. -/
theorem runCalls_ok_iff {cfg : Cfg} {sg : Sign S} {e : Env}
    (hsg : ConstSign sg e.name e.useNonce e.useTimestamp) {a a' : Authorizer S Bytes}
    (ha : HasEnv e a) (cs : List Call) (w w' : World) :
    runCalls (Authorizer.serializer cfg stringWriter sg) cs a w = .ok (a', w') ↔
      ∃ items, emitAll cfg e cs w = .ok (items, w') ∧ applyItems cfg sg items a = .ok a' := by
  induction cs generalizing a w with
  | nil =>
    simp only [runCalls, emitAll, M.pure_ok]
    constructor
    · rintro ⟨rfl, rfl⟩; exact ⟨[], ⟨rfl, rfl⟩, rfl⟩
    · rintro ⟨items, ⟨rfl, rfl⟩, h⟩; cases h; exact ⟨rfl, rfl⟩
  | cons c cs ih =>
    simp only [runCalls, emitAll, M.bind_ok, run_call_eq hsg ha, M.lift_ok, M.pure_ok]
    constructor
    · rintro ⟨a1, w1, ⟨i, w2, hi, hap, rfl⟩, hrest⟩
      have ha1 : HasEnv e a1 := by
        cases i with
        | none => cases hap; exact ha
        | some i => exact applyItem_env ha hap
      obtain ⟨items, hit, happ⟩ := (ih ha1 w2).mp hrest
      refine ⟨i.toList ++ items, ⟨i, w2, hi, items, w', hit, rfl, rfl⟩, ?_⟩
      cases i with
      | none => cases hap; exact happ
      | some i =>
        simp only [applyOpt] at hap
        simp only [Option.toList_some, List.singleton_append, applyItems, hap]
        exact happ
    · rintro ⟨items, ⟨i, w2, hi, is, w3, his, rfl, rfl⟩, happ⟩
      cases i with
      | none => exact ⟨a, w2, ⟨none, w2, hi, rfl, rfl⟩, (ih ha w2).mpr ⟨is, his, happ⟩⟩
      | some i =>
        simp only [Option.toList_some, List.singleton_append, applyItems, bind, Except.bind] at happ
        cases h1 : applyItem cfg sg a i with
        | error p => simp [h1] at happ
        | ok a1 =>
          simp only [h1] at happ
          exact ⟨a1, w2, ⟨some i, w2, hi, h1, rfl⟩,
            (ih (applyItem_env ha h1) w2).mpr ⟨is, his, happ⟩⟩

/-- The calls on the signing algorithm made for items; `d` says whether one has been made before. -/
def signCalls : Bool → List Item → List SignCall
  | _, [] => []
  | d, i :: is => (if d then [.delimiter] else []) ++ i.feed :: signCalls true is

/-- The data after sending items. -/
def Data.sendAll (d : Data Bytes) (items : List Item) : Data Bytes :=
  items.foldl (fun d i => match i.sent with | some t => d.send i.key t | none => d) d

theorem applyItems_ok_iff {cfg : Cfg} {sg : Sign S} {items : List Item}
    {a a' : Authorizer S Bytes} :
    applyItems cfg sg items a = .ok a' ↔
      (cfg.checksOrder = true →
        (a.prevKey :: items.map Item.key).Pairwise (fun x y => bytesLe x y = true)) ∧
      ∃ s, runSign sg (signCalls a.appendDelimToSign items) a.sign = .ok s ∧
        a' = { a with
          prevKey := if cfg.checksOrder then (items.map Item.key).getLastD a.prevKey else a.prevKey
          data := a.data.sendAll items
          appendDelimToSign := a.appendDelimToSign || !items.isEmpty
          sign := s } := by
  induction items generalizing a with
  | nil =>
    simp only [applyItems, pure, Except.pure, signCalls, runSign, Except.ok.injEq, List.map_nil,
      Data.sendAll, List.foldl_nil, List.isEmpty_nil, Bool.not_true, Bool.or_false,
      List.getLastD_nil, ite_self]
    constructor
    · rintro rfl; exact ⟨fun _ => by simp, a.sign, rfl, rfl⟩
    · rintro ⟨_, s, rfl, rfl⟩; rfl
  | cons i is ih =>
    simp only [applyItems, applyItem, bind, Except.bind, pure, Except.pure, throw, throwThe,
      MonadExceptOf.throw]
    have hsc : signCalls a.appendDelimToSign (i :: is) =
        ((if a.appendDelimToSign then [.delimiter] else []) ++ [i.feed]) ++ signCalls true is := by
      simp [signCalls]
    rw [hsc, runSign_append sg _ (signCalls true is)]
    by_cases hord : (cfg.checksOrder && !bytesLe a.prevKey i.key) = true
    · rw [if_pos hord]
      simp only [Bool.and_eq_true, Bool.not_eq_true'] at hord
      constructor
      · intro h; cases h
      · rintro ⟨h, _⟩
        have := h hord.1
        simp only [List.map_cons, List.pairwise_cons] at this
        have := this.1 i.key (by simp)
        simp [this] at hord
    · rw [if_neg hord]
      simp only [bind, Except.bind]
      cases hr : runSign sg ((if a.appendDelimToSign then [.delimiter] else []) ++ [i.feed]) a.sign with
      | error p => simp
      | ok s1 =>
        simp only []
        rw [ih]
        simp only [List.map_cons, List.isEmpty_cons, Bool.not_false, Bool.or_true, Bool.true_or]
        have hle : cfg.checksOrder = true → bytesLe a.prevKey i.key = true := by
          intro hc; simpa [hc] using hord
        have hdat : ∀ d : Data Bytes, d.sendAll (i :: is) =
            Data.sendAll (match i.sent with | some t => d.send i.key t | none => d) is := fun _ => rfl
        have hlast : (i.key :: is.map Item.key).getLastD a.prevKey =
            (is.map Item.key).getLastD i.key := List.getLastD_cons
        constructor
        · rintro ⟨h, s, hs, rfl⟩
          refine ⟨?_, s, hs, ?_⟩
          · intro hc
            have h := h hc
            simp only [hc, if_true] at h
            rw [List.pairwise_cons]
            refine ⟨?_, h⟩
            intro y hy
            rcases List.mem_cons.mp hy with rfl | hy
            · exact hle hc
            · exact bytesLe_trans (hle hc) ((List.pairwise_cons.mp h).1 y hy)
          · rw [hlast]
            cases cfg.checksOrder <;> simp [hdat]
        · rintro ⟨h, s, hs, rfl⟩
          refine ⟨?_, s, hs, ?_⟩
          · intro hc
            simp only [hc, if_true]
            exact (List.pairwise_cons.mp (h hc)).2
          · rw [hlast]
            cases cfg.checksOrder <;> simp [hdat]

end OAuth
