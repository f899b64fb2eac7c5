import Verif.Proofs.Order
import Verif.Proofs.Parse

/-
Exact results of `authorize`, `to_form` and `to_query` for signature methods that compute a function of
the base string.
-/

namespace OAuth

open Spec

variable {S : Type}

/-- When no protocol call is repeated (as for every request of the crate, C17), all calls see the same
nonce and time. -/
theorem annotate_const (cfg : Cfg) (e : Env) (w : World) (cs : List Call)
    (h : (cs.filterMap Call.proto?).Nodup) :
    signedIn cfg e w cs = cs.filterMap (Call.signed? e w.nonce (w.time cfg)) ∧
    sentIn cfg e w cs = cs.filterMap (Call.sent? e w.nonce (w.time cfg)) := by
  suffices gen : ∀ w', (.oauth .nonce ∈ cs → needsRng e (.oauth .nonce) = true → w'.nonce = w.nonce) →
      (.oauth .timestamp ∈ cs → needsClock e (.oauth .timestamp) = true → w'.time cfg = w.time cfg) →
      signedIn cfg e w' cs = cs.filterMap (Call.signed? e w.nonce (w.time cfg)) ∧
      sentIn cfg e w' cs = cs.filterMap (Call.sent? e w.nonce (w.time cfg)) from
    gen w (fun _ _ => rfl) (fun _ _ => rfl)
  induction cs with
  | nil => intros; exact ⟨rfl, rfl⟩
  | cons c cs ih =>
    intro w' hn ht
    have hnd : (cs.filterMap Call.proto?).Nodup := by
      cases c with
      | parameter k v => exact h
      | parameterEncoded k v => exact h
      | oauth p =>
        have : (Call.oauth p :: cs).filterMap Call.proto? = p :: cs.filterMap Call.proto? := rfl
        rw [this] at h
        exact (List.nodup_cons.mp h).2
    have hnot : ∀ p, c = .oauth p → .oauth p ∉ cs := by
      rintro p rfl hm
      have : (Call.oauth p :: cs).filterMap Call.proto? = p :: cs.filterMap Call.proto? := rfl
      rw [this] at h
      exact (List.nodup_cons.mp h).1 (List.mem_filterMap.mpr ⟨_, hm, rfl⟩)
    have hval : ∀ p, c = .oauth p →
        e.value w'.nonce (w'.time cfg) p = e.value w.nonce (w.time cfg) p := by
      rintro p rfl
      cases p with
      | nonce =>
        simp only [Env.value]
        cases hu : e.useNonce with
        | false => rfl
        | true =>
          cases ho : e.options.nonce with
          | some n => rfl
          | none => simp [hn (by simp) (by simp [needsRng, hu, ho])]
      | timestamp =>
        simp only [Env.value]
        cases hu : e.useTimestamp with
        | false => rfl
        | true =>
          cases ho : e.options.timestamp with
          | some n => rfl
          | none => simp [ht (by simp) (by simp [needsClock, hu, ho])]
      | _ => rfl
    have h1 : c.signed? e w'.nonce (w'.time cfg) = c.signed? e w.nonce (w.time cfg) := by
      cases c with
      | oauth p => simp only [Call.signed?, hval p rfl]
      | _ => rfl
    have h2 : c.sent? e w'.nonce (w'.time cfg) = c.sent? e w.nonce (w.time cfg) := by
      cases c with
      | oauth p => simp only [Call.sent?, hval p rfl]
      | _ => rfl
    obtain ⟨t1, t2⟩ := ih hnd (advance e w' c) (by
      intro hm hneed
      have hne : needsRng e c = false := by
        unfold needsRng
        by_cases hc : c = .oauth .nonce
        · exact absurd hm (hnot _ hc)
        · simp [hc]
      have : (advance e w' c).nonce = w'.nonce := by
        simp [World.nonce, World.nonceBytes, advance, hne]
      rw [this, hn (by simp [hm]) hneed]) (by
      intro hm hneed
      have hne : needsClock e c = false := by
        unfold needsClock
        by_cases hc : c = .oauth .timestamp
        · exact absurd hm (hnot _ hc)
        · simp [hc]
      have : (advance e w' c).time cfg = w'.time cfg := by simp [World.time, advance, hne]
      rw [this, ht (by simp [hm]) hneed])
    simp only [signedIn, sentIn] at t1 t2
    simp only [signedIn, sentIn, annotate, List.filterMap_cons, h1, h2, t1, t2]
    exact ⟨trivial, trivial⟩

theorem Standard.nodup {cs : List Call} (h : Standard cs) : (cs.filterMap Call.proto?).Nodup := by
  rw [h]; decide

theorem standard_weave (pairs : List Pair) : Standard (weave allProto pairs) := weave_protos _ _

theorem signs_hmac (H : Bytes → Bytes) (hH : ∀ m, (H m).length ≤ 64) (cs : Bytes)
    (ts : Option Bytes) :
    Signs (hmacMethod H) cs ts b!"HMAC-SHA1" true true
      (fun m => encode (base64Standard (hmac H (signingKey cs ts) m))) where
  const := constSign_hmac H
  safe := unreserved_hmacName
  run := ⟨_, _, absorbs_hmac H, hmac_signWith H hH cs ts, fun m => hmac_end H _ m⟩

theorem signs_plaintext (cs : Bytes) (ts : Option Bytes) :
    Signs plaintext cs ts b!"PLAINTEXT" true true (fun _ => signingKey cs ts) where
  const := constSign_plaintext _
  safe := unreserved_plaintextName
  run := ⟨_, signingKey cs ts, absorbs_plaintext _, by
    have := writeSigningKey_string cs ts []
    simpa [plaintext, plaintextWithBuf] using this,
    fun m => ⟨_, rfl, rfl, Display.text_ofBytes _⟩⟩

theorem signs_rsaRef {K : Type} (H : Bytes → Bytes) (ops : RsaOps K) (key : K)
    (sign : Bytes → Bytes) (hk : ∀ m, ops.sign key (H m) = some (sign (H m))) (cs : Bytes)
    (ts : Option Bytes) :
    Signs (rsaRef H ops key) cs ts b!"RSA-SHA1" true true
      (fun m => encode (base64Standard (sign (H m)))) where
  const := constSign_rsaRef H ops
  safe := unreserved_rsaName
  run := ⟨_, ⟨[], key⟩, absorbs_rsaRef H ops, rfl, fun m => by
    refine ⟨base64PercentEncodeDisplay (sign (H m)), ?_, base64PercentEncodeDisplay_text _ |>.2,
      base64PercentEncodeDisplay_text _ |>.1⟩
    simp [rsaRef, rsaSignRef, hk]⟩

theorem signs_rsaOwned {K : Type} (H : Bytes → Bytes) (ops : RsaOps K) (key : K)
    (sign : Bytes → Bytes) (hk : ∀ m, ops.sign key (H m) = some (sign (H m))) (cs : Bytes)
    (ts : Option Bytes) :
    Signs (rsaOwned H ops key) cs ts b!"RSA-SHA1" true true
      (fun m => encode (base64Standard (sign (H m)))) where
  const := constSign_rsaOwned H ops
  safe := unreserved_rsaName
  run := ⟨_, ⟨[], key⟩, absorbs_rsaOwned H ops, rfl, fun m => by
    refine ⟨base64PercentEncodeDisplay (sign (H m)), ?_, base64PercentEncodeDisplay_text _ |>.2,
      base64PercentEncodeDisplay_text _ |>.1⟩
    simp [rsaOwned, rsaSignOwned, rsaSignRef, hk]⟩

theorem runWith_signs {cfg : Cfg} {b : Builder S} {name : Bytes} {un ut : Bool}
    {sig : Bytes → Bytes} (hs : b.Signs name un ut sig) {r : Request} {cs : List Call}
    (h : IsTrace r cs) (hcs : ∀ c ∈ cs, c.ok) (data : Data Bytes) (method : Bytes) {uri : Display}
    (huri : uri.outcome = .ok) {w : World} (hruns : Runs cfg (b.env name un ut) w uri cs) :
    b.runWith cfg data method uri r w =
      .ok ((data.sendAll (itemsFrom cfg (b.env name un ut) w cs)).finish
          (sig (baseString method uri.text (signedIn cfg (b.env name un ut) w cs))),
        cs.foldl (advance (b.env name un ut)) w) := by
  obtain ⟨add, s0, habs, h0, hend⟩ := hs.run
  obtain ⟨d, hd, hdo, hdt⟩ := hend (baseString method uri.text (signedIn cfg (b.env name un ut) w cs))
  rw [runWith_absorbs hs.const hs.safe habs h hcs _ _ huri]
  exact ⟨hruns, rfl, s0, d, h0, hd, hdo, by rw [hdt]⟩

theorem runWith_runs {cfg : Cfg} {b : Builder S} {name : Bytes} {un ut : Bool}
    {sig : Bytes → Bytes} (hs : b.Signs name un ut sig) {r : Request} {cs : List Call}
    (h : IsTrace r cs) (data : Data Bytes) (method : Bytes) {uri : Display}
    {w w' : World} {out : Bytes} (hr : b.runWith cfg data method uri r w = .ok (out, w')) :
    Runs cfg (b.env name un ut) w uri cs :=
  ((runWith_ok_iff hs.const h data method uri w w' out).mp hr).1

theorem endM_error (sg : Sign S) (a : Authorizer S Bytes) {p : Panic} (h : sg.end a.sign = .error p) :
    a.endM stringWriter sg = .error p := by
  unfold Authorizer.endM
  cases a.data with
  | authorization hd =>
    simp only [stringWriter_writeUnwrap, bind, Except.bind]
    simp only [Display.ofBytes, Outcome.check, h]
  | urlencode enc => simp only [bind, Except.bind, h]

/-- If the signing algorithm panics when asked for the signature, so does the run. -/
theorem runWith_end_error {cfg : Cfg} {b : Builder S} {name : Bytes} {un ut : Bool}
    (hsg : ConstSign b.signatureMethod.sign name un ut)
    (hname : ∀ x ∈ name, unreserved x = true) {add : S → Bytes → S}
    (habs : Absorbs b.signatureMethod.sign name add) {s0 : S}
    (h0 : b.signatureMethod.signWith b.client.secret (b.token.map (·.secret)) = .ok s0)
    {r : Request} {cs : List Call}
    (h : IsTrace r cs) (hcs : ∀ c ∈ cs, c.ok) (data : Data Bytes) (method : Bytes) {uri : Display}
    (huri : uri.outcome = .ok) {w : World} (hruns : Runs cfg (b.env name un ut) w uri cs) {p : Panic}
    (hp : b.signatureMethod.sign.end (add s0 (baseString method uri.text
      (signedIn cfg (b.env name un ut) w cs))) = .error p) :
    b.runWith cfg data method uri r w = .error p := by
  have hm : makeSign cfg b.signatureMethod method uri b.client b.token = .ok
      (add s0 (((openCalls method uri).map (SignCall.render name)).flatten)) := by
    rw [makeSign_ok_iff]
    refine ⟨hruns.uri, s0, h0, habs.run _ ?_ s0⟩
    intro c hc
    simp only [openCalls, List.mem_cons, List.not_mem_nil, or_false] at hc
    rcases hc with rfl | rfl
    · rfl
    · simpa [SignCall.outcome] using huri
  obtain ⟨a', w', hrun, hsign⟩ : ∃ a' w',
      runCalls (Authorizer.serializer cfg stringWriter b.signatureMethod.sign) cs
        (Authorizer.new_ data (add s0 (((openCalls method uri).map (SignCall.render name)).flatten))
          b.client b.token b.options) w = .ok (a', w') ∧
      a'.sign = add (add s0 (((openCalls method uri).map (SignCall.render name)).flatten))
        (((signCalls false (itemsFrom cfg (b.env name un ut) w cs)).map
          (SignCall.render name)).flatten) := by
    have hap := (applyItems_ok_iff (cfg := cfg) (sg := b.signatureMethod.sign)
      (items := itemsFrom cfg (b.env name un ut) w cs)
      (a := Authorizer.new_ data
        (add s0 (((openCalls method uri).map (SignCall.render name)).flatten))
        b.client b.token b.options)).mpr
      ⟨fun hc => List.pairwise_cons.mpr ⟨fun b _ => by cases b <;> rfl, hruns.order hc⟩, _,
        habs.run _ (signCalls_outcome (itemsFrom_outcome hcs) false) _, rfl⟩
    exact ⟨_, _, (runCalls_ok_iff (e := b.env name un ut) hsg ⟨rfl, rfl, rfl⟩ _ _ _).mpr
      ⟨_, by rw [emitAll_eq, if_neg hruns.clock], hap⟩, rfl⟩
  unfold Builder.runWith
  rw [hm]
  show (r.serialize (Authorizer.serializer cfg stringWriter b.signatureMethod.sign) _) w = _
  rw [h]
  simp only [bind, StateT.bind, Except.bind, hrun]
  show (liftM (a'.endM stringWriter b.signatureMethod.sign) : M Bytes) w' = _
  rw [endM_error (p := p)]
  · rfl
  · rw [← hp, hsign, habs.append]
    congr 1
    congr 1
    have hr := allSignCalls_render (cfg := cfg) (e := b.env name un ut) hname w method uri cs
    rw [allSignCalls, List.map_append, List.flatten_append] at hr
    exact hr

section
variable {cfg : Cfg} {b : Builder S} {name : Bytes} {un ut : Bool} {sig : Bytes → Bytes}
  (hs : b.Signs name un ut sig) {r : Request} {cs : List Call} (h : IsTrace r cs)
  (hcs : ∀ c ∈ cs, c.ok) (method : Bytes)
include hs h hcs

theorem authorize_signs {uri : Display} (huri : uri.outcome = .ok) {w : World}
    (hruns : Runs cfg (b.env name un ut) w uri cs) :
    b.authorize cfg method uri r w =
      .ok (headerText (sentIn cfg (b.env name un ut) w cs)
          (sig (baseString method uri.text (signedIn cfg (b.env name un ut) w cs))),
        cs.foldl (advance (b.env name un ut)) w) := by
  rw [authorize_runWith, runWith_signs hs h hcs _ _ huri hruns, sendAll_header, Data.finish,
    itemsFrom_sent cfg _ hs.safe]
  rfl

theorem toForm_signs {uri : Display} (huri : uri.outcome = .ok) {w : World}
    (hruns : Runs cfg (b.env name un ut) w uri cs) :
    b.toForm cfg method uri r w =
      .ok (formText (sentIn cfg (b.env name un ut) w cs)
          (sig (baseString method uri.text (signedIn cfg (b.env name un ut) w cs))),
        cs.foldl (advance (b.env name un ut)) w) := by
  rw [toForm_runWith, runWith_signs hs h hcs _ _ huri hruns, (sendAll_finish_form _ _ _).1,
    itemsFrom_sent cfg _ hs.safe]
  rfl

theorem toQuery_signs {u : Bytes} {w : World}
    (hruns : Runs cfg (b.env name un ut) w (.ofBytes u) cs) :
    b.toQuery cfg stringWriter .ofBytes method u r w =
      .ok (u ++ b!"?" ++ formText (sentIn cfg (b.env name un ut) w cs)
          (sig (baseString method u (signedIn cfg (b.env name un ut) w cs))),
        cs.foldl (advance (b.env name un ut)) w) := by
  rw [toQuery_runWith, runWith_signs hs h hcs _ _ rfl hruns, (sendAll_finish_form _ _ _).2,
    itemsFrom_sent cfg _ hs.safe, Display.text_ofBytes]
  rfl

end

/-- What is sent is determined by the protocol calls made. -/
theorem sent_filterMap (e : Env) (n : Bytes) (t : Nat) (cs : List Call) :
    cs.filterMap (Call.sent? e n t) = (cs.filterMap Call.proto?).filterMap fun p =>
      (e.value n t p).map fun v => (p.name, encode v) := by
  induction cs with
  | nil => rfl
  | cons c cs ih =>
    cases c with
    | parameter k v => exact ih
    | parameterEncoded k v => exact ih
    | oauth p =>
      have : (Call.oauth p :: cs).filterMap Call.proto? = p :: cs.filterMap Call.proto? := rfl
      rw [this, List.filterMap_cons, List.filterMap_cons, ih]
      rfl

theorem standard_sent (cfg : Cfg) (e : Env) (w : World) {cs : List Call} (h : Standard cs) :
    sentIn cfg e w cs = (e.protocolParams w.nonce (w.time cfg)).map fun p => (p.1, encode p.2) := by
  rw [(annotate_const cfg e w cs h.nodup).2, sent_filterMap, h, Env.protocolParams,
    List.map_filterMap]
  congr 1
  funext p
  cases e.value w.nonce (w.time cfg) p <;> rfl

/-! ### Runs that do not panic -/

theorem runs_of {cfg : Cfg} {e : Env} {uri : Display} {cs : List Call}
    (huri : (0x3F : UInt8) ∉ uri.text) (hok : uri.outcome = .ok)
    (hclock : cfg.clock ≠ .none ∨ e.options.timestamp ≠ none ∨ e.useTimestamp = false)
    (hsorted : (cs.map Call.key).Pairwise (fun x y => bytesLe x y = true)) (w : World) :
    Runs cfg e w uri cs where
  uri _ := ⟨huri, hok⟩
  clock := by
    rintro ⟨h1, h2⟩
    obtain ⟨c, _, hc⟩ := List.any_eq_true.mp h2
    simp only [needsClock, Bool.and_eq_true] at hc
    rcases hclock with h | h | h
    · exact h h1
    · cases ho : e.options.timestamp with
      | none => exact h ho
      | some t => simp [ho] at hc
    · simp [h] at hc
  order _ := hsorted.sublist (itemsFrom_keys_sublist cfg e w cs)

theorem ascending_keys {l : List Pair} (h : Ascending (shown Display.text l)) :
    (l.map (·.1)).Pairwise (fun a b => bytesLe a b = true) := by
  rw [List.pairwise_map]
  rw [Ascending, shown, List.pairwise_map] at h
  refine h.imp ?_
  intro a b hab
  rw [bytesLe_iff_le]
  rcases hab with hab | ⟨e, -⟩
  · exact List.le_of_lt hab
  · simp only at e; rw [e]; exact List.le_refl _

theorem weave_keys_sorted {l : List Pair} (h : Ascending (shown Display.text l)) :
    ((weave allProto l).map Call.key).Pairwise (fun a b => bytesLe a b = true) :=
  (weave_sorted _ _ allProto_sorted (ascending_keys h)).1

end OAuth
