import Verif.Proofs.Auth
import Verif.Proofs.Base64

/-
Closed form of the emitted items.
-/

namespace OAuth

open Spec

theorem genNonce_ok (rand : Bytes) (h : rand.length ≤ 9) :
    Authorizer.genNonce rand =
      .ok (base64UrlNoPad (rand.drop (rand.findIdx (fun b => b != 0)))) := by
  unfold Authorizer.genNonce
  simp only [base64UrlNoPad_length, List.length_drop]
  rw [if_pos (by omega)]

theorem World.nonce_unreserved (w : World) : ∀ b ∈ w.nonce, unreserved b = true :=
  base64UrlNoPad_unreserved _

theorem decimalAux_digits (fuel n : Nat) : ∀ b ∈ decimalAux fuel n, 0x30 ≤ b.toNat ∧ b.toNat ≤ 0x39 := by
  induction fuel generalizing n with
  | zero => simp [decimalAux]
  | succ fuel ih =>
    have hd : ∀ d : Nat, d < 10 → 0x30 ≤ (UInt8.ofNat (48 + d)).toNat ∧
        (UInt8.ofNat (48 + d)).toNat ≤ 0x39 := by
      intro d hd
      simp only [UInt8.toNat_ofNat']
      omega
    simp only [decimalAux]
    split
    · next h =>
      intro b hb
      simp only [List.mem_cons, List.not_mem_nil, or_false] at hb
      subst hb
      exact hd n h
    · intro b hb
      simp only [List.mem_append, List.mem_cons, List.not_mem_nil, or_false] at hb
      rcases hb with hb | rfl
      · exact ih _ b hb
      · exact hd _ (Nat.mod_lt _ (by decide))

theorem decimal_unreserved (n : Nat) : ∀ b ∈ decimal n, unreserved b = true := by
  intro b hb
  have h := decimalAux_digits _ _ b hb
  have : ∀ b : UInt8, (0x30 ≤ b.toNat ∧ b.toNat ≤ 0x39) → unreserved b = true := by
    apply forall_byte; decide +kernel
  exact this b h

/-- The item a call emits in a world. -/
def itemIn (cfg : Cfg) (e : Env) (w : World) : Call → Option Item
  | .parameter k v => some ⟨k, none, .parameter k (doublePercentEncode cfg v)⟩
  | .parameterEncoded k v => some ⟨k, none, .parameter k (percentEncode v)⟩
  | .oauth .callback => e.options.callback.map (mkItem cfg .callback .callback)
  | .oauth .consumerKey => some (mkItem cfg .consumerKey .consumerKey e.consumerKey)
  | .oauth .nonce =>
    if e.useNonce then
      match e.options.nonce with
      | some n => some (mkItem cfg .nonce .nonce n)
      | none => some ⟨Proto.name .nonce, some w.nonce, .nonce (.ofBytes w.nonce)⟩
    else none
  | .oauth .signatureMethod => some ⟨Proto.name .signatureMethod, some e.name, .signatureMethod⟩
  | .oauth .timestamp =>
    if e.useTimestamp then
      let t := (e.options.timestamp.map (·.val)).getD (w.time cfg)
      some ⟨Proto.name .timestamp, some (decimal t), .timestamp t⟩
    else none
  | .oauth .token => e.token.map (mkItem cfg .token .token)
  | .oauth .verifier => e.options.verifier.map (mkItem cfg .verifier .verifier)
  | .oauth .version =>
    if e.options.version then some ⟨Proto.name .version, some b!"1.0", .version⟩ else none

theorem emit_eq (cfg : Cfg) (e : Env) (c : Call) (w : World) :
    emit cfg e c w =
      if cfg.clock = .none ∧ needsClock e c = true then .error .noClock
      else .ok (itemIn cfg e w c, advance e w c) := by
  have hadv : ∀ c, needsRng e c = false → needsClock e c = false → advance e w c = w := by
    intro c h1 h2; simp [advance, h1, h2]
  have plain : ∀ c, needsRng e c = false → needsClock e c = false →
      emit cfg e c w = .ok (itemIn cfg e w c, w) →
      emit cfg e c w =
        if cfg.clock = .none ∧ needsClock e c = true then .error .noClock
        else .ok (itemIn cfg e w c, advance e w c) := by
    intro c h1 h2 h
    rw [if_neg (by simp [h2]), hadv c h1 h2, h]
  cases c with
  | parameter k v => exact plain _ (by simp [needsRng]) (by simp [needsClock]) rfl
  | parameterEncoded k v => exact plain _ (by simp [needsRng]) (by simp [needsClock]) rfl
  | oauth p =>
    cases p with
    | callback => exact plain _ (by simp [needsRng]) (by simp [needsClock]) rfl
    | consumerKey => exact plain _ (by simp [needsRng]) (by simp [needsClock]) rfl
    | signatureMethod => exact plain _ (by simp [needsRng]) (by simp [needsClock]) rfl
    | token => exact plain _ (by simp [needsRng]) (by simp [needsClock]) rfl
    | verifier => exact plain _ (by simp [needsRng]) (by simp [needsClock]) rfl
    | version => exact plain _ (by simp [needsRng]) (by simp [needsClock]) rfl
    | nonce =>
      have hc : needsClock e (.oauth .nonce) = false := by simp [needsClock]
      rw [if_neg (by simp [hc])]
      simp only [emit, emitNonce, itemIn]
      cases hu : e.useNonce with
      | false =>
        simp only [Bool.false_eq_true, if_false]
        rw [hadv _ (by simp [needsRng, hu]) hc]; rfl
      | true =>
        simp only [if_true]
        cases hn : e.options.nonce with
        | some n =>
          simp only []
          rw [hadv _ (by simp [needsRng, hn]) hc]; rfl
        | none =>
          simp only []
          have hr : needsRng e (.oauth .nonce) = true := by simp [needsRng, hu, hn]
          simp only [fillBytes, bind, StateT.bind, Except.bind]
          rw [genNonce_ok _ (by simp)]
          simp only [liftOk, pure, StateT.pure, Except.pure, advance, hr, hc, if_true,
            Bool.false_eq_true, if_false]
          rfl
    | timestamp =>
      have hr : needsRng e (.oauth .timestamp) = false := by simp [needsRng]
      simp only [emit, emitTimestamp, itemIn]
      cases hu : e.useTimestamp with
      | false =>
        have hc : needsClock e (.oauth .timestamp) = false := by simp [needsClock, hu]
        simp only [hc, Bool.false_eq_true, and_false, if_false]
        rw [hadv _ hr hc]; rfl
      | true =>
        cases ht : e.options.timestamp with
        | some t =>
          have hc : needsClock e (.oauth .timestamp) = false := by simp [needsClock, ht]
          simp only [hc, Bool.false_eq_true, and_false, if_false, if_true]
          rw [hadv _ hr hc]; rfl
        | none =>
          have hc : needsClock e (.oauth .timestamp) = true := by simp [needsClock, hu, ht]
          simp only [if_true, hc, and_true]
          cases hcl : cfg.clock with
          | none => simp [Authorizer.getCurrentTimestamp, hcl, panicM, bind, StateT.bind, Except.bind]
          | js =>
            simp only [Authorizer.getCurrentTimestamp, hcl, readClock, bind, StateT.bind,
              Except.bind, pure, StateT.pure, Except.pure, advance, hr, hc, World.time]
            rfl
          | std =>
            rw [if_neg (by simp)]
            by_cases h0 : 0 ≤ w.clock w.clockPos
            · simp only [Authorizer.getCurrentTimestamp, hcl, readClock, bind, StateT.bind,
                Except.bind, pure, StateT.pure, Except.pure, advance, hr, hc, World.time, h0, if_true]
              rfl
            · simp only [Authorizer.getCurrentTimestamp, hcl, readClock, bind, StateT.bind,
                Except.bind, pure, StateT.pure, Except.pure, advance, hr, hc, World.time, h0, if_false]
              rfl

/-- The items emitted by a sequence of calls. -/
def itemsFrom (cfg : Cfg) (e : Env) : World → List Call → List Item
  | _, [] => []
  | w, c :: cs => (itemIn cfg e w c).toList ++ itemsFrom cfg e (advance e w c) cs

theorem emitAll_eq (cfg : Cfg) (e : Env) (cs : List Call) (w : World) :
    emitAll cfg e cs w =
      if cfg.clock = .none ∧ cs.any (needsClock e) = true then .error .noClock
      else .ok (itemsFrom cfg e w cs, cs.foldl (advance e) w) := by
  induction cs generalizing w with
  | nil => simp [emitAll, itemsFrom, pure, StateT.pure, Except.pure]
  | cons c cs ih =>
    simp only [emitAll, bind, StateT.bind, Except.bind, emit_eq, List.any_cons, Bool.or_eq_true]
    by_cases h1 : cfg.clock = .none ∧ needsClock e c = true
    · rw [if_pos h1, if_pos ⟨h1.1, .inl h1.2⟩]
    · rw [if_neg h1]
      simp only [ih]
      by_cases h2 : cfg.clock = .none ∧ cs.any (needsClock e) = true
      · rw [if_pos h2, if_pos ⟨h2.1, .inr h2.2⟩]
      · rw [if_neg h2, if_neg (by
          rintro ⟨hc, h | h⟩
          · exact h1 ⟨hc, h⟩
          · exact h2 ⟨hc, h⟩)]
        rfl

/-- The items of a sequence in which no protocol parameter repeats depend on the initial world. -/
theorem itemsFrom_eq (cfg : Cfg) (e : Env) (w : World) (cs : List Call)
    (h : (cs.filterMap Call.proto?).Nodup) :
    itemsFrom cfg e w cs = cs.filterMap (itemIn cfg e w) := by
  suffices gen : ∀ w', (.oauth .nonce ∈ cs → w'.nonce = w.nonce) →
      (.oauth .timestamp ∈ cs → w'.time cfg = w.time cfg) →
      itemsFrom cfg e w' cs = cs.filterMap (itemIn cfg e w) from
    gen w (fun _ => rfl) (fun _ => rfl)
  induction cs with
  | nil => intros; rfl
  | cons c cs ih =>
    intro w' hn ht
    have hi : itemIn cfg e w' c = itemIn cfg e w c := by
      cases c with
      | parameter k v => rfl
      | parameterEncoded k v => rfl
      | oauth p =>
        cases p with
        | nonce => simp only [itemIn, hn (by simp)]
        | timestamp => simp only [itemIn, ht (by simp)]
        | _ => rfl
    have hnd : (cs.filterMap Call.proto?).Nodup := by
      cases c with
      | parameter k v => exact h
      | parameterEncoded k v => exact h
      | oauth p =>
        have : (Call.oauth p :: cs).filterMap Call.proto? = p :: cs.filterMap Call.proto? := rfl
        rw [this] at h
        exact (List.nodup_cons.mp h).2
    have hnot : ∀ p, c = .oauth p → .oauth p ∉ cs := by
      rintro p rfl hm
      have : (Call.oauth p :: cs).filterMap Call.proto? = p :: cs.filterMap Call.proto? := rfl
      rw [this] at h
      exact (List.nodup_cons.mp h).1 (List.mem_filterMap.mpr ⟨_, hm, rfl⟩)
    have htail := ih hnd (advance e w' c) (by
      intro hm
      have hne : needsRng e c = false := by
        unfold needsRng
        by_cases hc : c = .oauth .nonce
        · exact absurd hm (hnot _ hc)
        · simp [hc]
      have : (advance e w' c).nonce = w'.nonce := by
        simp [World.nonce, World.nonceBytes, advance, hne]
      rw [this, hn (by simp [hm])]) (by
      intro hm
      have hne : needsClock e c = false := by
        unfold needsClock
        by_cases hc : c = .oauth .timestamp
        · exact absurd hm (hnot _ hc)
        · simp [hc]
      have : (advance e w' c).time cfg = w'.time cfg := by simp [World.time, advance, hne]
      rw [this, ht (by simp [hm])])
    simp only [itemsFrom, htail, hi, List.filterMap_cons]
    cases itemIn cfg e w c <;> rfl

/-- What an item amounts to, in the terms of the specification. -/
theorem itemIn_spec (cfg : Cfg) (e : Env) (hname : ∀ b ∈ e.name, unreserved b = true) (w : World)
    (c : Call) :
    (itemIn cfg e w c).map (fun i => (i.key, i.feed.render e.name)) =
      (c.signed? e w.nonce (w.time cfg)).map (fun kv => (kv.1, signedItem kv)) ∧
    (itemIn cfg e w c).bind (fun i => i.sent.map fun t => (i.key, t)) =
      c.sent? e w.nonce (w.time cfg) := by
  have hdec : ∀ n, encode (decimal n) = decimal n := fun n =>
    encode_of_unreserved (decimal_unreserved n)
  have hnon : encode w.nonce = w.nonce := encode_of_unreserved w.nonce_unreserved
  have hnm := encode_of_unreserved hname
  cases c with
  | parameter k v => simp [itemIn, Call.signed?, Call.sent?, SignCall.render, signedItem]
  | parameterEncoded k v => simp [itemIn, Call.signed?, Call.sent?, SignCall.render, signedItem]
  | oauth p =>
    cases p with
    | callback =>
      cases h : e.options.callback <;>
        simp [itemIn, Call.signed?, Call.sent?, SignCall.render, signedItem, Env.value, h, mkItem,
          Proto.name]
    | consumerKey =>
      simp [itemIn, Call.signed?, Call.sent?, SignCall.render, signedItem, Env.value, mkItem,
        Proto.name]
    | nonce =>
      cases hu : e.useNonce
      · simp [itemIn, Call.signed?, Call.sent?, Env.value, hu]
      · cases h : e.options.nonce <;>
          simp [itemIn, Call.signed?, Call.sent?, SignCall.render, signedItem, Env.value, h, hu,
            mkItem, Proto.name, hnon]
    | signatureMethod =>
      simp [itemIn, Call.signed?, Call.sent?, SignCall.render, signedItem, Env.value, Proto.name, hnm]
    | timestamp =>
      cases hu : e.useTimestamp <;>
        simp [itemIn, Call.signed?, Call.sent?, SignCall.render, signedItem, Env.value, hu,
          Proto.name, hdec]
    | token =>
      cases h : e.token <;>
        simp [itemIn, Call.signed?, Call.sent?, SignCall.render, signedItem, Env.value, h, mkItem,
          Proto.name]
    | verifier =>
      cases h : e.options.verifier <;>
        simp [itemIn, Call.signed?, Call.sent?, SignCall.render, signedItem, Env.value, h, mkItem,
          Proto.name]
    | version =>
      cases h : e.options.version
      · simp [itemIn, Call.signed?, Call.sent?, Env.value, h]
      · simp only [itemIn, Call.signed?, Call.sent?, Env.value, h]
        have hv : encode b!"1.0" = b!"1.0" := by decide
        simp only [if_true, Option.map_some, hv]
        exact ⟨rfl, rfl⟩

end OAuth
