import Verif.Proofs.Signers
import Verif.Proofs.ParameterList
import Verif.Properties.Form

/-
The order assertion, and runs that do not panic.
-/

namespace OAuth

open Spec

variable {S : Type}

theorem itemIn_key {cfg : Cfg} {e : Env} {w : World} {c : Call} {i : Item}
    (h : itemIn cfg e w c = some i) : i.key = c.key := by
  cases c with
  | parameter k v => simp only [itemIn, Option.some.injEq] at h; subst h; rfl
  | parameterEncoded k v => simp only [itemIn, Option.some.injEq] at h; subst h; rfl
  | oauth p =>
    cases p <;> simp only [itemIn, Option.map_eq_some_iff, Option.some.injEq] at h
    case callback => obtain ⟨v, _, rfl⟩ := h; rfl
    case consumerKey => subst h; rfl
    case nonce =>
      split at h
      · split at h <;> cases h <;> rfl
      · cases h
    case signatureMethod => subst h; rfl
    case timestamp =>
      split at h
      · cases h; rfl
      · cases h
    case token => obtain ⟨v, _, rfl⟩ := h; rfl
    case verifier => obtain ⟨v, _, rfl⟩ := h; rfl
    case version =>
      split at h
      · cases h; rfl
      · cases h

/-- The keys a sequence of calls emits are keys of its calls. -/
theorem itemsFrom_keys_sublist (cfg : Cfg) (e : Env) (w : World) (cs : List Call) :
    ((itemsFrom cfg e w cs).map Item.key).Sublist (cs.map Call.key) := by
  induction cs generalizing w with
  | nil => exact .slnil
  | cons c cs ih =>
    simp only [itemsFrom, List.map_append, List.map_cons]
    cases h : itemIn cfg e w c with
    | none => exact (ih _).cons _
    | some i =>
      simp only [Option.toList_some, List.map_cons, List.map_nil, List.singleton_append,
        itemIn_key h]
      exact (ih _).cons_cons _

theorem signed_key (e : Env) (n : Bytes) (t : Nat) (c : Call) :
    (c.signed? e n t).map (·.1) = c.emitted e := by
  cases c with
  | parameter k v => rfl
  | parameterEncoded k v => rfl
  | oauth p =>
    have h : ∀ (o : Option Bytes) (k : Bytes), o.map (fun _ => k) = if o.isSome then some k else none := by
      intro o k; cases o <;> rfl
    simp only [Call.signed?, Option.map_map, Function.comp_def, h, Call.emitted]
    have : (e.value n t p).isSome = e.sends p := by
      cases p <;> simp only [Env.value, Env.sends, Option.isSome_some]
      · cases e.useNonce <;> rfl
      · cases e.useTimestamp <;> rfl
      · cases e.options.version <;> rfl
    rw [this]

theorem itemsFrom_emitted (cfg : Cfg) (e : Env) (hname : ∀ b ∈ e.name, unreserved b = true)
    (w : World) (cs : List Call) :
    (itemsFrom cfg e w cs).map Item.key = cs.filterMap (Call.emitted e) := by
  rw [itemsFrom_keys cfg e hname]
  induction cs generalizing w with
  | nil => rfl
  | cons c cs ih =>
    have h := signed_key e w.nonce (w.time cfg) c
    simp only [annotate, List.filterMap_cons, ← h]
    cases c.signed? e w.nonce (w.time cfg) with
    | none => exact ih _
    | some kv => simp only [Option.map_some, List.map_cons, ih]

/-- A list is not ascending exactly if somewhere a key is followed by a smaller one. -/
theorem not_pairwise_iff (ks : List Bytes) :
    ¬ ks.Pairwise (fun x y => bytesLe x y = true) ↔
      ∃ pre x y post, ks = pre ++ x :: y :: post ∧ bytesLe x y = false := by
  constructor
  · intro h
    induction ks with
    | nil => simp at h
    | cons x ks ih =>
      cases ks with
      | nil => simp at h
      | cons y ks =>
        by_cases hxy : bytesLe x y = true
        · have : ¬ (y :: ks).Pairwise (fun x y => bytesLe x y = true) := by
            intro h'
            apply h
            rw [List.pairwise_cons]
            refine ⟨?_, h'⟩
            intro z hz
            rcases List.mem_cons.mp hz with rfl | hz
            · exact hxy
            · exact bytesLe_trans hxy ((List.pairwise_cons.mp h').1 z hz)
          obtain ⟨pre, a, b, post, he, hab⟩ := ih this
          exact ⟨x :: pre, a, b, post, by rw [he]; rfl, hab⟩
        · exact ⟨[], x, y, ks, rfl, by simpa using hxy⟩
  · rintro ⟨pre, x, y, post, rfl, h⟩ hp
    have := (List.pairwise_append.mp hp).2.1
    have := (List.pairwise_cons.mp this).1 y (by simp)
    simp [h] at this

/-! ### Exact results of runs on algorithms that do not fail -/

theorem applyItem_absorbs {cfg : Cfg} {sg : Sign S} {name : Bytes} {add : S → Bytes → S}
    (h : Absorbs sg name add) (a : Authorizer S Bytes) {i : Item} (hi : i.feed.outcome = .ok) :
    (cfg.checksOrder = true ∧ bytesLe a.prevKey i.key = false ∧
      applyItem cfg sg a i = .error .keyOrder) ∨
    ((cfg.checksOrder = true → bytesLe a.prevKey i.key = true) ∧
      ∃ a', applyItem cfg sg a i = .ok a') := by
  unfold applyItem
  cases hc : cfg.checksOrder with
  | false =>
    right
    refine ⟨by simp, ?_⟩
    rw [h.run]
    · exact ⟨_, rfl⟩
    · intro c hc
      simp only [List.mem_append, List.mem_singleton] at hc
      rcases hc with hc | rfl
      · split at hc <;> simp at hc
        subst hc; rfl
      · exact hi
  | true =>
    cases hb : bytesLe a.prevKey i.key with
    | false => exact .inl ⟨rfl, rfl, rfl⟩
    | true =>
      right
      refine ⟨by simp, ?_⟩
      rw [h.run]
      · exact ⟨_, rfl⟩
      · intro c hc
        simp only [List.mem_append, List.mem_singleton] at hc
        rcases hc with hc | rfl
        · split at hc <;> simp at hc
          subst hc; rfl
        · exact hi

theorem run_error {cfg : Cfg} {sg : Sign S} {e : Env}
    (hsg : ConstSign sg e.name e.useNonce e.useTimestamp) {add : S → Bytes → S}
    (habs : Absorbs sg e.name add) {a : Authorizer S Bytes} (ha : HasEnv e a) (cs : List Call)
    (hcs : ∀ c ∈ cs, c.ok) (hclock : ¬ (cfg.clock = .none ∧ cs.any (needsClock e) = true))
    (w : World) (p : Panic)
    (h : runCalls (Authorizer.serializer cfg stringWriter sg) cs a w = .error p) :
    p = .keyOrder := by
  induction cs generalizing a w with
  | nil => cases h
  | cons c cs ih =>
    have hc1 : ¬ (cfg.clock = .none ∧ needsClock e c = true) := by
      rintro ⟨h1, h2⟩; exact hclock ⟨h1, by simp [h2]⟩
    simp only [runCalls, run_call_eq hsg ha, bind, StateT.bind, Except.bind, emit_eq,
      if_neg hc1] at h
    have hrest : ¬ (cfg.clock = .none ∧ cs.any (needsClock e) = true) := by
      rintro ⟨h1, h2⟩; exact hclock ⟨h1, by simp only [List.any_cons, h2, Bool.or_true]⟩
    cases hi : itemIn cfg e w c with
    | none =>
      simp only [hi, applyOpt] at h
      exact ih ha (fun c hc => hcs c (by simp [hc])) hrest _ h
    | some i =>
      simp only [hi, applyOpt] at h
      rcases applyItem_absorbs (cfg := cfg) habs a (itemIn_outcome (hcs c (by simp)) hi) with
        ⟨_, _, he⟩ | ⟨_, a', he⟩
      · rw [he] at h
        cases h; rfl
      · rw [he] at h
        exact ih (applyItem_env ha he) (fun c hc => hcs c (by simp [hc])) hrest _ h

end OAuth
