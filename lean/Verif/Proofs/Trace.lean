import Verif.Spec.Run
import Verif.Model.ParameterList
import Verif.Proofs.Bytes

/-
All `Request` implementations of the crate are traces.
-/

namespace OAuth

open Spec

variable {σ ω : Type}

theorem runCalls_append (S : Serializer σ ω) (cs ds : List Call) (s : σ) :
    runCalls S (cs ++ ds) s = (do let s ← runCalls S cs s; runCalls S ds s) := by
  induction cs generalizing s with
  | nil => simp [runCalls]
  | cons c cs ih => simp [runCalls, ih]

theorem isTrace_requestOf (cs : List Call) : IsTrace (requestOf cs) cs := fun _ _ _ _ => rfl

theorem oauthParameters_eq (S : Serializer σ ω) (s : σ) :
    S.oauthParameters s = runCalls S (allProto.map .oauth) s := by
  simp [Serializer.oauthParameters, allProto, runCalls, Call.run]

theorem isTrace_unit : IsTrace Request.unit (allProto.map .oauth) := by
  intro σ ω S s
  simp [Request.unit, oauthParameters_eq]

theorem isTrace_none : IsTrace (Request.option none) (allProto.map .oauth) := by
  intro σ ω S s
  simp [Request.option, oauthParameters_eq]

theorem isTrace_some {r : Request} {cs : List Call} (h : IsTrace r cs) :
    IsTrace (Request.option (some r)) cs := fun σ ω S s => h σ ω S s

theorem isTrace_ref {r : Request} {cs : List Call} (h : IsTrace r cs) :
    IsTrace (Request.ref r) cs := fun σ ω S s => h σ ω S s

theorem isTrace_refMut {r : Request} {cs : List Call} (h : IsTrace r cs) :
    IsTrace (Request.refMut r) cs := fun σ ω S s => h σ ω S s

/-! ### The interleaving loop of `AssertSorted` -/

/-- The protocol parameters from a cursor position on. -/
def protoFrom : OAuthParameter → List Proto
  | .callback => allProto
  | .consumerKey => allProto.drop 1
  | .nonce => allProto.drop 2
  | .signatureMethod => allProto.drop 3
  | .timestamp => allProto.drop 4
  | .token => allProto.drop 5
  | .verifier => allProto.drop 6
  | .version => allProto.drop 7
  | .none => []

/-- The cursor as its index. -/
def cursorOf : List Proto → OAuthParameter
  | [] => .none
  | .callback :: _ => .callback
  | .consumerKey :: _ => .consumerKey
  | .nonce :: _ => .nonce
  | .signatureMethod :: _ => .signatureMethod
  | .timestamp :: _ => .timestamp
  | .token :: _ => .token
  | .verifier :: _ => .verifier
  | .version :: _ => .version

theorem cursorOf_protoFrom (p : OAuthParameter) : cursorOf (protoFrom p) = p := by
  cases p <;> rfl

/-- What one step of the cursor does. -/
theorem cursor_step (cfg : Cfg) (p : OAuthParameter) (hp : p ≠ .none) :
    ∃ q p', protoFrom p = q :: protoFrom p' ∧ p.next cfg = .ok p' ∧
      (∀ k, p.ltStr k = (cmpBytes q.name k == .lt)) ∧
      ∀ {σ ω : Type} (S : Serializer σ ω) (s : σ), p.serialize S s = Call.run S (.oauth q) s := by
  cases p
  case callback => exact ⟨.callback, .consumerKey, rfl, rfl, fun _ => rfl, fun _ _ => rfl⟩
  case consumerKey => exact ⟨.consumerKey, .nonce, rfl, rfl, fun _ => rfl, fun _ _ => rfl⟩
  case nonce => exact ⟨.nonce, .signatureMethod, rfl, rfl, fun _ => rfl, fun _ _ => rfl⟩
  case signatureMethod =>
    exact ⟨.signatureMethod, .timestamp, rfl, rfl, fun _ => rfl, fun _ _ => rfl⟩
  case timestamp => exact ⟨.timestamp, .token, rfl, rfl, fun _ => rfl, fun _ _ => rfl⟩
  case token => exact ⟨.token, .verifier, rfl, rfl, fun _ => rfl, fun _ _ => rfl⟩
  case verifier => exact ⟨.verifier, .version, rfl, rfl, fun _ => rfl, fun _ _ => rfl⟩
  case version => exact ⟨.version, .none, rfl, rfl, fun _ => rfl, fun _ _ => rfl⟩
  case none => exact absurd rfl hp

theorem liftOk {α : Type} (a : α) : (liftM (Except.ok (ε := Panic) a) : M α) = pure a := rfl

theorem whileLess_eq (cfg : Cfg) (S : Serializer σ ω) (k : Bytes) (fuel : Nat) (p : OAuthParameter)
    (s : σ) (hf : (protoFrom p).length < fuel) :
    AssertSorted.whileLess cfg S k fuel p s = (do
      let s ← runCalls S (((protoFrom p).takeWhile (fun q => cmpBytes q.name k == .lt)).map .oauth) s
      pure (cursorOf ((protoFrom p).dropWhile (fun q => cmpBytes q.name k == .lt)), s)) := by
  induction fuel generalizing p s with
  | zero => omega
  | succ fuel ih =>
    by_cases hp : p = .none
    · subst hp
      simp [AssertSorted.whileLess, OAuthParameter.ltStr, OAuthParameter.cmpStr,
        OAuthParameter.asStr, protoFrom, runCalls, cursorOf]
    · obtain ⟨q, p', h1, h2, h3, h4⟩ := cursor_step cfg p hp
      simp only [AssertSorted.whileLess, h3, h4, h2, h1, List.takeWhile_cons, List.dropWhile_cons]
      split
      · simp only [List.map_cons, runCalls, bind_assoc, liftOk, pure_bind]
        congr 1; funext s'
        rw [ih p' s' (by rw [h1] at hf; simp at hf; omega)]
      · simp only [List.map_nil, runCalls, pure_bind]
        rw [← h1, cursorOf_protoFrom]

theorem whileNotNone_eq (cfg : Cfg) (S : Serializer σ ω) (fuel : Nat) (p : OAuthParameter)
    (s : σ) (hf : (protoFrom p).length < fuel) :
    AssertSorted.whileNotNone cfg S fuel p s = runCalls S ((protoFrom p).map .oauth) s := by
  induction fuel generalizing p s with
  | zero => omega
  | succ fuel ih =>
    by_cases hp : p = .none
    · subst hp; simp [AssertSorted.whileNotNone, protoFrom, runCalls]
    · obtain ⟨q, p', h1, h2, h3, h4⟩ := cursor_step cfg p hp
      simp only [AssertSorted.whileNotNone, if_pos hp, h4, h2, h1, List.map_cons, runCalls, liftOk,
        pure_bind]
      congr 1; funext s'
      rw [ih p' s' (by rw [h1] at hf; simp at hf; omega)]

theorem protoFrom_length (p : OAuthParameter) : (protoFrom p).length < 9 := by
  cases p <;> decide

/-- Dropping a prefix of the remaining protocol parameters leaves a cursor position. -/
theorem protoFrom_dropWhile (p : OAuthParameter) (f : Proto → Bool) :
    protoFrom (cursorOf ((protoFrom p).dropWhile f)) = (protoFrom p).dropWhile f := by
  have h : ∀ n p, (protoFrom p).length ≤ n →
      protoFrom (cursorOf ((protoFrom p).dropWhile f)) = (protoFrom p).dropWhile f := by
    intro n
    induction n with
    | zero => intro p hp; cases p <;> simp [protoFrom, allProto] at hp ⊢ <;> rfl
    | succ n ih =>
      intro p hp
      by_cases hnone : p = .none
      · subst hnone; rfl
      · obtain ⟨q, p', h1, _⟩ := cursor_step ⟨true, true, .std⟩ p hnone
        rw [h1, List.dropWhile_cons]
        split
        · apply ih; rw [h1] at hp; simp at hp; exact hp
        · rw [← h1, cursorOf_protoFrom]
  exact h _ p (Nat.le_refl _)

theorem forPairs_eq (cfg : Cfg) (S : Serializer σ ω) (pairs : List (Bytes × Display))
    (p : OAuthParameter) (s : σ) :
    (do let (p, s) ← AssertSorted.forPairs cfg S pairs p s
        AssertSorted.whileNotNone cfg S 9 p s) = runCalls S (weave (protoFrom p) pairs) s := by
  induction pairs generalizing p s with
  | nil => simp [AssertSorted.forPairs, weave, whileNotNone_eq cfg S 9 p s (protoFrom_length p)]
  | cons kv rest ih =>
    obtain ⟨k, v⟩ := kv
    simp only [AssertSorted.forPairs, weave, whileLess_eq cfg S k 9 p s (protoFrom_length p),
      runCalls_append, bind_assoc, pure_bind, runCalls, Call.run]
    congr 1; funext s'
    congr 1; funext s''
    have := ih (cursorOf ((protoFrom p).dropWhile (fun q => cmpBytes q.name k == .lt))) s''
    rw [protoFrom_dropWhile] at this
    exact this

/-- `AssertSorted` makes the interleaved calls, whatever its pairs. -/
theorem isTrace_assertSorted (cfg : Cfg) (pairs : List (Bytes × Display)) :
    IsTrace (AssertSorted.request cfg pairs) (weave allProto pairs) := by
  intro σ ω S s
  have := forPairs_eq cfg S pairs .callback s
  simp only [AssertSorted.request, OAuthParameter.default]
  rw [show allProto = protoFrom .callback from rfl, ← this, bind_assoc]

theorem isTrace_parameterList (cfg : Cfg) (pairs : List Pair) :
    IsTrace (ParameterList.request cfg pairs) (weave allProto pairs) := by
  have : pairs.map (fun pair : Pair => (pair.1, pair.2)) = pairs := by simp
  rw [ParameterList.request, this]
  exact isTrace_assertSorted cfg pairs

/-! ### Properties of the interleaving -/

theorem weave_protos (ps : List Proto) (pairs : List (Bytes × Display)) :
    (weave ps pairs).filterMap Call.proto? = ps := by
  have hm : ∀ l : List Proto, (l.map Call.oauth).filterMap Call.proto? = l := by
    intro l; induction l with
    | nil => rfl
    | cons a l ih => simp [Call.proto?, ih]
  induction pairs generalizing ps with
  | nil => simp [weave, hm]
  | cons kv rest ih =>
    obtain ⟨k, v⟩ := kv
    simp only [weave, List.filterMap_append, hm, List.filterMap_cons, Call.proto?, ih]
    exact List.takeWhile_append_dropWhile

theorem weave_pairs (ps : List Proto) (pairs : List (Bytes × Display)) :
    (weave ps pairs).filterMap Call.pair? = pairs := by
  have hm : ∀ l : List Proto, (l.map Call.oauth).filterMap Call.pair? = [] := by
    intro l; induction l with
    | nil => rfl
    | cons a l ih => simp [Call.pair?]
  induction pairs generalizing ps with
  | nil => simp [weave, hm]
  | cons kv rest ih =>
    obtain ⟨k, v⟩ := kv
    simp [weave, List.filterMap_append, hm, Call.pair?, ih]

theorem weave_no_encoded (ps : List Proto) (pairs : List (Bytes × Display)) :
    ∀ c ∈ weave ps pairs, (∃ p, c = .oauth p) ∨ ∃ kv ∈ pairs, c = .parameter kv.1 kv.2 := by
  induction pairs generalizing ps with
  | nil => simp only [weave, List.mem_map]; rintro c ⟨p, _, rfl⟩; exact .inl ⟨p, rfl⟩
  | cons kv rest ih =>
    obtain ⟨k, v⟩ := kv
    intro c hc
    simp only [weave, List.mem_append, List.mem_map, List.mem_cons] at hc
    rcases hc with ⟨p, _, rfl⟩ | rfl | hc
    · exact .inl ⟨p, rfl⟩
    · exact .inr ⟨(k, v), by simp, rfl⟩
    · rcases ih _ c hc with h | ⟨kv, hkv, h⟩
      · exact .inl h
      · exact .inr ⟨kv, by simp [hkv], h⟩

theorem bytesLe_of_lt {a b : Bytes} (h : (cmpBytes a b == .lt) = true) : bytesLe a b = true := by
  simp only [beq_iff_eq] at h
  simp [bytesLe, h]

theorem bytesLe_of_not_lt {a b : Bytes} (h : ¬ (cmpBytes a b == .lt) = true) :
    bytesLe b a = true := by
  cases hh : bytesLe b a with
  | true => rfl
  | false => rw [not_bytesLe_iff] at hh; simp [hh] at h

/-- Interleaving ascending keys with ascending protocol parameters gives ascending keys. -/
theorem weave_sorted (ps : List Proto) (pairs : List (Bytes × Display))
    (hps : (ps.map Proto.name).Pairwise (fun a b => bytesLe a b = true))
    (hpairs : (pairs.map (·.1)).Pairwise (fun a b => bytesLe a b = true)) :
    ((weave ps pairs).map Call.key).Pairwise (fun a b => bytesLe a b = true) ∧
    ∀ c ∈ weave ps pairs, c.key ∈ ps.map Proto.name ∨ c.key ∈ pairs.map (·.1) := by
  induction pairs generalizing ps with
  | nil =>
    refine ⟨?_, ?_⟩
    · simpa [weave, Call.key, Function.comp_def] using hps
    · simp only [weave, List.mem_map]
      rintro c ⟨p, hp, rfl⟩
      exact .inl ⟨p, hp, rfl⟩
  | cons kv rest ih =>
    obtain ⟨k, v⟩ := kv
    simp only [List.map_cons, List.pairwise_cons] at hpairs
    obtain ⟨hk, hrest⟩ := hpairs
    have hsub : (ps.dropWhile (fun p => cmpBytes p.name k == .lt)).Sublist ps :=
      List.dropWhile_sublist _
    have hps' := hps.sublist (hsub.map Proto.name)
    obtain ⟨ih1, ih2⟩ := ih _ hps' hrest
    have hdrop : ∀ p ∈ ps.dropWhile (fun p => cmpBytes p.name k == .lt),
        bytesLe k p.name = true := by
      intro p hp
      generalize hd : ps.dropWhile (fun p => cmpBytes p.name k == .lt) = ds at hp hps'
      cases ds with
      | nil => simp at hp
      | cons q qs =>
        have hq : ¬ (cmpBytes q.name k == .lt) = true := by
          have := List.head_dropWhile_not (fun p : Proto => cmpBytes p.name k == .lt) (l := ps)
            (by rw [hd]; simp)
          simp only [hd, List.head_cons] at this
          simp [this]
        have hq' := bytesLe_of_not_lt hq
        rcases List.mem_cons.mp hp with rfl | hp
        · exact hq'
        · simp only [List.map_cons, List.pairwise_cons] at hps'
          exact bytesLe_trans hq' (hps'.1 _ (List.mem_map_of_mem hp))
    have hafter : ∀ c ∈ weave (ps.dropWhile (fun p => cmpBytes p.name k == .lt)) rest,
        bytesLe k c.key = true := by
      intro c hc
      rcases ih2 c hc with h | h
      · obtain ⟨p, hp, he⟩ := List.mem_map.mp h
        rw [← he]; exact hdrop p hp
      · exact hk _ h
    constructor
    · simp only [weave, List.map_append, List.map_map, List.map_cons, List.pairwise_append,
        List.pairwise_cons]
      refine ⟨?_, ⟨?_, ih1⟩, ?_⟩
      · have : (Call.key ∘ Call.oauth) = Proto.name := rfl
        rw [this]
        exact hps.sublist ((List.takeWhile_sublist _).map _)
      · intro a ha
        obtain ⟨c, hc, rfl⟩ := List.mem_map.mp ha
        exact hafter c hc
      · intro a ha b hb
        obtain ⟨p, hp, rfl⟩ := List.mem_map.mp ha
        have hlt : (cmpBytes p.name k == .lt) = true := by
          have := List.all_takeWhile (p := fun p : Proto => cmpBytes p.name k == .lt) (l := ps)
          exact List.all_eq_true.mp this p hp
        have hle : bytesLe p.name k = true := bytesLe_of_lt hlt
        rcases List.mem_cons.mp hb with rfl | hb
        · exact hle
        · obtain ⟨c, hc, rfl⟩ := List.mem_map.mp hb
          exact bytesLe_trans hle (hafter c hc)
    · intro c hc
      simp only [weave, List.mem_append, List.mem_map, List.mem_cons] at hc
      rcases hc with ⟨p, hp, rfl⟩ | rfl | hc
      · exact .inl (List.mem_map_of_mem ((List.takeWhile_sublist _).mem hp))
      · exact .inr (by simp [Call.key])
      · rcases ih2 c hc with h | h
        · exact .inl ((hsub.map _).mem h)
        · exact .inr (by simp only [List.map_cons, List.mem_cons]; exact .inr h)

theorem allProto_sorted : (allProto.map Proto.name).Pairwise (fun a b => bytesLe a b = true) := by
  decide +kernel

end OAuth
