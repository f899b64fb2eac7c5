import Verif.Properties.Signature
import Verif.Spec.Rfc5849

/-
C07: a server that verifies signatures as RFC 5849 says.
-/

namespace OAuth

open Spec

/-! ### Sorting -/

theorem insertPair_perm (p : Bytes × Bytes) (l : List (Bytes × Bytes)) :
    (insertPair p l).Perm (p :: l) := by
  induction l with
  | nil => exact .refl _
  | cons q l ih =>
    unfold insertPair
    split
    · exact .refl _
    · exact (ih.cons q).trans (.swap _ _ _)

theorem insertPair_ascending (p : Bytes × Bytes) {l : List (Bytes × Bytes)} (h : Ascending l) :
    Ascending (insertPair p l) := by
  induction l with
  | nil => exact List.pairwise_singleton _ _
  | cons q l ih =>
    have hq := List.pairwise_cons.mp h
    unfold insertPair
    split
    · next hle =>
      refine List.pairwise_cons.mpr ⟨?_, h⟩
      intro x hx
      rcases List.mem_cons.mp hx with rfl | hx
      · exact hle
      · exact pairLe_trans hle (hq.1 x hx)
    · next hle =>
      refine List.pairwise_cons.mpr ⟨?_, ih hq.2⟩
      intro x hx
      rcases List.mem_cons.mp ((insertPair_perm p l).mem_iff.mp hx) with rfl | hx
      · exact (pairLe_total x q).resolve_left hle
      · exact hq.1 x hx

theorem sortPairs_spec (l : List (Bytes × Bytes)) :
    (sortPairs l).Perm l ∧ Ascending (sortPairs l) := by
  induction l with
  | nil => exact ⟨.refl _, List.Pairwise.nil⟩
  | cons p l ih =>
    exact ⟨(insertPair_perm p _).trans (ih.1.cons p), insertPair_ascending p ih.2⟩

theorem sortPairs_of_ascending {l l' : List (Bytes × Bytes)} (hp : l.Perm l') (ha : Ascending l) :
    sortPairs l' = l :=
  ascending_perm_eq (sortPairs_spec l').2 ha ((sortPairs_spec l').1.trans hp.symm)

/-! ### The parameters in the base string -/

/-- The pairs a parameter list and an environment put in the base string, in order. -/
def conveyed (e : Env) (n : Bytes) (t : Nat) (l : List Pair) : List (Bytes × Bytes) :=
  (weave allProto l).filterMap (Call.effective e n t)

theorem effective_split (e : Env) (n : Bytes) (t : Nat) (cs : List Call)
    (hcs : ∀ c ∈ cs, (∃ p, c = .oauth p) ∨ ∃ k v, c = .parameter k v) :
    (cs.filterMap (Call.effective e n t)).Perm
      ((cs.filterMap Call.proto?).filterMap (fun p => (e.value n t p).map fun v => (p.name, v)) ++
        shown Display.text (cs.filterMap Call.pair?)) := by
  induction cs with
  | nil => exact .refl _
  | cons c cs ih =>
    have ih := ih (fun c hc => hcs c (by simp [hc]))
    rcases hcs c (by simp) with ⟨p, rfl⟩ | ⟨k, v, rfl⟩
    · have h1 : (Call.oauth p :: cs).filterMap Call.proto? = p :: cs.filterMap Call.proto? := rfl
      have h2 : (Call.oauth p :: cs).filterMap Call.pair? = cs.filterMap Call.pair? := rfl
      rw [h1, h2, List.filterMap_cons, List.filterMap_cons, Call.effective]
      cases (e.value n t p) with
      | none => exact ih
      | some v => exact ih.cons _
    · have h1 : (Call.parameter k v :: cs).filterMap Call.proto? = cs.filterMap Call.proto? := rfl
      have h2 : (Call.parameter k v :: cs).filterMap Call.pair? = (k, v) :: cs.filterMap Call.pair? :=
        rfl
      rw [h1, h2, List.filterMap_cons, Call.effective]
      exact (ih.cons _).trans List.perm_middle.symm

theorem weave_forms (ps : List Proto) (l : List Pair) :
    ∀ c ∈ weave ps l, (∃ p, c = .oauth p) ∨ ∃ k v, c = .parameter k v := by
  intro c hc
  rcases weave_no_encoded ps l c hc with h | ⟨kv, -, h⟩
  · exact .inl h
  · exact .inr ⟨_, _, h⟩

theorem conveyed_perm (e : Env) (n : Bytes) (t : Nat) (l : List Pair) :
    (conveyed e n t l).Perm (e.protocolParams n t ++ shown Display.text l) := by
  have := effective_split e n t (weave allProto l) (weave_forms _ _)
  rwa [weave_protos, weave_pairs] at this

/-- In `conveyed`, pairs with the same key are either both pairs of the list (and in its order), or
the key is the name of a protocol parameter. -/
theorem conveyed_sublist (e : Env) (n : Bytes) (t : Nat) (l : List Pair)
    (hproto : ∀ x ∈ l, ∀ p : Proto, x.1 ≠ p.name) :
    (conveyed e n t l).filter (fun p => !(allProto.any fun q => q.name == p.1)) =
      shown Display.text l ∧
    (conveyed e n t l).filter (fun p => allProto.any fun q => q.name == p.1) =
      e.protocolParams n t := by
  have hmem : ∀ q : Proto, q ∈ allProto := by intro q; cases q <;> decide
  have key : ∀ cs : List Call, (∀ c ∈ cs, (∃ p, c = .oauth p) ∨ ∃ k v, c = .parameter k v) →
      (∀ x ∈ cs.filterMap Call.pair?, ∀ p : Proto, x.1 ≠ p.name) →
      (cs.filterMap (Call.effective e n t)).filter
        (fun p => !(allProto.any fun q => q.name == p.1)) =
          shown Display.text (cs.filterMap Call.pair?) ∧
      (cs.filterMap (Call.effective e n t)).filter (fun p => allProto.any fun q => q.name == p.1) =
        (cs.filterMap Call.proto?).filterMap (fun p => (e.value n t p).map fun v => (p.name, v)) := by
    intro cs hcs hk
    induction cs with
    | nil => exact ⟨rfl, rfl⟩
    | cons c cs ih =>
      have hcs' : ∀ c ∈ cs, (∃ p, c = .oauth p) ∨ ∃ k v, c = .parameter k v :=
        fun c hc => hcs c (by simp [hc])
      rcases hcs c (by simp) with ⟨p, rfl⟩ | ⟨k, v, rfl⟩
      · have h1 : (Call.oauth p :: cs).filterMap Call.proto? = p :: cs.filterMap Call.proto? := rfl
        have h2 : (Call.oauth p :: cs).filterMap Call.pair? = cs.filterMap Call.pair? := rfl
        rw [h2] at hk
        have ih := ih hcs' hk
        rw [h1, h2, List.filterMap_cons, List.filterMap_cons, Call.effective]
        cases (e.value n t p) with
        | none => exact ih
        | some v =>
          have : (allProto.any fun q => q.name == p.name) = true :=
            List.any_eq_true.mpr ⟨p, hmem p, by simp⟩
          simp only [Option.map_some, List.filter_cons, this, Bool.not_true, if_true, ih]
          exact ⟨rfl, trivial⟩
      · have h1 : (Call.parameter k v :: cs).filterMap Call.proto? = cs.filterMap Call.proto? := rfl
        have h2 : (Call.parameter k v :: cs).filterMap Call.pair? =
          (k, v) :: cs.filterMap Call.pair? := rfl
        rw [h2] at hk
        have ih := ih hcs' (fun x hx => hk x (by simp [hx]))
        rw [h1, h2, List.filterMap_cons, Call.effective]
        have : (allProto.any fun q => q.name == k) = false := by
          rw [List.any_eq_false]
          intro q _ hq
          exact hk (k, v) (by simp) q (by simpa using (beq_iff_eq.mp hq).symm)
        simp only [List.filter_cons, this, Bool.not_false, if_true, ih]
        exact ⟨rfl, rfl⟩
  have := key (weave allProto l) (weave_forms _ _) (by rw [weave_pairs]; exact hproto)
  rwa [weave_protos, weave_pairs] at this

theorem protocolParams_nodup (e : Env) (n : Bytes) (t : Nat) :
    (e.protocolParams n t).Pairwise (fun a b => a.1 ≠ b.1) := by
  unfold Env.protocolParams
  rw [List.pairwise_filterMap]
  have h : allProto.Pairwise (fun a b => a.name ≠ b.name) := by decide +kernel
  refine h.imp ?_
  intro a b hab x hx y hy
  simp only [Option.map_eq_some_iff] at hx hy
  obtain ⟨_, _, rfl⟩ := hx
  obtain ⟨_, _, rfl⟩ := hy
  exact hab

theorem conveyed_keys (e : Env) (n : Bytes) (t : Nat) {l : List Pair}
    (hl : (l.map (·.1)).Pairwise (fun a b => bytesLe a b = true)) :
    (conveyed e n t l).Pairwise (fun a b => a.1 ≤ b.1) := by
  have h := (weave_sorted _ _ allProto_sorted hl).1
  rw [List.pairwise_map] at h
  unfold conveyed
  rw [List.pairwise_filterMap]
  refine (List.Pairwise.and_mem.mp h).imp ?_
  rintro a b ⟨ha', hb', hab⟩ x hx y hy
  have hkey : ∀ c ∈ weave allProto l, ∀ x, Call.effective e n t c = some x → x.1 = c.key := by
    intro c hc x hx
    rcases weave_forms _ _ c hc with ⟨p, rfl⟩ | ⟨k, v, rfl⟩
    · simp only [Call.effective, Option.map_eq_some_iff] at hx
      obtain ⟨v, -, rfl⟩ := hx; rfl
    · simp only [Call.effective, Option.some.injEq] at hx
      subst hx; rfl
  rw [hkey a ha' x hx, hkey b hb' y hy, ← bytesLe_iff_le]
  exact hab

/-- The request's own pairs with equal names are ordered alike before and after encoding. -/
def EncodingKeepsOrder (l : List Pair) : Prop :=
  ∀ x ∈ l, ∀ y ∈ l, x.1 = y.1 → x.2.text ≤ y.2.text → encode x.2.text ≤ encode y.2.text

/-- Names and values encoded. -/
def encodePairs (l : List (Bytes × Bytes)) : List (Bytes × Bytes) :=
  l.map fun p => (encode p.1, encode p.2)

theorem encode_injective {x y : Bytes} (h : encode x = encode y) : x = y := by
  have := decode_encode x
  rw [h, decode_encode] at this
  simpa using this.symm

/-- The pairs of the base string are in the order RFC 5849 asks for exactly if encoding keeps the
order of values of the same parameter. -/
theorem conveyed_ascending_iff (e : Env) (n : Bytes) (t : Nat) {l : List Pair}
    (ha : Ascending (shown Display.text l)) (hkeys : ∀ x ∈ l, ∀ b ∈ x.1, unreserved b = true)
    (hproto : ∀ x ∈ l, ∀ p : Proto, x.1 ≠ p.name) :
    Ascending (encodePairs (conveyed e n t l)) ↔ EncodingKeepsOrder l := by
  obtain ⟨hf1, hf2⟩ := conveyed_sublist e n t l hproto
  have hsk : ∀ p ∈ conveyed e n t l, encode p.1 = p.1 := by
    intro p hp
    apply encode_of_unreserved
    rcases List.mem_append.mp ((conveyed_perm e n t l).mem_iff.mp hp) with h | h
    · obtain ⟨q, -, hq⟩ := List.mem_filterMap.mp h
      obtain ⟨v, -, rfl⟩ := Option.map_eq_some_iff.mp hq
      exact proto_name_unreserved q
    · obtain ⟨x, hx, rfl⟩ := List.mem_map.mp h
      exact hkeys x hx
  have hasc : Ascending (encodePairs (conveyed e n t l)) ↔
      (conveyed e n t l).Pairwise (fun a b => a.1 < b.1 ∨ (a.1 = b.1 ∧ encode a.2 ≤ encode b.2)) := by
    unfold Ascending encodePairs
    rw [List.pairwise_map]
    constructor <;> intro h <;> refine (List.Pairwise.and_mem.mp h).imp ?_
    · rintro a b ⟨h1, h2, h3⟩
      simpa [pairLe, hsk a h1, hsk b h2] using h3
    · rintro a b ⟨h1, h2, h3⟩
      simpa [pairLe, hsk a h1, hsk b h2] using h3
  rw [hasc]
  constructor
  · intro h x hx y hy hk hle
    rcases Classical.em (x.2.text = y.2.text) with he | he
    · rw [he]; exact List.le_refl _
    · -- `x` precedes `y` in the list
      have hsub : [(x.1, x.2.text), (y.1, y.2.text)].Sublist (shown Display.text l) := by
        have h1 : (x.1, x.2.text) ∈ shown Display.text l := List.mem_map.mpr ⟨x, hx, rfl⟩
        have h2 : (y.1, y.2.text) ∈ shown Display.text l := List.mem_map.mpr ⟨y, hy, rfl⟩
        obtain ⟨pre, post, hpp⟩ := List.append_of_mem h1
        rw [hpp] at h2 ha ⊢
        rcases List.mem_append.mp h2 with h2 | h2
        · have := (List.pairwise_append.mp ha).2.2 _ h2 (x.1, x.2.text) (by simp)
          rcases this with h3 | ⟨-, h3⟩
          · simp only [hk] at h3; exact absurd h3 (List.lt_irrefl _)
          · exact absurd (List.le_antisymm hle h3) he
        · rcases List.mem_cons.mp h2 with h2 | h2
          · exact absurd (congrArg Prod.snd h2).symm he
          · exact (List.singleton_sublist.mpr h2).cons_cons _ |>.trans (List.sublist_append_right _ _)
      rw [← hf1] at hsub
      have := List.pairwise_iff_forall_sublist.mp h (hsub.trans List.filter_sublist)
      rcases this with h3 | ⟨-, h3⟩
      · simp only [hk] at h3; exact absurd h3 (List.lt_irrefl _)
      · exact h3
  · intro hko
    rw [List.pairwise_iff_forall_sublist]
    intro a b hab
    have hle := List.pairwise_iff_forall_sublist.mp (conveyed_keys e n t (ascending_keys ha)) hab
    rcases Classical.em (a.1 = b.1) with he | he
    · right
      refine ⟨he, ?_⟩
      cases hp : allProto.any fun q => q.name == a.1 with
      | true =>
        have hab' := hab.filter (fun p => allProto.any fun q => q.name == p.1)
        rw [hf2] at hab'
        have hp' : (allProto.any fun q => q.name == b.1) = true := by rw [← he]; exact hp
        simp only [List.filter_cons, hp, hp', if_true, List.filter_nil] at hab'
        exact absurd he (List.pairwise_iff_forall_sublist.mp (protocolParams_nodup e n t) hab')
      | false =>
        have hab' := hab.filter (fun p => !(allProto.any fun q => q.name == p.1))
        rw [hf1] at hab'
        have hp' : (allProto.any fun q => q.name == b.1) = false := by rw [← he]; exact hp
        simp only [List.filter_cons, hp, hp', Bool.not_false, if_true, List.filter_nil] at hab'
        have h1 : a ∈ shown Display.text l := hab'.subset (by simp)
        have h2 : b ∈ shown Display.text l := hab'.subset (by simp)
        obtain ⟨x, hx, rfl⟩ := List.mem_map.mp h1
        obtain ⟨y, hy, rfl⟩ := List.mem_map.mp h2
        rcases List.pairwise_iff_forall_sublist.mp ha hab' with h3 | ⟨-, h3⟩
        · simp only at he
          simp only [he] at h3
          exact absurd h3 (List.lt_irrefl _)
        · exact hko x hx y hy he h3
    · left
      rcases Classical.em (a.1 < b.1) with h | h
      · exact h
      · exact absurd (List.le_antisymm hle (List.not_lt.mp h)) he

theorem conveyed_signed (e : Env) (n : Bytes) (t : Nat) (l : List Pair) :
    (weave allProto l).filterMap (Call.signed? e n t) =
      (conveyed e n t l).map fun p => (p.1, encode (encode p.2)) := by
  unfold conveyed
  have h := weave_forms allProto l
  generalize weave allProto l = cs at h
  induction cs with
  | nil => rfl
  | cons c cs ih =>
    have ih := ih (fun c hc => h c (by simp [hc]))
    rcases h c (by simp) with ⟨p, rfl⟩ | ⟨k, v, rfl⟩
    · rw [List.filterMap_cons, List.filterMap_cons, Call.effective, Call.signed?]
      cases e.value n t p with
      | none => exact ih
      | some v => simp only [Option.map_some, List.map_cons, ih]
    · rw [List.filterMap_cons, List.filterMap_cons, Call.effective, Call.signed?]
      simp only [List.map_cons, ih]

/-- What a request has to be for the crate and RFC 5849 to mean the same by its base string, apart
from the order of values of the same parameter: names and method need no encoding and the method is
in upper case; the names of protocol parameters are not used for other purposes. -/
structure Plain (supplied : List Pair) (method : Bytes) : Prop where
  keys : ∀ x ∈ supplied, ∀ b ∈ x.1, unreserved b = true
  notProto : ∀ x ∈ supplied, ∀ p : Proto, x.1 ≠ p.name
  notSignature : ∀ x ∈ supplied, x.1 ≠ b!"oauth_signature"
  methodUnreserved : ∀ b ∈ method, unreserved b = true
  methodUpper : upper method = method

theorem parseForm_encodePairs (l : List (Bytes × Bytes)) :
    parseForm (join b!"&" ((encodePairs l).map fun p => p.1 ++ b!"=" ++ p.2)) = some l := by
  unfold parseForm
  cases l with
  | nil => rfl
  | cons a l =>
    rw [if_neg]
    · rw [splitAll_join (by simp [encodePairs])]
      · unfold encodePairs
        rw [List.map_map]
        generalize a :: l = l
        induction l with
        | nil => rfl
        | cons p l ih =>
          have hp : parseItem (encode p.1 ++ b!"=" ++ encode p.2) = some p := by
            have e : encode p.1 ++ b!"=" ++ encode p.2 = encode p.1 ++ 0x3D :: encode p.2 := by simp
            rw [parseItem, e, splitFirst_append (not_mem_encode _ (by decide))]
            simp only [decode_encode]
          simp only [List.map_cons, allSome, Function.comp_apply, hp, ih]
      · intro q hq
        simp only [encodePairs, List.map_map, List.mem_map] at hq
        obtain ⟨p, -, rfl⟩ := hq
        simp only [Function.comp_apply, List.mem_append, not_or]
        exact ⟨⟨not_mem_encode _ (by decide), by decide⟩, not_mem_encode _ (by decide)⟩
    · intro h0
      have := splitAll_join (sep := 0x26)
        (ps := (encodePairs (a :: l)).map fun p => p.1 ++ b!"=" ++ p.2) (by simp [encodePairs])
        (by
          intro q hq
          simp only [encodePairs, List.map_map, List.mem_map] at hq
          obtain ⟨p, -, rfl⟩ := hq
          simp only [Function.comp_apply, List.mem_append, not_or]
          exact ⟨⟨not_mem_encode _ (by decide), by decide⟩, not_mem_encode _ (by decide)⟩)
      have e : (b!"&" : Bytes) = [0x26] := rfl
      rw [← e, h0] at this
      simp only [splitAll, encodePairs, List.map_cons, List.cons.injEq] at this
      have := congrArg List.length this.1
      simp at this

theorem join_formItems_injective {l l' : List (Bytes × Bytes)}
    (h : join b!"&" ((encodePairs l).map fun p => p.1 ++ b!"=" ++ p.2) =
      join b!"&" ((encodePairs l').map fun p => p.1 ++ b!"=" ++ p.2)) : l = l' := by
  have h1 := parseForm_encodePairs l
  rw [h, parseForm_encodePairs l'] at h1
  simpa using h1.symm

theorem exists_encodePairs {l : List (Bytes × Bytes)}
    (h : ∀ x ∈ l, ∃ y : Bytes × Bytes, (encode y.1, encode y.2) = x) : ∃ l', encodePairs l' = l := by
  induction l with
  | nil => exact ⟨[], rfl⟩
  | cons x l ih =>
    obtain ⟨y, hy⟩ := h x (by simp)
    obtain ⟨l', hl'⟩ := ih (fun x hx => h x (by simp [hx]))
    exact ⟨y :: l', by rw [← hl', ← hy]; rfl⟩

variable {S : Type}

/-- With names and a method that need no encoding, the base string is the one of RFC 5849 exactly if its
pairs, encoded, ascend. -/
theorem base_eq_iff_ascending (cfg : Cfg) (b : Builder S) (name : Bytes) {supplied current : List Pair}
    (hperm : current.Perm supplied) {method : Bytes}
    (hkeys : ∀ x ∈ current, ∀ b ∈ x.1, unreserved b = true) (hmethod : ∀ b ∈ method, unreserved b = true)
    (hup : upper method = method) (uri : Display) (w : World) :
    b.base cfg name method uri (weave allProto current) w =
      rfcBase method uri.text (b.params cfg name w ++ shown Display.text supplied) ↔
    Ascending (encodePairs (conveyed (b.env name true true) w.nonce (w.time cfg) current)) := by
  let e := b.env name true true
  let c := conveyed e w.nonce (w.time cfg) current
  have hck : ∀ p ∈ c, ∀ x ∈ p.1, unreserved x = true := by
    intro p hp'
    rcases List.mem_append.mp ((conveyed_perm _ _ _ _).mem_iff.mp hp') with h | h
    · obtain ⟨q, -, hq⟩ := List.mem_filterMap.mp h
      obtain ⟨v, -, rfl⟩ := Option.map_eq_some_iff.mp hq
      exact proto_name_unreserved q
    · obtain ⟨x, hx, rfl⟩ := List.mem_map.mp h
      exact hkeys x hx
  have hbase : b.base cfg name method uri (weave allProto current) w =
      method ++ b!"&" ++ encode uri.text ++ b!"&" ++
        encode (join b!"&" ((encodePairs c).map fun p => p.1 ++ b!"=" ++ p.2)) := by
    unfold Builder.base baseString
    rw [conveyed_signed]
    have := join_signed_eq (c.map fun p => (p.1, encode p.2)) (by
      intro p hp'
      obtain ⟨q, hq, rfl⟩ := List.mem_map.mp hp'
      exact hck q hq)
    rw [List.map_map] at this ⊢
    have e1 : (signedItem ∘ fun p : Bytes × Bytes => (p.1, encode (encode p.2))) =
        ((fun p : Bytes × Bytes => signedItem (p.1, encode p.2)) ∘ fun p : Bytes × Bytes =>
          (p.1, encode p.2)) := rfl
    rw [e1, this]
    congr 3
    rw [encodePairs, List.map_map, List.map_map]
    apply List.map_congr_left
    intro p hp'
    simp only [Function.comp_apply, encode_of_unreserved (hck p hp')]
  have hrfc : rfcBase method uri.text (b.params cfg name w ++ shown Display.text supplied) =
      method ++ b!"&" ++ encode uri.text ++ b!"&" ++ encode (join b!"&"
        ((sortPairs (encodePairs (b.params cfg name w ++ shown Display.text supplied))).map
          fun p => p.1 ++ b!"=" ++ p.2)) := by
    rw [rfcBase, hup, encode_of_unreserved hmethod]
    rfl
  have hcperm : c.Perm (b.params cfg name w ++ shown Display.text supplied) :=
    (conveyed_perm _ _ _ _).trans ((hperm.map _).append_left _)
  have hsort := sortPairs_spec (encodePairs (b.params cfg name w ++ shown Display.text supplied))
  rw [hbase, hrfc]
  constructor
  · intro h
    have h := encode_injective (List.append_cancel_left h)
    obtain ⟨l', hl'⟩ := exists_encodePairs
      (l := sortPairs (encodePairs (b.params cfg name w ++ shown Display.text supplied))) (by
        intro x hx
        obtain ⟨y, -, hy⟩ := List.mem_map.mp (hsort.1.mem_iff.mp hx)
        exact ⟨y, hy⟩)
    rw [← hl'] at h
    have hc : c = l' := join_formItems_injective h
    change Ascending (encodePairs c)
    rw [hc, hl']
    exact hsort.2
  · intro h
    have hs := sortPairs_of_ascending (l' := encodePairs (b.params cfg name w ++
      shown Display.text supplied)) (hcperm.map _) h
    rw [hs]
    rfl

/-- C07, the base string: it is the one RFC 5849 describes exactly if percent-encoding does not change
the order of two values of the same parameter. Any signature method. -/
theorem C07_base_string_iff (cfg : Cfg) (b : Builder S) (name : Bytes) {supplied current : List Pair}
    (hb : Built supplied current) {method : Bytes} (hp : Plain supplied method) (uri : Display)
    (w : World) :
    b.base cfg name method uri (weave allProto current) w =
      rfcBase method uri.text (b.params cfg name w ++ shown Display.text supplied) ↔
    EncodingKeepsOrder supplied := by
  obtain ⟨hperm, ha⟩ := C19_always_sorted hb
  have hkeys : ∀ x ∈ current, ∀ b ∈ x.1, unreserved b = true :=
    fun x hx => hp.keys x (hperm.mem_iff.mp hx)
  have hproto : ∀ x ∈ current, ∀ p : Proto, x.1 ≠ p.name :=
    fun x hx => hp.notProto x (hperm.mem_iff.mp hx)
  have hord : EncodingKeepsOrder supplied ↔ EncodingKeepsOrder current := by
    simp only [EncodingKeepsOrder, hperm.mem_iff]
  rw [hord, base_eq_iff_ascending cfg b name hperm hkeys hp.methodUnreserved hp.methodUpper,
    conveyed_ascending_iff _ w.nonce (w.time cfg) ha hkeys hproto]

/-- The shared case: a repeated name, reserved characters. -/
theorem Case.plain (method : Bytes) (h : method ∈ [b!"GET", b!"POST"]) : Plain Case.pairs method :=
  ⟨by decide, fun x hx p => (by decide : ∀ x ∈ Case.pairs, ∀ q ∈ allProto, x.1 ≠ q.name) x hx p
      (by cases p <;> decide), by decide,
    (by decide : ∀ m ∈ [b!"GET", b!"POST"], ∀ b ∈ m, unreserved b = true) method h,
    (by decide : ∀ m ∈ [b!"GET", b!"POST"], upper m = m) method h⟩

theorem Case.keepsOrder : EncodingKeepsOrder Case.pairs := by unfold EncodingKeepsOrder; decide

example : (Case.builder hmacSha1).base Case.cfg b!"HMAC-SHA1" b!"GET" (.ofBytes Case.uri) Case.calls
      Case.world =
    rfcBase b!"GET" Case.uri ((Case.builder hmacSha1).params Case.cfg b!"HMAC-SHA1" Case.world ++
      [(b!"a", b!"1 é"), (b!"p", b!"&=+"), (b!"p", b!"~%")]) :=
  (C07_base_string_iff Case.cfg (Case.builder hmacSha1) _ Case.built (Case.plain _ (by decide)) _
    Case.world).mpr Case.keepsOrder

theorem collect_params (cfg : Cfg) (b : Builder S) (name : Bytes) (w : World) (sig : Bytes)
    {supplied : List Pair} (hs : ∀ x ∈ supplied, x.1 ≠ b!"oauth_signature") :
    collectParams (b.params cfg name w ++ [(b!"oauth_signature", sig)]) (shown Display.text supplied) =
      b.params cfg name w ++ shown Display.text supplied ∧
    single b!"oauth_signature" (b.params cfg name w ++ [(b!"oauth_signature", sig)]) = some sig := by
  have hn : ∀ x ∈ b.params cfg name w, x.1 ≠ b!"realm" ∧ x.1 ≠ b!"oauth_signature" := by
    intro x hx
    obtain ⟨q, -, hq⟩ := List.mem_filterMap.mp hx
    obtain ⟨v, -, rfl⟩ := Option.map_eq_some_iff.mp hq
    have : q.name ≠ b!"realm" ∧ q.name ≠ b!"oauth_signature" := by cases q <;> decide
    exact this
  have h1 : (b.params cfg name w).filter (fun p => p.1 != b!"realm") = b.params cfg name w :=
    List.filter_eq_self.mpr (fun x hx => by simp [(hn x hx).1])
  have h2 : (b.params cfg name w).filter (fun p => p.1 != b!"oauth_signature") =
      b.params cfg name w :=
    List.filter_eq_self.mpr (fun x hx => by simp [(hn x hx).2])
  have h3 : (shown Display.text supplied).filter (fun p => p.1 != b!"oauth_signature") =
      shown Display.text supplied := by
    refine List.filter_eq_self.mpr (fun x hx => ?_)
    obtain ⟨y, hy, rfl⟩ := List.mem_map.mp hx
    simp [hs y hy]
  have h4 : (b.params cfg name w).filter (fun p => p.1 == b!"oauth_signature") = [] := by
    refine List.filter_eq_nil_iff.mpr (fun x hx => ?_)
    simp [(hn x hx).2]
  constructor
  · have h5 : ([(b!"oauth_signature", sig)].filter fun p => p.1 != b!"realm").filter
        (fun p => p.1 != b!"oauth_signature") = [] := by
      rw [List.filter_filter]
      simp
    simp only [collectParams, List.filter_append, h1, h2, h3, h5, List.append_nil]
  · unfold single
    rw [List.filter_append, h4]
    rfl

/-- C07, the claim: the RFC 5849 verification succeeds on the header returned for a parameter list,
for names and methods that mean the same in both. -/
def C07_claim : Prop :=
  ∀ (cfg : Cfg) (b : Builder Hmac), b.signatureMethod = hmacSha1 →
  ∀ (supplied current : List Pair), Built supplied current → AllOk supplied →
  ∀ (method : Bytes), Plain supplied method → ∀ (uri : Display), uri.outcome = .ok →
  ∀ (w w' : World) (out : Bytes),
    b.authorize cfg method uri (ParameterList.request cfg current) w = .ok (out, w') →
    rfcVerify Sha1.hash b.client.secret (b.token.map (·.secret)) method uri.text out
      (shown Display.text supplied) = true

/-- What RFC 5849 verification of a returned header comes down to. -/
theorem rfcVerify_eq {cfg : Cfg} {b : Builder Hmac} (hb : b.signatureMethod = hmacSha1)
    {supplied current : List Pair} (hbuilt : Built supplied current) (hok : AllOk supplied)
    (hs : ∀ x ∈ supplied, x.1 ≠ b!"oauth_signature") {method : Bytes} {uri : Display}
    (huri : uri.outcome = .ok) {w w' : World} {out : Bytes}
    (h : b.authorize cfg method uri (ParameterList.request cfg current) w = .ok (out, w')) :
    let mac := hmac Sha1.hash (signingKey b.client.secret (b.token.map (·.secret)))
    rfcVerify Sha1.hash b.client.secret (b.token.map (·.secret)) method uri.text out
      (shown Display.text supplied) = true ↔
    mac (b.base cfg b!"HMAC-SHA1" method uri (weave allProto current) w) =
      mac (rfcBase method uri.text (b.params cfg b!"HMAC-SHA1" w ++ shown Display.text supplied)) := by
  intro mac
  have hok' : AllOk current := fun x hx => hok x ((C19_always_sorted hbuilt).1.mem_iff.mp hx)
  obtain ⟨b64, h1, -, h2⟩ := (C26_hmac_sha1_signature hb (isTrace_parameterList cfg current)
    (standard_weave current) (weave_ok hok') method w w' out).1 uri huri h
  obtain ⟨c1, c2⟩ := collect_params cfg b b!"HMAC-SHA1" w b64 hs
  unfold rfcVerify
  rw [h2]
  simp only [c1, c2, h1, beq_iff_eq, Option.some.injEq]
  rfl

/-- The order in which the server receives the pairs does not matter. -/
theorem rfcVerify_perm {H : Bytes → Bytes} {cs : Bytes} {ts : Option Bytes} {method uri out : Bytes}
    {received sent : List (Bytes × Bytes)} (h : rfcVerify H cs ts method uri out sent = true)
    (hrec : received.Perm sent) : rfcVerify H cs ts method uri out received = true := by
  have hsort : ∀ ps, rfcBase method uri (collectParams ps received) =
      rfcBase method uri (collectParams ps sent) := by
    intro ps
    have : (collectParams ps received).Perm (collectParams ps sent) :=
      (hrec.append_left _).filter _
    unfold rfcBase normalizedParams
    have hs : ∀ l l' : List (Bytes × Bytes), l.Perm l' → sortPairs l = sortPairs l' := by
      intro l l' hl
      exact sortPairs_of_ascending ((sortPairs_spec l').1.trans hl.symm) (sortPairs_spec l').2
    rw [hs _ _ (this.map fun p => (encode p.1, encode p.2))]
  unfold rfcVerify at h ⊢
  simp only [hsort]
  exact h

/-- C07, where it holds: if encoding keeps the order of values of the same parameter, a server that
follows RFC 5849 accepts the header returned for a parameter list, whatever the order in which it
receives the request's own pairs. What is missing is lists with values whose order changes. -/
theorem C07_rfc_server_accepts_partial {cfg : Cfg} {b : Builder Hmac}
    (hb : b.signatureMethod = hmacSha1) {supplied current : List Pair}
    (hbuilt : Built supplied current) (hok : AllOk supplied) {method : Bytes}
    (hp : Plain supplied method) (hkeeps : EncodingKeepsOrder supplied) {uri : Display}
    (huri : uri.outcome = .ok) {w w' : World} {out : Bytes}
    (h : b.authorize cfg method uri (ParameterList.request cfg current) w = .ok (out, w'))
    {received : List (Bytes × Bytes)} (hrec : received.Perm (shown Display.text supplied)) :
    rfcVerify Sha1.hash b.client.secret (b.token.map (·.secret)) method uri.text out received =
      true := by
  have := (rfcVerify_eq hb hbuilt hok hp.notSignature huri h).mpr
    (congrArg _ ((C07_base_string_iff cfg b b!"HMAC-SHA1" hbuilt hp uri w).mpr hkeeps))
  exact rfcVerify_perm this hrec

/-- The server receives the pairs in another order. -/
example : ∃ out w', (Case.builder hmacSha1).authorize Case.cfg b!"GET" (.ofBytes Case.uri) Case.request
      Case.world = .ok (out, w') ∧
    rfcVerify Sha1.hash b!"client/secret" (some b!"token secret") b!"GET" Case.uri out
      [(b!"p", b!"~%"), (b!"a", b!"1 é"), (b!"p", b!"&=+")] = true := by
  obtain ⟨out, w', h⟩ := Case.header
  exact ⟨out, w', h, C07_rfc_server_accepts_partial (b := Case.builder hmacSha1) rfl Case.built Case.ok
    (Case.plain _ (by decide)) Case.keepsOrder rfl h (by decide)⟩

/-- Encoding keeps the order if no parameter occurs twice, or if values need no encoding. -/
theorem encodingKeepsOrder_of_distinct {l : List Pair}
    (h : ∀ x ∈ l, ∀ y ∈ l, x.1 = y.1 → x.2.text = y.2.text) : EncodingKeepsOrder l := by
  intro x hx y hy hk _
  rw [h x hx y hy hk]
  exact List.le_refl _

theorem encodingKeepsOrder_of_unreserved {l : List Pair}
    (h : ∀ x ∈ l, ∀ b ∈ x.2.text, unreserved b = true) : EncodingKeepsOrder l := by
  intro x hx y hy _ hle
  rwa [encode_of_unreserved (h x hx), encode_of_unreserved (h y hy)]

/-- C07 is false: a server that follows RFC 5849 rejects the header for the pairs `a=z` and `a={`. -/
theorem C07_violated : ¬ C07_claim := by
  intro h
  let cfg : Cfg := ⟨true, true, .std⟩
  let b : Builder Hmac := ⟨hmacSha1, .new b!"k" b!"s", none, .new⟩
  let pairs : List Pair := [(b!"a", .ofBytes b!"z"), (b!"a", .ofBytes b!"{")]
  have hok : AllOk pairs := by simp [pairs, AllOk, Display.ofBytes]
  have hbuilt : Built pairs pairs := .fromSorted (by decide +kernel)
  have hplain : Plain pairs b!"GET" :=
    ⟨by decide, fun x hx p => by
      have : x.1 = b!"a" := (by decide : ∀ x ∈ pairs, x.1 = b!"a") x hx
      rw [this]; cases p <;> decide, by decide, by decide, by decide⟩
  obtain ⟨hf, -⟩ := (C16_parameter_list_never_panics cfg hbuilt hok b.client none
    .new b!"GET" (.inl (by decide)) World.example (⟨fun _ _ => some []⟩ : RsaOps Unit) ()
    (fun _ => rfl)).1
  obtain ⟨⟨⟨out, w'⟩, hres⟩, -⟩ := hf (.ofBytes b!"http://a/") rfl (by decide)
  have h1 := h cfg b rfl pairs pairs hbuilt hok b!"GET" hplain (.ofBytes b!"http://a/") rfl
    World.example w' out hres
  have h2 := (rfcVerify_eq (b := b) rfl hbuilt hok hplain.notSignature rfl hres).mp h1
  exact absurd h2 (by decide +kernel)

/-- A request with repeated names whose values need encoding but keep their order; and the RFC server's
view of a header, with the request's pairs received in another order. -/
def rfcPairs : List Pair :=
  [(b!"a", .ofBytes b!" 2"), (b!"a", .ofBytes b!"%"), (b!"a", .ofBytes b!"z"), (b!"q", .ofBytes b!"\"ä")]

example : Plain rfcPairs b!"GET" ∧ EncodingKeepsOrder rfcPairs ∧ Built rfcPairs rfcPairs ∧
    AllOk rfcPairs :=
  ⟨⟨by decide, fun x hx p => by
      have := (by decide : ∀ x ∈ rfcPairs, ∀ q ∈ allProto, x.1 ≠ q.name) x hx p
      exact this (by cases p <;> decide), by decide, by decide, by decide⟩,
    by unfold EncodingKeepsOrder; decide, .fromSorted (by decide +kernel), by simp [AllOk, rfcPairs, Display.ofBytes]⟩

example : ((exampleBuilder hmacSha1).authorize ⟨true, true, .std⟩ b!"GET" (.ofBytes b!"http://a/")
      (AssertSorted.request ⟨true, true, .std⟩ rfcPairs) World.example).toOption.map (fun r =>
        rfcVerify Sha1.hash (exampleBuilder hmacSha1).client.secret
          ((exampleBuilder hmacSha1).token.map (·.secret)) b!"GET" b!"http://a/" r.1
          (shown Display.text rfcPairs.reverse)) = some true := by decide +kernel
example : ((exampleBuilder hmacSha1).authorize ⟨true, true, .std⟩ b!"GET" (.ofBytes b!"http://a/")
      (AssertSorted.request ⟨true, true, .std⟩ rfcPairs) World.example).toOption.map (fun r =>
        rfcVerify Sha1.hash (exampleBuilder hmacSha1).client.secret
          ((exampleBuilder hmacSha1).token.map (·.secret)) b!"GET" b!"http://a/" r.1
          (shown Display.text rfcPairs.tail)) = some false := by decide +kernel

end OAuth
