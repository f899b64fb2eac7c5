import Verif.Model.Ordered
import Verif.Spec.Ordered
import Verif.Properties.Rfc
import Verif.Proofs.Decimal

/-
C94: ordered maps and sets as requests.
-/

namespace OAuth

open Spec Std

variable {K V S σ ω : Type} {cmp : K → K → Ordering}

/-! ### The map -/

/-- Each key is less than all later ones. -/
def Climbs (cmp : K → K → Ordering) (m : OrderedMap K V) : Prop :=
  m.Pairwise fun a b => cmp a.1 b.1 = .lt

theorem mem_insert_key (k : K) (v : V) (m : OrderedMap K V) (e : K × V)
    (h : e ∈ OrderedMap.insert cmp k v m) : e.1 = k ∨ ∃ e' ∈ m, e.1 = e'.1 := by
  induction m with
  | nil => simp only [OrderedMap.insert, List.mem_singleton] at h; subst h; exact .inl rfl
  | cons a m ih =>
    unfold OrderedMap.insert at h
    split at h
    · rcases List.mem_cons.mp h with rfl | h
      · exact .inl rfl
      · exact .inr ⟨e, h, rfl⟩
    · rcases List.mem_cons.mp h with rfl | h
      · exact .inr ⟨a, by simp, rfl⟩
      · exact .inr ⟨e, by simp [h], rfl⟩
    · rcases List.mem_cons.mp h with rfl | h
      · exact .inr ⟨e, by simp, rfl⟩
      · rcases ih h with h | ⟨e', he', h⟩
        · exact .inl h
        · exact .inr ⟨e', by simp [he'], h⟩

theorem mem_put_key (k : K) (v : V) (m : OrderedMap K V) (e : K × V)
    (h : e ∈ OrderedMap.put cmp k v m) : e.1 = k ∨ ∃ e' ∈ m, e.1 = e'.1 := by
  induction m with
  | nil => simp only [OrderedMap.put, List.mem_singleton] at h; subst h; exact .inl rfl
  | cons a m ih =>
    unfold OrderedMap.put at h
    split at h
    · rcases List.mem_cons.mp h with rfl | h
      · exact .inl rfl
      · exact .inr ⟨e, h, rfl⟩
    · rcases List.mem_cons.mp h with rfl | h
      · exact .inl rfl
      · exact .inr ⟨e, by simp [h], rfl⟩
    · rcases List.mem_cons.mp h with rfl | h
      · exact .inr ⟨e, by simp, rfl⟩
      · rcases ih h with h | ⟨e', he', h⟩
        · exact .inl h
        · exact .inr ⟨e', by simp [he'], h⟩

theorem lt_of_gt [OrientedCmp cmp] {a b : K} (h : cmp a b = .gt) : cmp b a = .lt :=
  OrientedCmp.gt_iff_lt.mp h

theorem climbs_insert [TransCmp cmp] (k : K) (v : V) {m : OrderedMap K V} (h : Climbs cmp m) :
    Climbs cmp (OrderedMap.insert cmp k v m) := by
  induction m with
  | nil => exact List.pairwise_singleton _ _
  | cons a m ih =>
    obtain ⟨h1, h2⟩ := List.pairwise_cons.mp h
    unfold OrderedMap.insert
    split
    · next hlt =>
      refine List.pairwise_cons.mpr ⟨fun e he => ?_, h⟩
      rcases List.mem_cons.mp he with rfl | he
      · exact hlt
      · exact TransCmp.lt_trans hlt (h1 e he)
    · exact List.pairwise_cons.mpr ⟨h1, h2⟩
    · next hgt =>
      refine List.pairwise_cons.mpr ⟨fun e he => ?_, ih h2⟩
      rcases mem_insert_key k v m e he with h | ⟨e', he', h⟩
      · rw [h]; exact lt_of_gt hgt
      · rw [h]; exact h1 e' he'

theorem climbs_put [TransCmp cmp] (k : K) (v : V) {m : OrderedMap K V} (h : Climbs cmp m) :
    Climbs cmp (OrderedMap.put cmp k v m) := by
  induction m with
  | nil => exact List.pairwise_singleton _ _
  | cons a m ih =>
    obtain ⟨h1, h2⟩ := List.pairwise_cons.mp h
    unfold OrderedMap.put
    split
    · next hlt =>
      refine List.pairwise_cons.mpr ⟨fun e he => ?_, h⟩
      rcases List.mem_cons.mp he with rfl | he
      · exact hlt
      · exact TransCmp.lt_trans hlt (h1 e he)
    · next heq =>
      exact List.pairwise_cons.mpr ⟨fun e he => TransCmp.lt_of_eq_of_lt heq (h1 e he), h2⟩
    · next hgt =>
      refine List.pairwise_cons.mpr ⟨fun e he => ?_, ih h2⟩
      rcases mem_put_key k v m e he with h | ⟨e', he', h⟩
      · rw [h]; exact lt_of_gt hgt
      · rw [h]; exact h1 e' he'

theorem remove_sublist (k : K) (m : OrderedMap K V) : (OrderedMap.remove cmp k m).Sublist m := by
  induction m with
  | nil => exact .refl _
  | cons a m ih =>
    unfold OrderedMap.remove
    split
    · exact .refl _
    · exact List.sublist_cons_self _ _
    · exact ih.cons_cons _

/-- The value found for a key. -/
def look (cmp : K → K → Ordering) (m : OrderedMap K V) (k : K) : Option V :=
  (m.find? fun e => cmp k e.1 == .eq).map (·.2)

theorem look_cons (a : K × V) (m : OrderedMap K V) (k : K) :
    look cmp (a :: m) k = if cmp k a.1 = .eq then some a.2 else look cmp m k := by
  unfold look
  by_cases h : cmp k a.1 = .eq
  · simp [h]
  · have : (cmp k a.1 == .eq) = false := by simpa using h
    simp [this, h]

theorem look_insert [TransCmp cmp] (k' : K) (v : V) (m : OrderedMap K V) (k : K) :
    look cmp (OrderedMap.insert cmp k' v m) k = if cmp k k' = .eq then some v else look cmp m k := by
  induction m with
  | nil => simp [OrderedMap.insert, look_cons]
  | cons a m ih =>
    unfold OrderedMap.insert
    split
    · rw [look_cons]
    · next heq =>
      rw [look_cons, look_cons, ← TransCmp.congr_right heq]
      split <;> rfl
    · next hgt =>
      rw [look_cons, look_cons, ih]
      by_cases h1 : cmp k a.1 = .eq
      · have : cmp k k' ≠ .eq := by
          intro h2
          rw [TransCmp.congr_left (OrientedCmp.eq_symm h2), h1] at hgt
          cases hgt
        rw [if_pos h1, if_neg this, if_pos h1]
      · rw [if_neg h1, if_neg h1]

theorem look_put [TransCmp cmp] (k' : K) (v : V) (m : OrderedMap K V) (k : K) :
    look cmp (OrderedMap.put cmp k' v m) k = if cmp k k' = .eq then some v else look cmp m k := by
  induction m with
  | nil => simp [OrderedMap.put, look_cons]
  | cons a m ih =>
    unfold OrderedMap.put
    split
    · rw [look_cons]
    · next heq =>
      rw [look_cons, look_cons, ← TransCmp.congr_right heq]
      split <;> rfl
    · next hgt =>
      rw [look_cons, look_cons, ih]
      by_cases h1 : cmp k a.1 = .eq
      · have : cmp k k' ≠ .eq := by
          intro h2
          rw [TransCmp.congr_left (OrientedCmp.eq_symm h2), h1] at hgt
          cases hgt
        rw [if_pos h1, if_neg this, if_pos h1]
      · rw [if_neg h1, if_neg h1]

theorem look_none_of_lt [TransCmp cmp] {m : OrderedMap K V} {k : K} (h : ∀ e ∈ m, cmp k e.1 = .lt) :
    look cmp m k = none := by
  induction m with
  | nil => rfl
  | cons a m ih =>
    rw [look_cons, if_neg (by rw [h a (by simp)]; decide), ih (fun e he => h e (by simp [he]))]

theorem look_remove [TransCmp cmp] (k' : K) {m : OrderedMap K V} (hm : Climbs cmp m) (k : K) :
    look cmp (OrderedMap.remove cmp k' m) k = if cmp k k' = .eq then none else look cmp m k := by
  induction m with
  | nil => simp [OrderedMap.remove, look]
  | cons a m ih =>
    obtain ⟨h1, h2⟩ := List.pairwise_cons.mp hm
    unfold OrderedMap.remove
    split
    · next hlt =>
      by_cases h : cmp k k' = .eq
      · rw [if_pos h]
        refine look_none_of_lt fun e he => ?_
        rcases List.mem_cons.mp he with rfl | he
        · rw [TransCmp.congr_left h]; exact hlt
        · rw [TransCmp.congr_left h]; exact TransCmp.lt_trans hlt (h1 e he)
      · rw [if_neg h]
    · next heq =>
      rw [look_cons]
      by_cases h : cmp k k' = .eq
      · rw [if_pos h]
        refine look_none_of_lt fun e he => ?_
        rw [TransCmp.congr_left h, TransCmp.congr_left heq]
        exact h1 e he
      · rw [if_neg h, if_neg (by rw [← TransCmp.congr_right heq]; exact h)]
    · next hgt =>
      rw [look_cons, look_cons, ih h2]
      by_cases h1 : cmp k a.1 = .eq
      · have : cmp k k' ≠ .eq := by
          intro h2
          rw [TransCmp.congr_left (OrientedCmp.eq_symm h2), h1] at hgt
          cases hgt
        rw [if_pos h1, if_neg this, if_pos h1]
      · rw [if_neg h1, if_neg h1]

theorem look_mem [TransCmp cmp] {m : OrderedMap K V} (hm : Climbs cmp m) (k : K) (v : V) :
    look cmp m k = some v ↔ ∃ k', cmp k k' = .eq ∧ (k', v) ∈ m := by
  induction m with
  | nil => simp [look]
  | cons a m ih =>
    obtain ⟨h1, h2⟩ := List.pairwise_cons.mp hm
    rw [look_cons]
    by_cases h : cmp k a.1 = .eq
    · rw [if_pos h]
      constructor
      · intro hv
        cases hv
        exact ⟨a.1, h, by simp⟩
      · rintro ⟨k', hk', hmem⟩
        rcases List.mem_cons.mp hmem with he | he
        · rw [← he]
        · have := h1 _ he
          rw [← TransCmp.congr_left h, hk'] at this
          cases this
    · rw [if_neg h, ih h2]
      constructor
      · rintro ⟨k', hk', hmem⟩
        exact ⟨k', hk', by simp [hmem]⟩
      · rintro ⟨k', hk', hmem⟩
        rcases List.mem_cons.mp hmem with he | he
        · rw [← he] at h; exact absurd hk' h
        · exact ⟨k', hk', he⟩

theorem lastGiven_concat (k : K) (l : List (K × V)) (e : K × V) :
    lastGiven cmp k (l ++ [e]) = if cmp k e.1 = .eq then some e.2 else lastGiven cmp k l := by
  unfold lastGiven
  rw [List.reverse_append]
  exact look_cons e l.reverse k

theorem extend_spec [TransCmp cmp] (l : List (K × V)) {m : OrderedMap K V} (hm : Climbs cmp m) :
    Climbs cmp (OrderedMap.extend cmp m l) ∧ ∀ k, look cmp (OrderedMap.extend cmp m l) k =
      match lastGiven cmp k l with
      | some v => some v
      | none => look cmp m k := by
  unfold OrderedMap.extend
  rw [← List.reverse_reverse l]
  generalize l.reverse = r
  induction r with
  | nil => exact ⟨hm, fun k => rfl⟩
  | cons e r ih =>
    rw [List.reverse_cons, List.foldl_append]
    refine ⟨climbs_insert _ _ ih.1, fun k => ?_⟩
    simp only [List.foldl_cons, List.foldl_nil]
    rw [look_insert, ih.2, lastGiven_concat]
    split <;> rfl

theorem fromIter_spec [TransCmp cmp] (l : List (K × V)) :
    Climbs cmp (OrderedMap.fromIter cmp l) ∧
      ∀ k, look cmp (OrderedMap.fromIter cmp l) k = lastGiven cmp k l := by
  unfold OrderedMap.fromIter
  rw [← List.reverse_reverse l]
  generalize l.reverse = r
  induction r with
  | nil => exact ⟨.nil, fun k => rfl⟩
  | cons e r ih =>
    rw [List.reverse_cons, List.foldl_append]
    refine ⟨climbs_put _ _ ih.1, fun k => ?_⟩
    simp only [List.foldl_cons, List.foldl_nil]
    rw [look_put, ih.2, lastGiven_concat]

/-- The map collected from pairs, after operations. -/
def OrderedMap.after (cmp : K → K → Ordering) (l : List (K × V)) (ops : List (MapOp K V)) :
    OrderedMap K V :=
  ops.foldl (fun m op =>
    match op with
    | .insert k v => OrderedMap.insert cmp k v m
    | .remove k => OrderedMap.remove cmp k m
    | .extend l => OrderedMap.extend cmp m l) (OrderedMap.fromIter cmp l)

/-- C94: after any history, each key is less than all later ones, and the value of a key is the one it was
given last. -/
theorem C94_entries [TransCmp cmp] (l : List (K × V)) (ops : List (MapOp K V)) :
    (OrderedMap.after cmp l ops).Pairwise (fun a b => cmp a.1 b.1 = .lt) ∧
    ∀ k v, held cmp l ops k = some v ↔ ∃ k', cmp k k' = .eq ∧ (k', v) ∈ OrderedMap.after cmp l ops := by
  have key : Climbs cmp (OrderedMap.after cmp l ops) ∧
      ∀ k, look cmp (OrderedMap.after cmp l ops) k = held cmp l ops k := by
    unfold OrderedMap.after held
    rw [← List.reverse_reverse ops]
    generalize ops.reverse = r
    induction r with
    | nil => exact fromIter_spec l
    | cons op r ih =>
      rw [List.reverse_cons]
      simp only [List.foldl_append, List.foldl_cons, List.foldl_nil]
      cases op with
      | insert k' v => exact ⟨climbs_insert _ _ ih.1, fun k => by rw [look_insert, ih.2]⟩
      | remove k' => exact ⟨ih.1.sublist (remove_sublist _ _), fun k => by rw [look_remove _ ih.1, ih.2]⟩
      | extend l' =>
        obtain ⟨h1, h2⟩ := extend_spec l' ih.1
        exact ⟨h1, fun k => by rw [h2, ih.2]; dsimp only; cases lastGiven cmp k l' <;> rfl⟩
  exact ⟨key.1, fun k v => by rw [← key.2, look_mem key.1]⟩

/-- A map with reserved characters: one value replaced, one key removed, one added. -/
def Case.mapOps : List (MapOp Bytes Display) :=
  [.insert b!"text" (.ofBytes b!"OAuth & Rust"), .remove b!"b", .extend [(b!"zone", .ofBytes b!"1")]]

def Case.mapInit : List (Bytes × Display) :=
  [(b!"text", .ofBytes b!"old"), (b!"article_id", .ofBytes b!"123456789"), (b!"b", .ofBytes b!"2")]

example : OrderedMap.after cmpBytes Case.mapInit Case.mapOps =
    [(b!"article_id", .ofBytes b!"123456789"), (b!"text", .ofBytes b!"OAuth & Rust"),
      (b!"zone", .ofBytes b!"1")] := by decide +kernel

/-! ### The order -/

instance : TransCmp cmpBytes where
  eq_swap {a b} := (cmpBytes_swap b a).symm
  isLE_trans {a b c} h1 h2 := by
    have e : ∀ x y : Bytes, (cmpBytes x y).isLE = true ↔ x ≤ y := by
      intro x y
      rw [← bytesLe_iff_le, bytesLe_iff_ne_gt]
      cases cmpBytes x y <;> decide
    rw [e] at *
    exact List.le_trans h1 h2

/-- The pairs a map sends. -/
def OrderedMap.pairs (asRef : K → Bytes) (display : V → Display) (m : OrderedMap K V) : List Pair :=
  m.map fun e => (asRef e.1, display e.2)

theorem climbs_ascending {asRef : K → Bytes} (h : OrderOfText cmp asRef) (display : V → Display)
    {m : OrderedMap K V} (hm : Climbs cmp m) :
    (m.pairs asRef display).Pairwise (fun a b => a.1 < b.1) := by
  unfold OrderedMap.pairs
  rw [List.pairwise_map]
  exact hm.imp (h _ _)

/-- C94: all maps with keys of a type are in the order the serializers need exactly if the order of the type
is that of its text. -/
theorem C94_in_order_iff [TransCmp cmp] (asRef : K → Bytes) :
    (∀ (l : List (K × Display)) (ops : List (MapOp K Display)),
      Ascending (shown Display.text ((OrderedMap.after cmp l ops).map fun e => (asRef e.1, e.2)))) ↔
    OrderOfText cmp asRef := by
  constructor
  · intro h a b hab
    have hba : cmp b a = .gt := OrientedCmp.gt_iff_lt.mpr hab
    have := h [(a, .ofBytes b!"1"), (b, .ofBytes b!"0")] []
    simp only [OrderedMap.after, OrderedMap.fromIter, OrderedMap.put, List.foldl_cons, List.foldl_nil, hba,
      shown, List.map_cons, List.map_nil, Ascending, List.pairwise_cons] at this
    rcases this.1 _ (List.mem_singleton.mpr rfl) with h | ⟨-, h⟩
    · exact h
    · exact absurd (show (b!"1" : Bytes) ≤ b!"0" from h) (by decide)
  · intro h l ops
    have := climbs_ascending h id (C94_entries l ops).1
    unfold Ascending shown
    rw [List.pairwise_map]
    exact this.imp .inl

/-- Strings are ordered as their text. -/
theorem C94_strings : OrderOfText cmpBytes (fun k => k) := fun a b h => (cmpBytes_lt_iff a b).mp h

example (ops : List (MapOp Bytes Display)) :
    Ascending (shown Display.text ((OrderedMap.after cmpBytes Case.mapInit ops).map fun e => (e.1, e.2))) :=
  (C94_in_order_iff (fun k => k)).mpr C94_strings _ _

/-- C94: a map whose keys are ordered as their text is sent as any `ParameterList` of the same pairs is,
however that was made. -/
theorem C94_as_list [TransCmp cmp] {asRef : K → Bytes} (h : OrderOfText cmp asRef) (display : V → Display)
    (cfg : Cfg) (l : List (K × V)) (ops : List (MapOp K V))
    (hok : ∀ e ∈ OrderedMap.after cmp l ops, (display e.2).outcome = .ok)
    {supplied current : List Pair} (hb : Built supplied current)
    (hp : supplied.Perm ((OrderedMap.after cmp l ops).map fun e => (asRef e.1, display e.2)))
    (S : Serializer σ ω) (hS : TextOnly S) (s : σ) :
    (OrderedMap.request cfg asRef display (OrderedMap.after cmp l ops)).serialize S s =
      (ParameterList.request cfg current).serialize S s := by
  have hm : Ascending (shown Display.text
      ((OrderedMap.after cmp l ops).map fun e => (asRef e.1, display e.2))) := by
    have := climbs_ascending h display (C94_entries l ops).1
    unfold Ascending shown
    rw [List.pairwise_map]
    exact this.imp .inl
  have hb' : Built ((OrderedMap.after cmp l ops).map fun e => (asRef e.1, display e.2))
      ((OrderedMap.after cmp l ops).map fun e => (asRef e.1, display e.2)) :=
    .fromSorted (by unfold ParameterList.fromSorted; rw [if_pos ((isSortedBy_iff _).mpr hm)])
  have := C08_permutation_invariance cfg hb' hb hp.symm (by
    intro p hp'
    obtain ⟨e, he, rfl⟩ := List.mem_map.mp hp'
    exact hok e he) S hS s
  rw [← this]
  unfold OrderedMap.request ParameterList.request
  rw [List.map_map]
  rfl

/-- The same pairs supplied in another order. -/
example (S : Serializer σ ω) (hS : TextOnly S) (s : σ) :
    (OrderedMap.request ⟨true, true, .std⟩ (fun k => k) (fun v => v)
      (OrderedMap.after cmpBytes Case.mapInit Case.mapOps)).serialize S s =
    (ParameterList.request ⟨true, true, .std⟩ (ParameterList.new .merge [(b!"zone", .ofBytes b!"1"),
      (b!"text", .ofBytes b!"OAuth & Rust"), (b!"article_id", .ofBytes b!"123456789")])).serialize S s := by
  have hm : OrderedMap.after cmpBytes Case.mapInit Case.mapOps =
      [(b!"article_id", .ofBytes b!"123456789"), (b!"text", .ofBytes b!"OAuth & Rust"),
        (b!"zone", .ofBytes b!"1")] := by decide +kernel
  exact C94_as_list C94_strings (fun v => v) _ Case.mapInit Case.mapOps
    (by rw [hm]; simp [Display.ofBytes]) (.new _ _) (by rw [hm]; decide +kernel) S hS s

/-- C94: the header of a map whose keys are ordered as their text (and need no encoding) is accepted by a
server that follows RFC 5849, whatever the values: a map has no parameter twice. -/
theorem C94_accepted [TransCmp cmp] {asRef : K → Bytes} (h : OrderOfText cmp asRef) {display : V → Display}
    {cfg : Cfg} {b : Builder Hmac} (hb : b.signatureMethod = hmacSha1) {l : List (K × V)}
    {ops : List (MapOp K V)} (hok : ∀ e ∈ OrderedMap.after cmp l ops, (display e.2).outcome = .ok)
    {method : Bytes}
    (hp : Plain ((OrderedMap.after cmp l ops).map fun e => (asRef e.1, display e.2)) method)
    {uri : Display} (huri : uri.outcome = .ok) {w w' : World} {out : Bytes}
    (hr : b.authorize cfg method uri (OrderedMap.request cfg asRef display (OrderedMap.after cmp l ops)) w =
      .ok (out, w'))
    {received : List (Bytes × Bytes)}
    (hrec : received.Perm ((OrderedMap.after cmp l ops).map fun e => (asRef e.1, (display e.2).text))) :
    rfcVerify Sha1.hash b.client.secret (b.token.map (·.secret)) method uri.text out received = true := by
  have hlt := climbs_ascending h display (C94_entries l ops).1
  generalize OrderedMap.after cmp l ops = m at *
  have hasc : Ascending (shown Display.text (m.pairs asRef display)) := by
    unfold Ascending shown
    rw [List.pairwise_map]
    exact hlt.imp .inl
  have hbuilt : Built (m.pairs asRef display) (m.pairs asRef display) :=
    .fromSorted (by unfold ParameterList.fromSorted; rw [if_pos ((isSortedBy_iff _).mpr hasc)])
  have hall : AllOk (m.pairs asRef display) := by
    intro p hp'
    obtain ⟨e, he, rfl⟩ := List.mem_map.mp hp'
    exact hok e he
  refine C07_rfc_server_accepts_partial (cfg := cfg) hb hbuilt hall hp ?_ huri (w := w) (w' := w') ?_ ?_
  · refine encodingKeepsOrder_of_distinct fun x hx y hy hxy => ?_
    have hne : (m.pairs asRef display).Pairwise (fun a b => a.1 ≠ b.1) :=
      hlt.imp fun h e => by rw [e] at h; exact List.lt_irrefl _ h
    by_cases he : x = y
    · rw [he]
    · have hg := List.pairwise_iff_getElem.mp hne
      obtain ⟨i, hi, rfl⟩ := List.mem_iff_getElem.mp hx
      obtain ⟨j, hj, rfl⟩ := List.mem_iff_getElem.mp hy
      rcases Nat.lt_trichotomy i j with hij | hij | hij
      · exact (hg i j hi hj hij hxy).elim
      · subst hij; exact (he rfl).elim
      · exact (hg j i hj hi hij hxy.symm).elim
  · rw [← hr]
    unfold ParameterList.request OrderedMap.request OrderedMap.pairs
    rw [List.map_map]
    rfl
  · unfold shown OrderedMap.pairs
    rw [List.map_map]
    exact hrec

theorem Case.mapPlain : Plain ((OrderedMap.after cmpBytes Case.mapInit Case.mapOps).map fun e =>
    (e.1, e.2)) b!"POST" := by
  have e : ((OrderedMap.after cmpBytes Case.mapInit Case.mapOps).map fun e => (e.1, e.2)) =
      [(b!"article_id", .ofBytes b!"123456789"), (b!"text", .ofBytes b!"OAuth & Rust"),
        (b!"zone", .ofBytes b!"1")] := by decide +kernel
  rw [e]
  refine ⟨by decide, fun x hx p => ?_, by decide, by decide, by decide⟩
  have : ∀ x ∈ [(b!"article_id", Display.ofBytes b!"123456789"), (b!"text", .ofBytes b!"OAuth & Rust"),
      (b!"zone", .ofBytes b!"1")], ∀ q ∈ allProto, x.1 ≠ q.name := by decide
  exact this x hx p (by cases p <;> decide)

/-! ### Any pairs -/

theorem emitted_keys (e : Env) (pairs : List Pair) :
    (pairs.map (·.1)).Sublist ((weave allProto pairs).filterMap (Call.emitted e)) := by
  have key : ∀ cs : List Call, (∀ c ∈ cs, (∃ p, c = .oauth p) ∨ ∃ k v, c = .parameter k v) →
      ((cs.filterMap Call.pair?).map (·.1)).Sublist (cs.filterMap (Call.emitted e)) := by
    intro cs hcs
    induction cs with
    | nil => exact .refl _
    | cons c cs ih =>
      have ih := ih (fun c hc => hcs c (by simp [hc]))
      rcases hcs c (by simp) with ⟨p, rfl⟩ | ⟨k, v, rfl⟩
      · simp only [List.filterMap_cons, Call.pair?, Call.emitted]
        by_cases h : e.sends p = true
        · simp only [h, if_true]; exact ih.cons _
        · simp only [h]; exact ih
      · simp only [List.filterMap_cons, Call.pair?, Call.emitted, List.map_cons]
        exact ih.cons_cons _
  have := key _ (weave_forms allProto pairs)
  rwa [weave_pairs] at this

theorem emitted_sublist_keys (e : Env) (cs : List Call) :
    (cs.filterMap (Call.emitted e)).Sublist (cs.map Call.key) := by
  induction cs with
  | nil => exact .refl _
  | cons c cs ih =>
    cases c with
    | parameter k v => simp only [List.filterMap_cons, Call.emitted, List.map_cons]; exact ih.cons_cons _
    | parameterEncoded k v =>
      simp only [List.filterMap_cons, Call.emitted, List.map_cons]; exact ih.cons_cons _
    | oauth p =>
      simp only [List.filterMap_cons, Call.emitted, List.map_cons]
      by_cases h : e.sends p = true
      · simp only [h, if_true]; exact ih.cons_cons _
      · simp only [h]; exact ih.cons _

theorem misordered_weave_iff (e : Env) (pairs : List Pair) :
    Misordered ((weave allProto pairs).filterMap (Call.emitted e)) ↔ Misordered (pairs.map (·.1)) := by
  rw [misordered_iff, misordered_iff]
  refine not_congr ?_
  constructor
  · exact fun h => h.sublist (emitted_keys e pairs)
  · exact fun h => (weave_sorted _ _ allProto_sorted h).1.sublist (emitted_sublist_keys e _)

/-- C94: with the pairs of any iterator, authorizing panics exactly if assertions are compiled in and
somewhere a name is followed by a smaller one; the order of values is never looked at. -/
theorem C94_any_pairs {cfg : Cfg} {b : Builder S} {name : Bytes} {un ut : Bool}
    {sig : Bytes → Bytes} (hs : b.Signs name un ut sig) {pairs : List Pair} (hok : AllOk pairs)
    (method : Bytes) {uri : Display} (huri : uri.outcome = .ok) (hq : (0x3F : UInt8) ∉ uri.text)
    (hclock : cfg.clock ≠ .none ∨ b.options.timestamp ≠ none) (w : World) :
    (cfg.alloc = true ∧ cfg.debug = true ∧ Misordered (pairs.map (·.1)) →
      b.authorize cfg method uri (AssertSorted.request cfg pairs) w = .error .keyOrder) ∧
    (¬ (cfg.alloc = true ∧ cfg.debug = true ∧ Misordered (pairs.map (·.1))) →
      ∃ res, b.authorize cfg method uri (AssertSorted.request cfg pairs) w = .ok res) := by
  have hcs : ∀ c ∈ weave allProto pairs, c.ok := weave_ok hok
  rw [← misordered_weave_iff (b.env name un ut)]
  constructor
  · intro hmis
    obtain ⟨add, s0, habs, h0, -⟩ := hs.run
    have hm : makeSign cfg b.signatureMethod method uri b.client b.token = .ok
        (add s0 (((openCalls method uri).map (SignCall.render name)).flatten)) := by
      rw [makeSign_ok_iff]
      refine ⟨fun _ => ⟨hq, huri⟩, s0, h0, habs.run _ ?_ s0⟩
      intro c hc
      simp only [openCalls, List.mem_cons, List.not_mem_nil, or_false] at hc
      rcases hc with rfl | rfl
      · rfl
      · simpa [SignCall.outcome] using huri
    rw [authorize_runWith]
    unfold Builder.runWith
    rw [hm]
    show ((AssertSorted.request cfg pairs).serialize
      (Authorizer.serializer cfg stringWriter b.signatureMethod.sign) _) w = _
    rw [isTrace_assertSorted]
    have := fun data s => (C14_misordered_keys (cfg := cfg) (sg := b.signatureMethod.sign)
      (e := b.env name un ut) hs.const hs.safe habs (fresh_new data s b name un ut) (weave allProto pairs) hcs
      hclock w).1 hmis
    simp only [bind, StateT.bind, Except.bind, this]
  · intro hmis
    rw [authorize_runWith]
    refine ⟨_, runWith_signs hs (isTrace_assertSorted cfg pairs) hcs _ method huri ⟨fun _ => ⟨hq, huri⟩, ?_, ?_⟩⟩
    · rintro ⟨h1, h2⟩
      obtain ⟨c, _, hc⟩ := List.any_eq_true.mp h2
      simp only [needsClock, Bool.and_eq_true, Builder.env] at hc
      rcases hclock with h | h
      · exact h h1
      · cases ho : b.options.timestamp with
        | none => exact h ho
        | some t => simp [ho] at hc
    · intro hc
      rw [itemsFrom_emitted cfg _ hs.safe]
      refine Classical.not_not.mp fun h => hmis ?_
      simp only [Cfg.checksOrder, Bool.and_eq_true] at hc
      exact ⟨hc.1, hc.2, (misordered_iff _).mpr h⟩

/-- C94: if names need no encoding, the base string of the pairs of any iterator is the one RFC 5849 describes
exactly if the pairs come in the order it asks for. -/
theorem C94_base_string_iff (cfg : Cfg) (b : Builder S) (name : Bytes) {pairs : List Pair} {method : Bytes}
    (hp : Plain pairs method) (uri : Display) (w : World) :
    b.base cfg name method uri (weave allProto pairs) w =
      rfcBase method uri.text (b.params cfg name w ++ shown Display.text pairs) ↔
    pairs.Pairwise (fun x y => x.1 < y.1 ∨ (x.1 = y.1 ∧ encode x.2.text ≤ encode y.2.text)) := by
  rw [base_eq_iff_ascending cfg b name (.refl _) hp.keys hp.methodUnreserved hp.methodUpper]
  generalize b.env name true true = e
  generalize w.nonce = n
  generalize w.time cfg = t
  obtain ⟨hf1, hf2⟩ := conveyed_sublist e n t pairs hp.notProto
  have hsk : ∀ p ∈ conveyed e n t pairs, encode p.1 = p.1 := by
    intro p hp'
    apply encode_of_unreserved
    rcases List.mem_append.mp ((conveyed_perm e n t pairs).mem_iff.mp hp') with h | h
    · obtain ⟨q, -, hq⟩ := List.mem_filterMap.mp h
      obtain ⟨v, -, rfl⟩ := Option.map_eq_some_iff.mp hq
      exact proto_name_unreserved q
    · obtain ⟨x, hx, rfl⟩ := List.mem_map.mp h
      exact hp.keys x hx
  have hasc : Ascending (encodePairs (conveyed e n t pairs)) ↔ (conveyed e n t pairs).Pairwise
      (fun a b => a.1 < b.1 ∨ (a.1 = b.1 ∧ encode a.2 ≤ encode b.2)) := by
    unfold Ascending encodePairs
    rw [List.pairwise_map]
    constructor <;> intro h <;> refine (List.Pairwise.and_mem.mp h).imp ?_
    · rintro a b ⟨h1, h2, h3⟩
      simpa [pairLe, hsk a h1, hsk b h2] using h3
    · rintro a b ⟨h1, h2, h3⟩
      simpa [pairLe, hsk a h1, hsk b h2] using h3
  have hshown : pairs.Pairwise (fun x y => x.1 < y.1 ∨ (x.1 = y.1 ∧ encode x.2.text ≤ encode y.2.text)) ↔
      (shown Display.text pairs).Pairwise
        (fun a b => a.1 < b.1 ∨ (a.1 = b.1 ∧ encode a.2 ≤ encode b.2)) := by
    unfold shown
    rw [List.pairwise_map]
  rw [hasc, hshown]
  constructor
  · intro h
    rw [← hf1]
    exact h.sublist List.filter_sublist
  · intro h
    have hkeys : (pairs.map (·.1)).Pairwise (fun a b => bytesLe a b = true) := by
      rw [← hshown] at h
      rw [List.pairwise_map]
      refine h.imp fun {a b} hab => ?_
      rw [bytesLe_iff_le]
      rcases hab with hab | ⟨e, -⟩
      · exact List.le_of_lt hab
      · rw [e]; exact List.le_refl _
    rw [List.pairwise_iff_forall_sublist]
    intro a b hab
    have hle := List.pairwise_iff_forall_sublist.mp (conveyed_keys e n t hkeys) hab
    rcases Classical.em (a.1 = b.1) with he | he
    · cases hpr : allProto.any fun q => q.name == a.1 with
      | true =>
        have hab' := hab.filter (fun p => allProto.any fun q => q.name == p.1)
        rw [hf2] at hab'
        have hp' : (allProto.any fun q => q.name == b.1) = true := by rw [← he]; exact hpr
        simp only [List.filter_cons, hpr, hp', if_true, List.filter_nil] at hab'
        exact absurd he (List.pairwise_iff_forall_sublist.mp (protocolParams_nodup e n t) hab')
      | false =>
        have hab' := hab.filter (fun p => !(allProto.any fun q => q.name == p.1))
        rw [hf1] at hab'
        have hp' : (allProto.any fun q => q.name == b.1) = false := by rw [← he]; exact hpr
        simp only [List.filter_cons, hpr, hp', Bool.not_false, if_true, List.filter_nil] at hab'
        exact List.pairwise_iff_forall_sublist.mp h hab'
    · left
      rcases Classical.em (a.1 < b.1) with h | h
      · exact h
      · exact absurd (List.le_antisymm hle (List.not_lt.mp h)) he

/-! ### Sets -/

variable {cmpV : V → V → Ordering}

instance [h1 : TransCmp cmp] [h2 : TransCmp cmpV] : TransCmp (cmpTuple cmp cmpV) :=
  haveI : TransCmp (fun a b : K × V => cmp a.1 b.1) :=
    { eq_swap := h1.eq_swap, isLE_trans := h1.isLE_trans }
  haveI : TransCmp (fun a b : K × V => cmpV a.2 b.2) :=
    { eq_swap := h2.eq_swap, isLE_trans := h2.isLE_trans }
  inferInstanceAs (TransCmp (compareLex (fun a b : K × V => cmp a.1 b.1) (fun a b => cmpV a.2 b.2)))

/-- C94: all sets of pairs of a string and a value of a type are in the order the serializers need exactly if
the values are ordered as what they display as. -/
theorem C94_set_in_order_iff [TransCmp cmpV] (display : V → Display) :
    (∀ (l : List ((Bytes × V) × Unit)) (ops : List (MapOp (Bytes × V) Unit)),
      Ascending (shown Display.text ((OrderedMap.after (cmpTuple cmpBytes cmpV) l ops).map fun e =>
        (e.1.1, display e.1.2)))) ↔
    ∀ v w, cmpV v w = .lt → (display v).text ≤ (display w).text := by
  constructor
  · intro h v w hvw
    have hwv : cmpV w v = .gt := OrientedCmp.gt_iff_lt.mpr hvw
    have := h [((b!"a", v), ()), ((b!"a", w), ())] []
    have e : cmpTuple cmpBytes cmpV (b!"a", w) (b!"a", v) = .gt := by
      unfold cmpTuple
      rw [hwv]; rfl
    simp only [OrderedMap.after, OrderedMap.fromIter, OrderedMap.put, List.foldl_cons, List.foldl_nil, e,
      shown, List.map_cons, List.map_nil, Ascending, List.pairwise_cons] at this
    rcases this.1 _ (List.mem_singleton.mpr rfl) with h | ⟨-, h⟩
    · exact absurd h (List.lt_irrefl _)
    · exact h
  · intro h l ops
    have := (C94_entries (cmp := cmpTuple cmpBytes cmpV) l ops).1
    unfold Ascending shown
    rw [List.pairwise_map, List.pairwise_map]
    refine this.imp fun {a b} hab => ?_
    unfold cmpTuple at hab
    unfold pairLe
    simp only
    cases hk : cmpBytes a.1.1 b.1.1 with
    | lt => exact .inl ((cmpBytes_lt_iff _ _).mp hk)
    | gt => rw [hk] at hab; cases hab
    | eq => rw [hk] at hab; exact .inr ⟨(cmpBytes_eq_iff _ _).mp hk, h _ _ hab⟩

example (l : List ((Bytes × Bytes) × Unit)) (ops : List (MapOp (Bytes × Bytes) Unit)) :
    Ascending (shown Display.text ((OrderedMap.after (cmpTuple cmpBytes cmpBytes) l ops).map fun e =>
      (e.1.1, Display.ofBytes e.1.2))) :=
  (C94_set_in_order_iff Display.ofBytes).mpr (fun v w h => by
    simpa [Display.ofBytes, Display.text] using List.le_of_lt ((cmpBytes_lt_iff v w).mp h)) l ops

/-! ### Numbers -/

/-- What a number displays as. -/
abbrev showNumber (n : Nat) : Display := .ofBytes (decimal n)

/-- C94: `Ord` is not enough. The set of `("a", 2)` and `("a", 10)` comes in the order of numbers; in debug
builds no assertion notices, and a server that follows RFC 5849 rejects the header. -/
theorem C94_numbers_as_values :
    let set := OrderedMap.after (cmpTuple cmpBytes (compare : Nat → Nat → Ordering))
      [((b!"a", 10), ()), ((b!"a", 2), ())] []
    let r := OrderedMap.setRequest ⟨true, true, .std⟩ (fun k => k) showNumber set
    ∃ out w', (exampleBuilder hmacSha1).authorize ⟨true, true, .std⟩ b!"GET" (.ofBytes b!"http://a/") r
        World.example = .ok (out, w') ∧
      rfcVerify Sha1.hash (exampleBuilder hmacSha1).client.secret
        ((exampleBuilder hmacSha1).token.map (·.secret)) b!"GET" b!"http://a/" out
        [(b!"a", b!"2"), (b!"a", b!"10")] = false := by
  intro set r
  have h : ((exampleBuilder hmacSha1).authorize ⟨true, true, .std⟩ b!"GET" (.ofBytes b!"http://a/") r
      World.example).toOption.map (fun res => rfcVerify Sha1.hash (exampleBuilder hmacSha1).client.secret
        ((exampleBuilder hmacSha1).token.map (·.secret)) b!"GET" b!"http://a/" res.1
        [(b!"a", b!"2"), (b!"a", b!"10")]) = some false := by decide +kernel
  cases hr : (exampleBuilder hmacSha1).authorize ⟨true, true, .std⟩ b!"GET" (.ofBytes b!"http://a/") r
      World.example with
  | error p => rw [hr] at h; cases h
  | ok res =>
    rw [hr] at h
    exact ⟨res.1, res.2, rfl, by simpa [Except.toOption] using h⟩

/-- C94: keys ordered as numbers. With the keys 2 and 10, every builder panics in debug builds, and in release
builds signs another base string than the one of RFC 5849. -/
theorem C94_numbers_as_keys {b : Builder S} {name : Bytes} {sig : Bytes → Bytes}
    (hs : b.Signs name true true sig) (clock : ClockSource) (hclock : clock ≠ .none) (w : World) :
    let map := OrderedMap.after (compare : Nat → Nat → Ordering) [(10, b!"x"), (2, b!"y")] []
    (b.authorize ⟨true, true, clock⟩ b!"GET" (.ofBytes b!"http://a/")
      (OrderedMap.request ⟨true, true, clock⟩ decimal .ofBytes map) w = .error .keyOrder) ∧
    (∃ res, b.authorize { alloc := true, debug := false, clock := clock } b!"GET" (.ofBytes b!"http://a/")
      (OrderedMap.request { alloc := true, debug := false, clock := clock } decimal .ofBytes map) w = .ok res) ∧
    b.base { alloc := true, debug := false, clock := clock } name b!"GET" (.ofBytes b!"http://a/")
        (weave allProto (map.map fun e => (decimal e.1, .ofBytes e.2))) w ≠
      rfcBase b!"GET" b!"http://a/" (b.params { alloc := true, debug := false, clock := clock } name w ++
        [(b!"2", b!"y"), (b!"10", b!"x")]) := by
  intro map
  have hmap : (map.map fun e => (decimal e.1, Display.ofBytes e.2)) =
      [(b!"2", .ofBytes b!"y"), (b!"10", .ofBytes b!"x")] := by decide +kernel
  have hok : AllOk [(b!"2", .ofBytes b!"y"), (b!"10", .ofBytes b!"x")] := by
    simp [AllOk, Display.ofBytes]
  unfold OrderedMap.request
  rw [hmap]
  refine ⟨(C94_any_pairs hs hok _ rfl (by decide) (.inl hclock) w).1 ⟨rfl, rfl, [], b!"2", b!"10", [], rfl,
      by decide⟩,
    (C94_any_pairs hs hok _ rfl (by decide) (.inl hclock) w).2 (by rintro ⟨-, h, -⟩; cases h), fun h => ?_⟩
  have hp : Plain [(b!"2", .ofBytes b!"y"), (b!"10", .ofBytes b!"x")] b!"GET" := by
    refine ⟨by decide, fun x hx p => ?_, by decide, by decide, by decide⟩
    exact (by decide : ∀ x ∈ [(b!"2", Display.ofBytes b!"y"), (b!"10", .ofBytes b!"x")],
      ∀ q ∈ allProto, x.1 ≠ q.name) x hx p (by cases p <;> decide)
  have := (C94_base_string_iff { alloc := true, debug := false, clock := clock } b name hp (.ofBytes b!"http://a/") w).mp h
  exact absurd this (by decide)

/-- HMAC-SHA1 signs. -/
example (w : World) : (exampleBuilder hmacSha1).authorize ⟨true, true, .std⟩ b!"GET" (.ofBytes b!"http://a/")
    (OrderedMap.request ⟨true, true, .std⟩ decimal .ofBytes
      (OrderedMap.after (compare : Nat → Nat → Ordering) [(10, b!"x"), (2, b!"y")] [])) w =
    .error .keyOrder :=
  (C94_numbers_as_keys (signs_hmac Sha1.hash (fun m => by rw [sha1_length]; decide) _ _) .std (by decide) w).1

/-- The map of the documentation with one more entry is authorized, and the header accepted. -/
example : ∃ out w', (exampleBuilder hmacSha1).authorize Case.cfg b!"POST" (.ofBytes b!"http://a/")
      (OrderedMap.request Case.cfg (fun k => k) (fun v => v)
        (OrderedMap.after cmpBytes Case.mapInit Case.mapOps)) Case.world = .ok (out, w') ∧
    rfcVerify Sha1.hash (exampleBuilder hmacSha1).client.secret
      ((exampleBuilder hmacSha1).token.map (·.secret)) b!"POST" b!"http://a/" out
      [(b!"text", b!"OAuth & Rust"), (b!"zone", b!"1"), (b!"article_id", b!"123456789")] = true := by
  have hm : OrderedMap.after cmpBytes Case.mapInit Case.mapOps =
      [(b!"article_id", .ofBytes b!"123456789"), (b!"text", .ofBytes b!"OAuth & Rust"),
        (b!"zone", .ofBytes b!"1")] := by decide +kernel
  obtain ⟨⟨out, w'⟩, h⟩ := (C94_any_pairs (cfg := Case.cfg) (b := exampleBuilder hmacSha1)
    (signs_hmac Sha1.hash (fun m => by rw [sha1_length]; decide) _ _)
    (pairs := [(b!"article_id", .ofBytes b!"123456789"), (b!"text", .ofBytes b!"OAuth & Rust"),
        (b!"zone", .ofBytes b!"1")]) (by simp [AllOk, Display.ofBytes]) b!"POST"
    (uri := .ofBytes b!"http://a/") rfl (by decide) (.inl (by decide)) Case.world).2 (by
      rintro ⟨-, -, h⟩; rw [misordered_iff] at h; exact h (by decide +kernel))
  refine ⟨out, w', ?_, C94_accepted (cfg := Case.cfg) (w := Case.world) (w' := w') C94_strings
    (display := fun v => v) (l := Case.mapInit) (ops := Case.mapOps) rfl ?_ Case.mapPlain
    (uri := .ofBytes b!"http://a/") rfl ?_ ?_⟩
  · rw [hm]; exact h
  · rw [hm]; simp [Display.ofBytes]
  · rw [hm]; exact h
  · rw [hm]; decide +kernel

end OAuth
