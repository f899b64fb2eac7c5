import Verif.Properties.BaseUri
import Verif.Properties.Exact

/-
C91: methods and names of every kind, and RFC 5849. (`C07` is about those that need no encoding.)
-/

namespace OAuth

open Spec

variable {S : Type}

theorem length_join (sep : Bytes) (l : List Bytes) :
    (join sep l).length = (l.map List.length).sum + sep.length * (l.length - 1) := by
  induction l with
  | nil => simp [join]
  | cons p l ih =>
    cases l with
    | nil => simp [join]
    | cons q l =>
      simp only [join, List.length_append, ih, List.map_cons, List.sum_cons, List.length_cons,
        Nat.add_sub_cancel]
      rw [Nat.mul_succ]
      omega

theorem upper_length (m : Bytes) : (upper m).length = m.length := by simp [upper]

theorem sum_le_sum {α : Type} {f g : α → Nat} {l : List α} (h : ∀ x ∈ l, f x ≤ g x) :
    (l.map f).sum ≤ (l.map g).sum := by
  induction l with
  | nil => simp
  | cons x l ih =>
    have := h x (by simp)
    have := ih fun x hx => h x (by simp [hx])
    simp only [List.map_cons, List.sum_cons]
    omega

theorem eq_of_sum_le {α : Type} {f g : α → Nat} {l : List α} (h : ∀ x ∈ l, f x ≤ g x)
    (hs : (l.map g).sum ≤ (l.map f).sum) : ∀ x ∈ l, f x = g x := by
  induction l with
  | nil => simp
  | cons x l ih =>
    have h1 := h x (by simp)
    have h2 := sum_le_sum (l := l) fun x hx => h x (by simp [hx])
    simp only [List.map_cons, List.sum_cons] at hs
    intro y hy
    rcases List.mem_cons.mp hy with rfl | hy
    · omega
    · exact ih (fun x hx => h x (by simp [hx])) (by omega) y hy

/-- The length of the parameters in a base string with names as they are. -/
theorem length_signed (l : List (Bytes × Bytes)) :
    (join b!"%26" ((l.map fun p => (p.1, encode (encode p.2))).map signedItem)).length =
      (l.map fun p => p.1.length + (3 + (encode (encode p.2)).length)).sum + 3 * (l.length - 1) := by
  rw [length_join, List.map_map, List.map_map, List.length_map, List.length_map]
  congr 2
  apply List.map_congr_left
  intro p _
  simp [signedItem]
  omega

/-- The length of the parameters in the base string of RFC 5849. -/
theorem length_normalized (l : List (Bytes × Bytes)) :
    (encode (normalizedParams l)).length =
      (l.map fun p => (encode (encode p.1)).length + (3 + (encode (encode p.2)).length)).sum +
        3 * (l.length - 1) := by
  have hs := (sortPairs_spec (encodePairs l)).1
  have e1 : encode b!"&" = b!"%26" := by decide
  have e2 : encode b!"=" = b!"%3D" := by decide
  rw [show normalizedParams l = join b!"&" ((sortPairs (encodePairs l)).map
    fun p => p.1 ++ b!"=" ++ p.2) from rfl, encode_join, length_join, e1, List.map_map, List.map_map,
    List.length_map, List.length_map, hs.length_eq]
  have h2 := (hs.map ((List.length ∘ encode) ∘ fun p : Bytes × Bytes => p.1 ++ b!"=" ++ p.2)).sum_nat
  rw [h2, encodePairs, List.map_map, List.length_map]
  congr 2
  apply List.map_congr_left
  intro p _
  simp only [Function.comp_apply, encode_append, e2, List.length_append]
  simp
  omega

/-- Of two members of a list whose members are related in order, one is related to the other. -/
theorem pairwise_or {α : Type} {R : α → α → Prop} {l : List α} (h : l.Pairwise R) {x y : α} (hx : x ∈ l)
    (hy : y ∈ l) (hne : x ≠ y) : R x y ∨ R y x := by
  induction h with
  | nil => cases hx
  | cons h _ ih =>
    rcases List.mem_cons.mp hx with ex | hx <;> rcases List.mem_cons.mp hy with ey | hy
    · exact absurd (ex.trans ey.symm) hne
    · exact .inl (ex ▸ h y hy)
    · exact .inr (ey ▸ h x hx)
    · exact ih hx hy

/-- A protocol parameter comes after the pairs with its name. -/
theorem weave_before (ps : List Proto) (l : List Pair) (hps : ps.Pairwise fun p q => p.name < q.name)
    (hl : (l.map (·.1)).Pairwise (fun a b => bytesLe a b = true)) :
    (weave ps l).Pairwise (fun c d => ∀ p, c = .oauth p → p.name < d.key) := by
  induction l generalizing ps with
  | nil =>
    rw [weave, List.pairwise_map]
    refine hps.imp ?_
    rintro a b h p ⟨⟩
    exact h
  | cons kv rest ih =>
    obtain ⟨k, v⟩ := kv
    simp only [List.map_cons, List.pairwise_cons] at hl
    have hsplit := List.takeWhile_append_dropWhile (p := fun p : Proto => cmpBytes p.name k == .lt) (l := ps)
    rw [weave, List.pairwise_append]
    refine ⟨?_, List.pairwise_cons.mpr ⟨fun d _ p h => (nomatch h),
      ih _ (hps.sublist (List.dropWhile_sublist _)) hl.2⟩, ?_⟩
    · rw [List.pairwise_map]
      refine (hps.sublist (List.takeWhile_sublist _)).imp ?_
      rintro a b h p ⟨⟩
      exact h
    · rintro c hc d hd p rfl
      obtain ⟨q, hq, ⟨⟩⟩ := List.mem_map.mp hc
      have hlt : p.name < k := by
        rw [← cmpBytes_lt_iff]
        have := List.all_takeWhile (p := fun p : Proto => cmpBytes p.name k == .lt) (l := ps)
        exact eq_of_beq (List.all_eq_true.mp this p hq)
      rcases List.mem_cons.mp hd with rfl | hd
      · exact hlt
      · rcases weave_no_encoded _ _ d hd with ⟨q, rfl⟩ | ⟨x, hx, rfl⟩
        · have hq' : q ∈ ps.dropWhile (fun p => cmpBytes p.name k == .lt) := by
            rw [← weave_protos (ps.dropWhile fun p => cmpBytes p.name k == .lt) rest]
            exact List.mem_filterMap.mpr ⟨_, hd, rfl⟩
          rw [← hsplit] at hps
          exact (List.pairwise_append.mp hps).2.2 p hq q hq'
        · have := hl.1 x.1 (List.mem_map_of_mem hx)
          rw [bytesLe_iff_le] at this
          rcases Classical.em (p.name < x.1) with h | h
          · exact h
          · exact absurd (List.lt_of_le_of_lt (List.le_trans this (List.not_lt.mp h)) hlt) (List.lt_irrefl _)

/-- No pair has the name of a protocol parameter that is sent, and a value that comes after its value. -/
def BeforeProtocol (l : List Pair) (params : List (Bytes × Bytes)) : Prop :=
  ∀ x ∈ l, ∀ p ∈ params, x.1 = p.1 → encode x.2.text ≤ encode p.2

/-- The pairs of the base string are in the order RFC 5849 asks for exactly if encoding keeps the order of
values of the same parameter, and pairs do not come after protocol parameters with their name. -/
theorem conveyed_ascending_iff_all (e : Env) (n : Bytes) (t : Nat) {l : List Pair}
    (ha : Ascending (shown Display.text l)) (hkeys : ∀ x ∈ l, ∀ b ∈ x.1, unreserved b = true) :
    Ascending (encodePairs (conveyed e n t l)) ↔
      EncodingKeepsOrder l ∧ BeforeProtocol l (e.protocolParams n t) := by
  have hsk : ∀ p ∈ conveyed e n t l, encode p.1 = p.1 := by
    intro p hp
    apply encode_of_unreserved
    rcases List.mem_append.mp ((conveyed_perm e n t l).mem_iff.mp hp) with h | h
    · obtain ⟨q, -, hq⟩ := List.mem_filterMap.mp h
      obtain ⟨v, -, rfl⟩ := Option.map_eq_some_iff.mp hq
      exact proto_name_unreserved q
    · obtain ⟨x, hx, rfl⟩ := List.mem_map.mp h
      exact hkeys x hx
  have hasc : Ascending (encodePairs (conveyed e n t l)) ↔
      (conveyed e n t l).Pairwise (fun a b => a.1 < b.1 ∨ (a.1 = b.1 ∧ encode a.2 ≤ encode b.2)) := by
    unfold Ascending encodePairs
    rw [List.pairwise_map]
    constructor <;> intro h <;> refine (List.Pairwise.and_mem.mp h).imp ?_
    · rintro a b ⟨h1, h2, h3⟩
      simpa [pairLe, hsk a h1, hsk b h2] using h3
    · rintro a b ⟨h1, h2, h3⟩
      simpa [pairLe, hsk a h1, hsk b h2] using h3
  have hbefore := weave_before allProto l (by decide +kernel) (ascending_keys ha)
  have hsorted := weave_keys_sorted ha
  rw [List.pairwise_map] at hsorted
  have hal : l.Pairwise fun x y => x.1 < y.1 ∨ (x.1 = y.1 ∧ x.2.text ≤ y.2.text) := by
    rw [Ascending, shown, List.pairwise_map] at ha
    exact ha.imp fun h => h
  rw [hasc, conveyed, List.pairwise_filterMap]
  constructor
  · intro h
    constructor
    · have hl : l.Pairwise fun x y => x.1 < y.1 ∨ (x.1 = y.1 ∧ encode x.2.text ≤ encode y.2.text) := by
        rw [← weave_pairs allProto l, List.pairwise_filterMap]
        refine (List.Pairwise.and_mem.mp h).imp ?_
        rintro c d ⟨hc, hd, hcd⟩ x hx y hy
        rcases weave_forms _ _ c hc with ⟨p, rfl⟩ | ⟨k, v, rfl⟩
        · cases hx
        rcases weave_forms _ _ d hd with ⟨p, rfl⟩ | ⟨k', v', rfl⟩
        · cases hy
        cases hx; cases hy
        exact hcd _ rfl _ rfl
      intro x hx y hy hk hle
      rcases Classical.em (x.2.text = y.2.text) with he | he
      · rw [he]; exact List.le_refl _
      · rcases pairwise_or (hl.and hal) hx hy (fun h => he (by rw [h])) with h | h
        · rcases h.1 with h | h
          · rw [hk] at h; exact absurd h (List.lt_irrefl _)
          · exact h.2
        · rcases h.2 with h | h
          · rw [hk] at h; exact absurd h (List.lt_irrefl _)
          · exact absurd (List.le_antisymm hle h.2) he
    · intro x hx p hp hk
      obtain ⟨q, hq, hv⟩ := List.mem_filterMap.mp hp
      obtain ⟨v, hv, rfl⟩ := Option.map_eq_some_iff.mp hv
      have h1 : Call.parameter x.1 x.2 ∈ weave allProto l := by
        have : x ∈ (weave allProto l).filterMap Call.pair? := by rw [weave_pairs]; exact hx
        obtain ⟨c, hc, hx'⟩ := List.mem_filterMap.mp this
        rcases weave_forms _ _ c hc with ⟨p, rfl⟩ | ⟨k, v, rfl⟩
        · cases hx'
        · cases hx'; exact hc
      have h2 : Call.oauth q ∈ weave allProto l := by
        have : q ∈ (weave allProto l).filterMap Call.proto? := by rw [weave_protos]; exact hq
        obtain ⟨c, hc, hx'⟩ := List.mem_filterMap.mp this
        rcases weave_forms _ _ c hc with ⟨p, rfl⟩ | ⟨k, v, rfl⟩
        · cases hx'; exact hc
        · cases hx'
      rcases pairwise_or (h.and hbefore) h1 h2 (by simp) with h | h
      · rcases h.1 _ rfl (q.name, v) (by simp [Call.effective, hv]) with h | h
        · simp only at hk h
          rw [hk] at h; exact absurd h (List.lt_irrefl _)
        · exact h.2
      · have := h.2 q rfl
        simp only at hk
        rw [Call.key, hk] at this
        exact absurd this (List.lt_irrefl _)
  · rintro ⟨hko, hbp⟩
    have hpl : (weave allProto l).Pairwise (fun c d => ∀ x, c.pair? = some x → ∀ y, d.pair? = some y →
        x.1 < y.1 ∨ (x.1 = y.1 ∧ x.2.text ≤ y.2.text)) := by
      rw [← List.pairwise_filterMap, weave_pairs]
      exact hal
    refine (List.Pairwise.and_mem.mp (hpl.and (hsorted.and hbefore))).imp ?_
    rintro c d ⟨hc, hd, hp, hs, hb⟩ x hx y hy
    have hmem : ∀ k v, Call.parameter k v ∈ weave allProto l → (k, v) ∈ l := by
      intro k v h
      rw [← weave_pairs allProto l]
      exact List.mem_filterMap.mpr ⟨_, h, rfl⟩
    rcases weave_forms _ _ c hc with ⟨p, rfl⟩ | ⟨k, v, rfl⟩
    · left
      obtain ⟨_, -, rfl⟩ := Option.map_eq_some_iff.mp hx
      have := hb p rfl
      rcases weave_forms _ _ d hd with ⟨q, rfl⟩ | ⟨k, v, rfl⟩
      · obtain ⟨_, -, rfl⟩ := Option.map_eq_some_iff.mp hy
        exact this
      · cases hy; exact this
    · cases hx
      rcases weave_forms _ _ d hd with ⟨q, rfl⟩ | ⟨k', v', rfl⟩
      · obtain ⟨u, hu, rfl⟩ := Option.map_eq_some_iff.mp hy
        rw [bytesLe_iff_le] at hs
        rcases Classical.em (k < q.name) with hlt | hlt
        · exact .inl hlt
        · have he : k = q.name := List.le_antisymm hs (List.not_lt.mp hlt)
          exact .inr ⟨he, hbp _ (hmem _ _ hc) (q.name, u) (List.mem_filterMap.mpr
            ⟨q, by cases q <;> decide, by simp [hu]⟩) he⟩
      · cases hy
        rcases hp _ rfl _ rfl with h | h
        · exact .inl h
        · exact .inr ⟨h.1, hko _ (hmem _ _ hc) _ (hmem _ _ hd) h.1 h.2⟩

/-- The condition on methods and names: unreserved characters only, and the method in upper case. -/
structure NeedsNoEncoding (supplied : List Pair) (method : Bytes) : Prop where
  keys : ∀ x ∈ supplied, ∀ b ∈ x.1, unreserved b = true
  methodUnreserved : ∀ b ∈ method, unreserved b = true
  methodUpper : upper method = method

/-- No request parameter has the name of a protocol parameter (see C62). -/
structure NotProtocol (supplied : List Pair) : Prop where
  notProto : ∀ x ∈ supplied, ∀ p : Proto, x.1 ≠ p.name
  notSignature : ∀ x ∈ supplied, x.1 ≠ b!"oauth_signature"

theorem beforeProtocol_of_notProto {cfg : Cfg} {b : Builder S} {name : Bytes} {w : World} {l : List Pair}
    (h : ∀ x ∈ l, ∀ p : Proto, x.1 ≠ p.name) : BeforeProtocol l (b.params cfg name w) := by
  intro x hx p hp he
  obtain ⟨q, -, hv⟩ := List.mem_filterMap.mp hp
  obtain ⟨_, -, rfl⟩ := Option.map_eq_some_iff.mp hv
  exact absurd he (h x hx q)

/-- C91, exactly, for every method and all names, also those of protocol parameters: the base string is that
of RFC 5849 if and only if method and names need no encoding, the method is in upper case, encoding keeps
the order of values, and no value comes after that of the protocol parameter with its name. Any signature
method. -/
theorem C91_base_string_iff (cfg : Cfg) (b : Builder S) (name : Bytes) {supplied current : List Pair}
    (hb : Built supplied current) (method : Bytes) (uri : Display) (w : World) :
    b.base cfg name method uri (weave allProto current) w =
      rfcBase method uri.text (b.params cfg name w ++ shown Display.text supplied) ↔
    NeedsNoEncoding supplied method ∧ EncodingKeepsOrder supplied ∧
      BeforeProtocol supplied (b.params cfg name w) := by
  obtain ⟨hp, ha⟩ := C19_always_sorted hb
  have key : NeedsNoEncoding supplied method →
      (b.base cfg name method uri (weave allProto current) w =
        rfcBase method uri.text (b.params cfg name w ++ shown Display.text supplied) ↔
      EncodingKeepsOrder supplied ∧ BeforeProtocol supplied (b.params cfg name w)) := by
    intro h
    have hk : ∀ x ∈ current, ∀ b ∈ x.1, unreserved b = true := fun x hx => h.keys x (hp.mem_iff.mp hx)
    rw [base_eq_iff_ascending cfg b name hp hk h.methodUnreserved h.methodUpper,
      conveyed_ascending_iff_all _ _ _ ha hk]
    simp only [EncodingKeepsOrder, BeforeProtocol, hp.mem_iff, Builder.params]
  refine ⟨fun h => ?_, fun h => (key h.1).mpr h.2⟩
  suffices hne : NeedsNoEncoding supplied method from ⟨hne, (key hne).mp h⟩
  let e := b.env name true true
  have hperm : (conveyed e w.nonce (w.time cfg) current).Perm
      (b.params cfg name w ++ shown Display.text supplied) :=
    (conveyed_perm _ _ _ _).trans ((hp.map _).append_left _)
  generalize hl : b.params cfg name w ++ shown Display.text supplied = l at h hperm
  have hlen := congrArg List.length h
  unfold Builder.base baseString rfcBase at hlen
  rw [conveyed_signed] at hlen
  simp only [List.length_append, length_signed, length_normalized] at hlen
  rw [show (conveyed (b.env name true true) w.nonce (w.time cfg) current).length = l.length from
      hperm.length_eq, show ((conveyed (b.env name true true) w.nonce (w.time cfg) current).map fun p =>
        p.1.length + (3 + (encode (encode p.2)).length)).sum = _ from (hperm.map _).sum_nat] at hlen
  have hm := encode_length_le (upper method)
  rw [upper_length] at hm
  have hle : ∀ p ∈ l, p.1.length + (3 + (encode (encode p.2)).length) ≤
      (encode (encode p.1)).length + (3 + (encode (encode p.2)).length) := by
    intro p _
    have h1 := encode_length_le p.1
    have h2 := encode_length_le (encode p.1)
    omega
  have hsum := sum_le_sum hle
  have heq := eq_of_sum_le hle (by omega)
  have hmu : ∀ x ∈ upper method, unreserved x = true :=
    unreserved_of_encode_length (by rw [upper_length]; omega)
  have hup : upper method = method := by
    unfold Builder.base baseString rfcBase at h
    rw [encode_of_unreserved hmu] at h
    simp only [List.append_assoc] at h
    exact ((List.append_inj h (by rw [upper_length])).1).symm
  refine ⟨fun x hx => ?_, by rw [← hup]; exact hmu, hup⟩
  have := heq (x.1, x.2.text) (by
    rw [← hl]
    exact List.mem_append.mpr (.inr (List.mem_map.mpr ⟨x, hx, rfl⟩)))
  simp only at this
  have h2 := encode_length_le (encode x.1)
  exact unreserved_of_encode_length (by omega)

/-- The shared case: its method and names need no encoding. -/
example : (Case.builder hmacSha1).base Case.cfg b!"HMAC-SHA1" b!"GET" (.ofBytes Case.uri) Case.calls
      Case.world =
    rfcBase b!"GET" Case.uri ((Case.builder hmacSha1).params Case.cfg b!"HMAC-SHA1" Case.world ++
      [(b!"a", b!"1 é"), (b!"p", b!"&=+"), (b!"p", b!"~%")]) :=
  have h := Case.plain b!"GET" (by decide)
  (C91_base_string_iff Case.cfg (Case.builder hmacSha1) _ Case.built _ _
    Case.world).mpr ⟨⟨h.keys, h.methodUnreserved, h.methodUpper⟩, Case.keepsOrder,
      beforeProtocol_of_notProto h.notProto⟩

/-- The same with the method in lower case. -/
example : (Case.builder hmacSha1).base Case.cfg b!"HMAC-SHA1" b!"get" (.ofBytes Case.uri) Case.calls
      Case.world ≠
    rfcBase b!"get" Case.uri ((Case.builder hmacSha1).params Case.cfg b!"HMAC-SHA1" Case.world ++
      [(b!"a", b!"1 é"), (b!"p", b!"&=+"), (b!"p", b!"~%")]) := by
  intro e
  have := ((C91_base_string_iff Case.cfg (Case.builder hmacSha1) _ Case.built _ _
    Case.world).mp e).1.methodUpper
  exact absurd this (by decide)

/-- C91, the claim: a server that follows RFC 5849 accepts the header returned for a request with any HTTP
method (a token, RFC 7231 section 4.1) and any names, apart from the findings of C07 and C62. -/
def C91_claim : Prop :=
  ∀ (cfg : Cfg) (b : Builder Hmac), b.signatureMethod = hmacSha1 →
  ∀ (supplied current : List Pair), Built supplied current → AllOk supplied → NotProtocol supplied →
    EncodingKeepsOrder supplied →
  ∀ (method : Bytes), IsToken method → ∀ (uri : Display), uri.outcome = .ok →
  ∀ (w w' : World) (out : Bytes),
    b.authorize cfg method uri (ParameterList.request cfg current) w = .ok (out, w') →
    rfcVerify Sha1.hash b.client.secret (b.token.map (·.secret)) method uri.text out
      (shown Display.text supplied) = true

/-- C91, where it holds: methods and names that need no encoding, the method in upper case (and names of
protocol parameters for values that do not come after theirs). What is missing is the others: the crate
writes them as they are. -/
theorem C91_partial {cfg : Cfg} {b : Builder Hmac} (hb : b.signatureMethod = hmacSha1)
    {supplied current : List Pair} (hbuilt : Built supplied current) (hok : AllOk supplied)
    (hs : ∀ x ∈ supplied, x.1 ≠ b!"oauth_signature") (hkeeps : EncodingKeepsOrder supplied)
    {method : Bytes} (he : NeedsNoEncoding supplied method) {uri : Display} (huri : uri.outcome = .ok)
    {w w' : World} (hbefore : BeforeProtocol supplied (b.params cfg b!"HMAC-SHA1" w)) {out : Bytes}
    (h : b.authorize cfg method uri (ParameterList.request cfg current) w = .ok (out, w'))
    {received : List (Bytes × Bytes)} (hrec : received.Perm (shown Display.text supplied)) :
    rfcVerify Sha1.hash b.client.secret (b.token.map (·.secret)) method uri.text out received = true :=
  rfcVerify_perm ((rfcVerify_eq hb hbuilt hok hs huri h).mpr
    (congrArg _ ((C91_base_string_iff cfg b _ hbuilt method uri w).mpr ⟨he, hkeeps, hbefore⟩))) hrec

/-- A method that is none of those of RFC 7231. -/
example : ∃ out w', (Case.builder hmacSha1).authorize Case.cfg b!"M-SEARCH" (.ofBytes Case.uri) Case.request
      Case.world = .ok (out, w') ∧
    rfcVerify Sha1.hash b!"client/secret" (some b!"token secret") b!"M-SEARCH" Case.uri out
      [(b!"a", b!"1 é"), (b!"p", b!"&=+"), (b!"p", b!"~%")] = true := by
  obtain ⟨out, w', h⟩ : ∃ out w', (Case.builder hmacSha1).authorize Case.cfg b!"M-SEARCH"
      (.ofBytes Case.uri) Case.request Case.world = .ok (out, w') := Case.ok_of_isSome (by decide +kernel)
  have hp := Case.plain b!"GET" (by decide)
  have he : NeedsNoEncoding Case.pairs b!"M-SEARCH" := ⟨hp.keys, by decide, by decide⟩
  exact ⟨out, w', h, C91_partial (b := Case.builder hmacSha1) rfl Case.built Case.ok
    hp.notSignature Case.keepsOrder he rfl (beforeProtocol_of_notProto hp.notProto) h (by decide)⟩

/-- A parameter called `oauth_version`. -/
example : ∃ out w', (Case.builder hmacSha1).authorize Case.cfg b!"GET" (.ofBytes Case.uri)
      (ParameterList.request Case.cfg [(b!"oauth_version", .ofBytes b!"")]) Case.world = .ok (out, w') ∧
    rfcVerify Sha1.hash b!"client/secret" (some b!"token secret") b!"GET" Case.uri out
      [(b!"oauth_version", b!"")] = true := by
  obtain ⟨out, w', h⟩ : ∃ out w', (Case.builder hmacSha1).authorize Case.cfg b!"GET" (.ofBytes Case.uri)
      (ParameterList.request Case.cfg [(b!"oauth_version", .ofBytes b!"")]) Case.world = .ok (out, w') :=
    Case.ok_of_isSome (by decide +kernel)
  refine ⟨out, w', h, C91_partial (b := Case.builder hmacSha1) rfl
    (supplied := [(b!"oauth_version", .ofBytes b!"")]) (.fromSorted (by decide +kernel))
    (by simp [AllOk, Display.ofBytes]) (by decide) (by unfold EncodingKeepsOrder; decide)
    ⟨by decide, by decide, by decide⟩ rfl ?_ h (by decide)⟩
  intro x hx p _ _
  obtain rfl := List.mem_singleton.mp hx
  exact List.nil_le _

/-- C91, for the others: the server accepts only if two different base strings have the same MAC. -/
theorem C91_otherwise {cfg : Cfg} {b : Builder Hmac} (hb : b.signatureMethod = hmacSha1)
    {supplied current : List Pair} (hbuilt : Built supplied current) (hok : AllOk supplied)
    (hs : ∀ x ∈ supplied, x.1 ≠ b!"oauth_signature") {method : Bytes} {uri : Display}
    (huri : uri.outcome = .ok) {w w' : World}
    (he : ¬ (NeedsNoEncoding supplied method ∧ EncodingKeepsOrder supplied ∧
      BeforeProtocol supplied (b.params cfg b!"HMAC-SHA1" w))) {out : Bytes}
    (h : b.authorize cfg method uri (ParameterList.request cfg current) w = .ok (out, w')) :
    let mac := hmac Sha1.hash (signingKey b.client.secret (b.token.map (·.secret)))
    let signed := b.base cfg b!"HMAC-SHA1" method uri (weave allProto current) w
    let expected := rfcBase method uri.text (b.params cfg b!"HMAC-SHA1" w ++ shown Display.text supplied)
    signed ≠ expected ∧
      (rfcVerify Sha1.hash b.client.secret (b.token.map (·.secret)) method uri.text out
        (shown Display.text supplied) = true ↔ mac signed = mac expected) :=
  ⟨fun e => he ((C91_base_string_iff cfg b _ hbuilt method uri w).mp e),
    rfcVerify_eq hb hbuilt hok hs huri h⟩

/-- A method with an exclamation mark, which is a token. -/
example : IsToken b!"LIST!" ∧ ¬ NeedsNoEncoding Case.pairs b!"LIST!" ∧
    ∃ out w', (Case.builder hmacSha1).authorize Case.cfg b!"LIST!" (.ofBytes Case.uri) Case.request
      Case.world = .ok (out, w') :=
  ⟨⟨by decide, by decide⟩, fun h => absurd h.methodUnreserved (by decide),
    Case.ok_of_isSome (by decide +kernel)⟩

/-- A parameter called `oauth_version` with a value after `1.0`. -/
example : ¬ BeforeProtocol [(b!"oauth_version", .ofBytes b!"2")]
      ((Case.builder hmacSha1).params Case.cfg b!"HMAC-SHA1" Case.world) ∧
    ∃ out w', (Case.builder hmacSha1).authorize Case.cfg b!"GET" (.ofBytes Case.uri)
      (ParameterList.request Case.cfg [(b!"oauth_version", .ofBytes b!"2")]) Case.world = .ok (out, w') :=
  ⟨fun h => absurd (h _ (List.mem_singleton.mpr rfl) (b!"oauth_version", b!"1.0") (by decide +kernel) rfl)
    (by decide), Case.ok_of_isSome (by decide +kernel)⟩

/-- The server rejects a request for a method and names, with these pairs and no others. -/
theorem rejected_of_mac {pairs : List Pair} {method : Bytes} (hm : IsToken method) (hok : AllOk pairs)
    (hbuilt : Built pairs pairs) (hn : NotProtocol pairs) (hk : EncodingKeepsOrder pairs)
    (hmac : let b : Builder Hmac := ⟨hmacSha1, .new b!"k" b!"s", none, .new⟩
      hmac Sha1.hash (signingKey b!"s" none) (b.base ⟨true, true, .std⟩ b!"HMAC-SHA1" method
        (.ofBytes b!"http://a/") (weave allProto pairs) World.example) ≠
      hmac Sha1.hash (signingKey b!"s" none) (rfcBase method b!"http://a/"
        (b.params ⟨true, true, .std⟩ b!"HMAC-SHA1" World.example ++ shown Display.text pairs))) :
    ¬ C91_claim := by
  intro h
  let cfg : Cfg := ⟨true, true, .std⟩
  let b : Builder Hmac := ⟨hmacSha1, .new b!"k" b!"s", none, .new⟩
  obtain ⟨hf, -⟩ := (C16_parameter_list_never_panics cfg hbuilt hok b.client none
    .new method (.inl (by decide)) World.example (⟨fun _ _ => some []⟩ : RsaOps Unit) ()
    (fun _ => rfl)).1
  obtain ⟨⟨⟨out, w'⟩, hres⟩, -⟩ := hf (.ofBytes b!"http://a/") rfl (by decide)
  have h1 := h cfg b rfl pairs pairs hbuilt hok hn hk method hm (.ofBytes b!"http://a/") rfl
    World.example w' out hres
  exact hmac ((rfcVerify_eq (b := b) rfl hbuilt hok hn.notSignature rfl hres).mp h1)

/-- C91 is false, of a method in lower case, -/
theorem C91_violated : ¬ C91_claim :=
  rejected_of_mac (pairs := []) (method := b!"get") ⟨by decide, by decide⟩ (by simp [AllOk])
    (.fromSorted (by decide +kernel)) ⟨by simp, by simp⟩ (by intro x hx; cases hx) (by decide +kernel)

/-- of a method with a character to encode (RFC 5849 section 3.4.1.1: "If the request uses a custom HTTP
method, it MUST be encoded"), -/
theorem C91_violated_custom_method : ¬ C91_claim :=
  rejected_of_mac (pairs := []) (method := b!"LIST!") ⟨by decide, by decide⟩ (by simp [AllOk])
    (.fromSorted (by decide +kernel)) ⟨by simp, by simp⟩ (by intro x hx; cases hx) (by decide +kernel)

/-- and of a name with a character to encode. -/
theorem C91_violated_name : ¬ C91_claim :=
  rejected_of_mac (pairs := [(b!"a[]", .ofBytes b!"1")]) (method := b!"GET") ⟨by decide, by decide⟩
    (by simp [AllOk, Display.ofBytes]) (.fromSorted (by decide +kernel))
    ⟨fun x hx p => by
      obtain rfl := List.mem_singleton.mp hx
      cases p <;> decide, by decide⟩
    (by unfold EncodingKeepsOrder; decide) (by decide +kernel)

/-! ### Forms -/

theorem decode_length_aux (n : Nat) : ∀ {s t : Bytes}, s.length ≤ n → decode s = some t →
    t.length ≤ s.length ∧ (t.length = s.length → (0x25 : UInt8) ∉ s) := by
  induction n with
  | zero =>
    intro s t hn h
    obtain rfl : s = [] := List.length_eq_zero_iff.mp (by omega)
    simp only [decode, Option.some.injEq] at h
    subst h
    simp
  | succ n ih =>
    intro s t hn h
    unfold decode at h
    split at h
    · simp only [Option.some.injEq] at h
      subst h
      simp
    · split at h
      · next hr =>
        simp only [List.length_cons] at hn
        obtain ⟨h1, -⟩ := ih (by omega) hr
        simp only [Option.some.injEq] at h
        subst h
        simp only [List.length_cons]
        exact ⟨by omega, fun e => by omega⟩
      · cases h
    · split at h
      · cases h
      · next he =>
        obtain ⟨r, hr, rfl⟩ := Option.map_eq_some_iff.mp h
        simp only [List.length_cons] at hn
        obtain ⟨h1, h2⟩ := ih (by omega) hr
        simp only [List.length_cons, List.mem_cons, not_or]
        exact ⟨by omega, fun e => ⟨fun h => he h.symm, h2 (by omega)⟩⟩

theorem decode_length {s t : Bytes} (h : decode s = some t) :
    t.length ≤ s.length ∧ (t.length = s.length → (0x25 : UInt8) ∉ s) :=
  decode_length_aux _ (Nat.le_refl _) h

theorem splitAll_length (sep : UInt8) (s : Bytes) : (splitAll sep s).length = s.count sep + 1 := by
  induction s with
  | nil => rfl
  | cons b s ih =>
    rw [splitAll, List.count_cons]
    split
    · next h => simp [ih, h]
    · next h =>
      split
      · next h0 => rw [h0] at ih; simp at ih
      · next p ps h0 => rw [h0] at ih; simp only [List.length_cons] at ih ⊢; simp [h]; omega

theorem count_joinForm (b : UInt8) (l : List Bytes) :
    (join [b] l).count b = (l.map (List.count b)).sum + (l.length - 1) := by
  induction l with
  | nil => simp [join]
  | cons p l ih =>
    cases l with
    | nil => simp [join]
    | cons q l =>
      simp only [join, List.count_append, ih, List.map_cons, List.sum_cons, List.length_cons]
      simp
      omega

theorem allSome_length {α β : Type} {f : α → Option β} {l : List α} {r : List β}
    (h : allSome f l = some r) : r.length = l.length := by
  induction l generalizing r with
  | nil => simp only [allSome, Option.some.injEq] at h; subst h; rfl
  | cons a l ih =>
    rw [allSome] at h
    split at h
    · next h1 h2 => cases h; simp [ih h2]
    · cases h

theorem splitFirst_prefix {sep : UInt8} {k t : Bytes} (h : sep ∈ k) :
    ∃ a c, splitFirst sep (k ++ t) = some (a, c) ∧ a.length < k.length := by
  induction k with
  | nil => cases h
  | cons b k ih =>
    rw [List.cons_append, splitFirst]
    split
    · exact ⟨_, _, rfl, by simp⟩
    · next hb =>
      rcases List.mem_cons.mp h with rfl | h
      · exact absurd rfl hb
      · obtain ⟨a, c, h1, h2⟩ := ih h
        exact ⟨b :: a, c, by rw [h1]; rfl, by simp [h2]⟩

/-- A name that can stand in a form as it is: without `&`, `=` and `%`. -/
def FormName (k : Bytes) : Prop := (0x26 : UInt8) ∉ k ∧ (0x3D : UInt8) ∉ k ∧ (0x25 : UInt8) ∉ k

theorem decode_formName {k : Bytes} (h : (0x25 : UInt8) ∉ k) : decode k = some k := by
  induction k with
  | nil => rfl
  | cons b k ih =>
    simp only [List.mem_cons, not_or] at h
    rw [decode, if_neg (fun e => h.1 e.symm), ih h.2]
    · rfl
    · intro _ _ _ e
      exact absurd e (fun e => h.1 e.symm)

theorem parseItem_iff (k v : Bytes) (hk : (0x26 : UInt8) ∉ k) :
    parseItem (k ++ b!"=" ++ encode v) = some (k, v) ↔ FormName k := by
  have e : k ++ b!"=" ++ encode v = k ++ 0x3D :: encode v := by simp
  rw [parseItem, e]
  constructor
  · intro h
    have h1 : (0x3D : UInt8) ∉ k := by
      intro hm
      obtain ⟨a, c, h1, h2⟩ := splitFirst_prefix (t := 0x3D :: encode v) hm
      rw [h1] at h
      simp only at h
      split at h
      · next x y h3 h4 =>
        simp only [Option.some.injEq, Prod.mk.injEq] at h
        have := (decode_length h3).1
        rw [h.1] at this
        omega
      · cases h
    rw [splitFirst_append h1] at h
    simp only [decode_encode] at h
    split at h
    · next x y h3 h4 =>
      simp only [Option.some.injEq, Prod.mk.injEq] at h
      have := (decode_length h3).2 (by rw [h.1])
      exact ⟨hk, h1, this⟩
    · cases h
  · rintro ⟨-, h1, h2⟩
    rw [splitFirst_append h1]
    simp only [decode_encode, decode_formName h2]

/-- C91, forms, exactly, for all names: the form returned by `to_form` is read as the pairs of the request if
and only if no name has one of `&`, `=` and `%` in it. -/
theorem C91_form_iff (cfg : Cfg) (pairs : List Pair) (hok : AllOk pairs) (w : World) :
    ∃ s, (Free.toForm (AssertSorted.request cfg pairs)).run w = .ok (s, w) ∧
      (parseForm s = some (shown Display.text pairs) ↔ ∀ p ∈ pairs, FormName p.1) := by
  refine ⟨_, C01_to_form cfg pairs hok w, ?_⟩
  clear hok
  rw [show (pairs.map fun p => p.1 ++ b!"=" ++ encode p.2.text) =
    (shown Display.text pairs).map fun p => p.1 ++ b!"=" ++ encode p.2 from by simp [shown],
    show (∀ p ∈ pairs, FormName p.1) ↔ ∀ p ∈ shown Display.text pairs, FormName p.1 from by
      simp only [shown, List.forall_mem_map]]
  generalize shown Display.text pairs = l
  have hitems : (∀ p ∈ l, (0x26 : UInt8) ∉ p.1) →
      (allSome parseItem (l.map fun p => p.1 ++ b!"=" ++ encode p.2) = some l ↔
        ∀ p ∈ l, FormName p.1) := by
    intro hl
    induction l with
    | nil => simp [allSome]
    | cons p l ih =>
      have ih := ih fun p hp => hl p (by simp [hp])
      have hi := parseItem_iff p.1 p.2 (hl p (by simp))
      rw [List.map_cons, allSome]
      constructor
      · intro h
        split at h
        · next h1 h2 =>
          simp only [Option.some.injEq, List.cons.injEq] at h
          rw [h.1] at h1
          rw [h.2] at h2
          intro q hq
          rcases List.mem_cons.mp hq with rfl | hq
          · exact hi.mp h1
          · exact ih.mp h2 q hq
        · cases h
      · intro h
        rw [hi.mpr (h p (by simp)), ih.mpr fun q hq => h q (by simp [hq])]
  cases l with
  | nil => simp [join, parseForm]
  | cons p l =>
    generalize hL : p :: l = L at hitems ⊢
    have hne : L ≠ [] := by rw [← hL]; simp
    have hs : join b!"&" (L.map fun p => p.1 ++ b!"=" ++ encode p.2) ≠ [] := by
      rw [← hL]
      intro h0
      have := congrArg List.length h0
      cases l <;> simp [join] at this
    have hsplit : (∀ p ∈ L, (0x26 : UInt8) ∉ p.1) →
        splitAll 0x26 (join b!"&" (L.map fun p => p.1 ++ b!"=" ++ encode p.2)) =
          L.map fun p => p.1 ++ b!"=" ++ encode p.2 := by
      intro h
      apply splitAll_join
      · simpa using hne
      · intro q hq
        obtain ⟨p, hp, rfl⟩ := List.mem_map.mp hq
        simp only [List.mem_append, not_or]
        exact ⟨⟨h p hp, by decide⟩, not_mem_encode _ (by decide)⟩
    rw [parseForm, if_neg hs]
    constructor
    · intro h
      have hc : ∀ p ∈ L, (0x26 : UInt8) ∉ p.1 := by
        have h1 := allSome_length h
        rw [splitAll_length, show (b!"&" : Bytes) = [0x26] from rfl, count_joinForm, List.length_map] at h1
        have h0 : 0 < L.length := List.length_pos_iff.mpr hne
        have h2 : ((L.map fun p => p.1 ++ b!"=" ++ encode p.2).map (List.count 0x26)).sum = 0 := by omega
        intro p hp hm
        have h3 := List.sum_eq_zero_iff_forall_eq_nat.mp h2 _ (List.mem_map.mpr ⟨_, List.mem_map.mpr ⟨p, hp, rfl⟩, rfl⟩)
        rw [List.count_eq_zero] at h3
        exact h3 (by simp [hm])
      rw [hsplit hc] at h
      exact (hitems hc).mp h
    · intro h
      have hc : ∀ p ∈ L, (0x26 : UInt8) ∉ p.1 := fun p hp => (h p hp).1
      rw [hsplit hc]
      exact (hitems hc).mpr h

/-- A name in brackets is read as it is, one with an escape is not. -/
example : FormName b!"a[]" ∧ ¬ FormName b!"a%5B" ∧
    AllOk [(b!"a[]", .ofBytes b!"1&2"), (b!"a%5B", .ofBytes b!"")] ∧
    parseForm b!"a[]=1%262" = some [(b!"a[]", b!"1&2")] ∧ parseForm b!"a%5B=" = some [(b!"a[", b!"")] :=
  ⟨by unfold FormName; decide, by unfold FormName; decide, by simp [AllOk, Display.ofBytes], by decide,
    by decide⟩

/-! ### C56, with any method, names and parameters -/

/-- The second of the three parts of two base strings of the same method. -/
theorem second_part {m x y p q : Bytes} (hx : (0x26 : UInt8) ∉ x) (hy : (0x26 : UInt8) ∉ y)
    (h : m ++ b!"&" ++ x ++ b!"&" ++ p = encode (upper m) ++ b!"&" ++ y ++ b!"&" ++ q) : x = y := by
  have hne : (0x26 : UInt8) ∉ encode (upper m) := not_mem_encode _ (by decide)
  have hl := encode_length_le (upper m)
  rw [upper_length] at hl
  have h' := h
  simp only [List.append_assoc, List.cons_append, List.nil_append] at h
  rcases List.append_eq_append_iff.mp h with ⟨a, ha, hb⟩ | ⟨a, ha, hb⟩
  · cases a with
    | nil =>
      simp only [List.nil_append, List.cons.injEq, true_and] at hb
      have h3 := congrArg (splitFirst 0x26) hb
      rw [splitFirst_append hx, splitFirst_append hy] at h3
      exact congrArg Prod.fst (Option.some.inj h3)
    | cons c a =>
      simp only [List.cons_append, List.cons.injEq] at hb
      exact absurd (by rw [ha, ← hb.1]; simp) hne
  · cases a with
    | nil =>
      simp only [List.nil_append, List.cons.injEq, true_and] at hb
      have h3 := congrArg (splitFirst 0x26) hb
      rw [splitFirst_append hx, splitFirst_append hy] at h3
      exact (congrArg Prod.fst (Option.some.inj h3)).symm
    | cons c a =>
      have := congrArg List.length ha
      simp only [List.length_append, List.length_cons] at this
      omega

/-- C56, whatever the request, the method and the parameters that the server collects: if the signed text
is the base string of RFC 5849, the URI is in normal form. -/
theorem C56_uri_part (cfg : Cfg) (b : Builder S) (name method : Bytes) (cs : List Call) {uri : Display}
    {u : Uri} (hu : u.Valid) (huri : uri.text = u.text) (w : World) (ps : List (Bytes × Bytes))
    (h : b.base cfg name method uri cs w = rfcBase method u.baseUri ps) : u.Normal := by
  rw [← baseUri_iff hu, ← huri]
  exact encode_injective (second_part (not_mem_encode _ (by decide)) (not_mem_encode _ (by decide)) h)

/-- C56, the warning of the documentation (lib.rs, `Builder::authorize` and others): the signature for a
URI with a query is wrong, also if the server collects the parameters in the query, and whichever they are. -/
theorem C56_query_wrong (cfg : Cfg) (b : Builder S) (name method : Bytes) (cs : List Call) {uri : Display}
    {u : Uri} (hu : u.Valid) {q : Bytes} (hq : u.query = some q) (huri : uri.text = u.text) (w : World)
    (ps : List (Bytes × Bytes)) :
    b.base cfg name method uri cs w ≠ rfcBase method u.baseUri ps := by
  intro h
  have := (C56_uri_part cfg b name method cs hu huri w ps h).query
  rw [hq] at this
  cases this

/-- A concrete case. -/
example : let u : Uri := { Case.parsedUri with query := some b!"b5=%3D" }
    u.Valid ∧ u.text = b!"http://example.com/a?b5=%3D" ∧
    (Case.builder hmacSha1).base Case.cfg b!"HMAC-SHA1" b!"GET" (.ofBytes u.text) Case.calls Case.world ≠
      rfcBase b!"GET" b!"http://example.com/a"
        ((Case.builder hmacSha1).params Case.cfg b!"HMAC-SHA1" Case.world ++
          [(b!"a", b!"1 é"), (b!"p", b!"&=+"), (b!"p", b!"~%"), (b!"b5", b!"=")]) :=
  have hv : ({ Case.parsedUri with query := some b!"b5=%3D" } : Uri).Valid :=
    { Case.parsedUri_valid with query := fun x hx => (by cases hx; decide) }
  ⟨hv, by decide, C56_query_wrong _ _ _ _ _ hv rfl (Display.text_ofBytes _) _ _⟩

/-- C56 and C91 together, exactly: for every method, all names and values and every http or https URI, the
signed text is the base string of RFC 5849 (with the base string URI of section 3.4.1.2) if and only if all
of these hold. -/
theorem C56_any_names_iff (cfg : Cfg) (b : Builder S) (name : Bytes) {supplied current : List Pair}
    (hb : Built supplied current) (method : Bytes) {uri : Display} {u : Uri} (hu : u.Valid)
    (huri : uri.text = u.text) (w : World) :
    b.base cfg name method uri (weave allProto current) w =
      rfcBase method u.baseUri (b.params cfg name w ++ shown Display.text supplied) ↔
    u.Normal ∧ NeedsNoEncoding supplied method ∧ EncodingKeepsOrder supplied ∧
      BeforeProtocol supplied (b.params cfg name w) := by
  constructor
  · intro h
    have hn := C56_uri_part cfg b name method _ hu huri w _ h
    refine ⟨hn, ?_⟩
    rw [← (baseUri_iff hu).mpr hn, ← huri] at h
    exact (C91_base_string_iff cfg b name hb method uri w).mp h
  · rintro ⟨hn, h⟩
    rw [← (baseUri_iff hu).mpr hn, ← huri]
    exact (C91_base_string_iff cfg b name hb method uri w).mpr h

/-- The shared case meets all four. -/
example : (Case.builder hmacSha1).base Case.cfg b!"HMAC-SHA1" b!"GET" (.ofBytes Case.uri) Case.calls
      Case.world =
    rfcBase b!"GET" b!"http://example.com/a"
      ((Case.builder hmacSha1).params Case.cfg b!"HMAC-SHA1" Case.world ++
        [(b!"a", b!"1 é"), (b!"p", b!"&=+"), (b!"p", b!"~%")]) :=
  have h := Case.plain b!"GET" (by decide)
  (C56_any_names_iff Case.cfg (Case.builder hmacSha1) _ Case.built _ Case.parsedUri_valid (by decide)
    Case.world).mpr ⟨Case.parsedUri_normal, ⟨h.keys, h.methodUnreserved, h.methodUpper⟩, Case.keepsOrder,
      beforeProtocol_of_notProto h.notProto⟩

end OAuth
