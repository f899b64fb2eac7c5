import Verif.Properties.Encoding
import Verif.Properties.BaseString
import Verif.Properties.Form

/-
C04 for whole outputs: the values in a header, form, query and base string are encoded text, so the
delimiters in them are those of the format.
-/

namespace OAuth

open Spec

variable {S : Type}

theorem mem_sent {e : Env} {run : List (Call × Bytes × Nat)} {p : Bytes × Bytes}
    (h : p ∈ run.filterMap fun x => x.1.sent? e x.2.1 x.2.2) :
    (∃ q : Proto, p.1 = q.name) ∧ EncodedText p.2 := by
  obtain ⟨⟨c, n, t⟩, -, h⟩ := List.mem_filterMap.mp h
  cases c with
  | oauth q =>
    simp only [Call.sent?, Option.map_eq_some_iff] at h
    obtain ⟨v, -, rfl⟩ := h
    exact ⟨⟨q, rfl⟩, encode_encodedText v⟩
  | parameter => cases h
  | parameterEncoded => cases h

theorem mem_signed {e : Env} {run : List (Call × Bytes × Nat)} {p : Bytes × Bytes}
    (h : p ∈ run.filterMap fun x => x.1.signed? e x.2.1 x.2.2) :
    p.1 ∈ (run.map (·.1)).map Call.key ∧ EncodedText p.2 := by
  obtain ⟨⟨c, n, t⟩, hm, h⟩ := List.mem_filterMap.mp h
  have hk : c.key ∈ (run.map (·.1)).map Call.key :=
    List.mem_map_of_mem (List.mem_map.mpr ⟨_, hm, rfl⟩)
  cases c with
  | oauth q =>
    simp only [Call.signed?, Option.map_eq_some_iff] at h
    obtain ⟨v, -, rfl⟩ := h
    exact ⟨hk, encode_encodedText _⟩
  | parameter k v => cases h; exact ⟨hk, encode_encodedText _⟩
  | parameterEncoded k v => cases h; exact ⟨hk, encode_encodedText _⟩

/-- C04, for every signing algorithm and every request, whatever the values: the header, form and query
are protocol parameters with encoded values and the signature, in the respective layout; and the text
that is signed is the method, the encoded URI and the parameters with encoded values. -/
theorem C04_outputs (cfg : Cfg) (b : Builder S) {name : Bytes} {un ut : Bool}
    (hsg : ConstSign b.signatureMethod.sign name un ut) (hname : ∀ x ∈ name, unreserved x = true)
    {r : Request} {cs : List Call} (hr : IsTrace r cs) (method : Bytes) (uri : Display) (w : World) :
    ∃ (sent signed : List (Bytes × Bytes)) (uriText : Bytes) (L : List SignCall),
      (∀ p ∈ sent, (∃ q : Proto, p.1 = q.name) ∧ EncodedText p.2) ∧
      (∀ p ∈ signed, p.1 ∈ cs.map Call.key ∧ EncodedText p.2) ∧ EncodedText uriText ∧
      (L.map (SignCall.render name)).flatten = method ++ b!"&" ++ uriText ++ b!"&" ++
        join b!"%26" (signed.map fun p => p.1 ++ b!"%3D" ++ p.2) ∧
      (∀ out w', b.authorize cfg method uri r w = .ok (out, w') →
        ∃ s0 s sig, b.signatureMethod.signWith b.client.secret (b.token.map (·.secret)) = .ok s0 ∧
          runSign b.signatureMethod.sign L s0 = .ok s ∧ b.signatureMethod.sign.end s = .ok sig ∧
          out = headerText sent sig.text) ∧
      (∀ out w', b.toForm cfg method uri r w = .ok (out, w') →
        ∃ s0 s sig, b.signatureMethod.signWith b.client.secret (b.token.map (·.secret)) = .ok s0 ∧
          runSign b.signatureMethod.sign L s0 = .ok s ∧ b.signatureMethod.sign.end s = .ok sig ∧
          out = formText sent sig.text) ∧
      (∀ u, uri = .ofBytes u →
        ∀ out w', b.toQuery cfg stringWriter .ofBytes method u r w = .ok (out, w') →
        ∃ s0 s sig, b.signatureMethod.signWith b.client.secret (b.token.map (·.secret)) = .ok s0 ∧
          runSign b.signatureMethod.sign L s0 = .ok s ∧ b.signatureMethod.sign.end s = .ok sig ∧
          out = u ++ b!"?" ++ formText sent sig.text) := by
  obtain ⟨run, L, rfl, hL, h1, h2, h3⟩ := C06_base_string cfg b hsg hname hr method uri w
  exact ⟨_, _, _, L, fun p hp => mem_sent hp, fun p hp => mem_signed hp, encode_encodedText uri.text, hL,
    h1, h2, h3⟩

theorem EncodedText.chars {t : Bytes} (h : EncodedText t) : ∀ c ∈ t, encodedChar c = true := by
  have hu : ∀ c : UInt8, unreserved c = true → encodedChar c = true := by
    apply forall_byte; decide +kernel
  have hh : ∀ c : UInt8, c ∈ hexChars → encodedChar c = true := by
    apply forall_byte; decide +kernel
  induction h with
  | nil => simp
  | char hb _ ih =>
    intro c hc
    rcases List.mem_cons.mp hc with rfl | hc
    · exact hu _ hb
    · exact ih c hc
  | escape ha hb _ ih =>
    intro c hc
    simp only [List.mem_cons] at hc
    rcases hc with rfl | rfl | rfl | hc
    · decide
    · exact hh _ ha
    · exact hh _ hb
    · exact ih c hc

theorem EncodedText.count {t : Bytes} (h : EncodedText t) {x : UInt8} (hx : encodedChar x = false) :
    t.count x = 0 :=
  List.count_eq_zero.mpr fun hm => by rw [h.chars x hm] at hx; cases hx

theorem proto_name_count (q : Proto) : q.name.count 0x22 = 0 ∧ q.name.count 0x2C = 0 ∧
    q.name.count 0x26 = 0 ∧ q.name.count 0x3D = 0 := by cases q <;> decide

theorem count_join (x : UInt8) (sep : Bytes) (l : List Bytes) :
    (join sep l).count x = (l.map (List.count x)).sum + (l.length - 1) * sep.count x := by
  induction l with
  | nil => simp [join]
  | cons p l ih =>
    cases l with
    | nil => simp [join]
    | cons q l =>
      rw [join, List.count_append, List.count_append, ih]
      simp only [List.map_cons, List.sum_cons, List.length_cons, Nat.add_sub_cancel]
      rw [Nat.succ_mul]; omega

theorem sum_map_const {α : Type} (f : α → Nat) (k : Nat) (l : List α) (h : ∀ x ∈ l, f x = k) :
    (l.map f).sum = l.length * k := by
  induction l with
  | nil => simp
  | cons a l ih =>
    rw [List.map_cons, List.sum_cons, h a (by simp), ih fun x hx => h x (by simp [hx]), List.length_cons,
      Nat.succ_mul, Nat.add_comm]

/-- C04: in a header there are two quotes and (apart from the signature, which is last) one comma for each
parameter, and in a form one `=` for each and one `&` between two of them, besides any that the signature
has; whatever the values. -/
theorem C04_delimiters {sent : List (Bytes × Bytes)}
    (h : ∀ p ∈ sent, (∃ q : Proto, p.1 = q.name) ∧ EncodedText p.2) (sig : Bytes) :
    (headerText sent sig).count 0x22 = 2 * (sent.length + 1) + sig.count 0x22 ∧
    (headerText sent sig).count 0x2C = sent.length + sig.count 0x2C ∧
    (formText sent sig).count 0x26 = sent.length + sig.count 0x26 ∧
    (formText sent sig).count 0x3D = sent.length + 1 + sig.count 0x3D := by
  have hn : ∀ p ∈ sent, p.1.count 0x22 = 0 ∧ p.1.count 0x2C = 0 ∧ p.1.count 0x26 = 0 ∧
      p.1.count 0x3D = 0 ∧ p.2.count 0x22 = 0 ∧ p.2.count 0x2C = 0 ∧ p.2.count 0x26 = 0 ∧
      p.2.count 0x3D = 0 := by
    intro p hp
    obtain ⟨⟨q, hq⟩, he⟩ := h p hp
    obtain ⟨h1, h2, h3, h4⟩ := proto_name_count q
    rw [hq]
    exact ⟨h1, h2, h3, h4, he.count (by decide), he.count (by decide), he.count (by decide),
      he.count (by decide)⟩
  have hq : (sent.map (fun p => (headerItem p).count 0x22)).sum = sent.length * 2 := by
    refine sum_map_const _ _ _ fun p hp => ?_
    obtain ⟨h1, -, -, -, h2, -⟩ := hn p hp
    simp only [headerItem, List.count_append, h1, h2]; decide
  have hc : (sent.map (fun p => (headerItem p).count 0x2C)).sum = sent.length * 1 := by
    refine sum_map_const _ _ _ fun p hp => ?_
    obtain ⟨-, h1, -, -, -, h2, -⟩ := hn p hp
    simp only [headerItem, List.count_append, h1, h2]; decide
  have ha : (sent.map (fun p => (formItem p).count 0x26)).sum = sent.length * 0 := by
    refine sum_map_const _ _ _ fun p hp => ?_
    obtain ⟨-, -, h1, -, -, -, h2, -⟩ := hn p hp
    simp only [formItem, List.count_append, h1, h2]; decide
  have he : (sent.map (fun p => (formItem p).count 0x3D)).sum = sent.length * 1 := by
    refine sum_map_const _ _ _ fun p hp => ?_
    obtain ⟨-, -, -, h1, -, -, -, h2⟩ := hn p hp
    simp only [formItem, List.count_append, h1, h2]; decide
  have c1 : (b!"OAuth ").count 0x22 = 0 ∧ (b!"OAuth ").count 0x2C = 0 := by decide
  have c2 : (b!"oauth_signature=\"").count 0x22 = 1 ∧ (b!"oauth_signature=\"").count 0x2C = 0 := by decide
  have c3 : (b!"\"").count 0x22 = 1 ∧ (b!"\"").count 0x2C = 0 := by decide
  have c4 : (b!"oauth_signature").count 0x26 = 0 ∧ (b!"oauth_signature").count 0x3D = 0 := by decide
  have c5 : (b!"&").count 0x26 = 1 ∧ (b!"&").count 0x3D = 0 := by decide
  have c6 : (b!"=").count 0x26 = 0 ∧ (b!"=").count 0x3D = 1 := by decide
  refine ⟨?_, ?_, ?_, ?_⟩
  · simp only [headerText, List.count_append, List.count_flatten, List.map_map, Function.comp_def, hq,
      c1, c2, c3]
    omega
  · simp only [headerText, List.count_append, List.count_flatten, List.map_map, Function.comp_def, hc,
      c1, c2, c3]
    omega
  · simp only [formText, count_join, List.map_append, List.map_map, Function.comp_def, List.sum_append, ha,
      List.map_cons, List.map_nil, List.sum_cons, List.sum_nil, List.length_append, List.length_map,
      List.length_cons, List.length_nil, c5]
    simp only [formItem, List.count_append, c4, c6]
    omega
  · simp only [formText, count_join, List.map_append, List.map_map, Function.comp_def, List.sum_append, he,
      List.map_cons, List.map_nil, List.sum_cons, List.sum_nil, List.length_append, List.length_map,
      List.length_cons, List.length_nil, c5]
    simp only [formItem, List.count_append, c4, c6]
    omega

/-- C04 for plain forms: whatever the values, the form is one `key=value` for each pair, joined by `&`,
with encoded values (for values the crate encodes; pre-encoded ones are written as they are). -/
theorem C04_plain_form {r : Request} {cs : List Call} (h : IsTrace r cs) (hok : ∀ c ∈ cs, Call.ok c)
    (henc : ∀ k v, Call.parameterEncoded k v ∉ cs) (uri : Bytes) (w : World) :
    ∃ items : List (Bytes × Bytes), (∀ p ∈ items, EncodedText p.2) ∧
      items.map (·.1) = (cs.filterMap Call.pair?).map (·.1) ∧
      (Free.toForm r).run w = .ok (join b!"&" (items.map fun p => p.1 ++ b!"=" ++ p.2), w) ∧
      (Free.toQuery uri r).run w = .ok (if items = [] then uri else
        uri ++ b!"?" ++ join b!"&" (items.map fun p => p.1 ++ b!"=" ++ p.2), w) := by
  have e : cs.filterMap Call.formItem? =
      ((cs.filterMap Call.pair?).map fun p => (p.1, encode p.2.text)).map
        (fun p => p.1 ++ b!"=" ++ p.2) := by
    clear h hok
    induction cs with
    | nil => rfl
    | cons c cs ih =>
      have ih := ih (fun k v hm => henc k v (by simp [hm]))
      cases c with
      | parameter k v => simp [Call.formItem?, Call.pair?, ih]
      | parameterEncoded k v => exact absurd (by simp) (henc k v)
      | oauth p => exact ih
  have hf := C01_to_form_any_request h hok w
  rw [e] at hf
  refine ⟨_, ?_, by simp, hf, ?_⟩
  · intro p hp
    obtain ⟨x, -, rfl⟩ := List.mem_map.mp hp
    exact encode_encodedText _
  · rw [C13_to_query_of_to_form h uri w w _ hf]
    congr 2
    have hj : ∀ l : List (Bytes × Bytes),
        (join b!"&" (l.map fun p => p.1 ++ b!"=" ++ p.2) = [] ↔ l = []) := by
      intro l
      match l with
      | [] => simp [join]
      | [p] => simp [join]
      | p :: q :: l => simp [join]
    by_cases hl : ((cs.filterMap Call.pair?).map fun p => (p.1, encode p.2.text)) = []
    · rw [if_pos hl, if_pos ((hj _).mpr hl)]
    · rw [if_neg hl, if_neg (fun hx => hl ((hj _).mp hx))]

/-- The hypotheses are met by a request with `"`, `,`, `&` and `=` in its values. -/
example := C04_outputs Case.cfg (Case.builder hmacSha1) (constSign_hmac _) (by decide) Case.trace b!"GET"
  (.ofBytes Case.uri) Case.world
example : ∃ out w', (Case.builder hmacSha1).authorize Case.cfg b!"GET" (.ofBytes Case.uri) Case.request
    Case.world = .ok (out, w') := Case.header
example := C04_delimiters (sent := [(b!"oauth_callback", encode b!"a\",b=\"&c")])
  (fun p hp => by rw [List.mem_singleton.mp hp]; exact ⟨⟨.callback, rfl⟩, encode_encodedText _⟩) b!"x"
example (w : World) := C04_plain_form Case.trace (weave_ok Case.ok)
  (fun k v h => by rcases weave_no_encoded _ _ _ h with ⟨p, h⟩ | ⟨kv, -, h⟩ <;> cases h) b!"https://example.com/" w

end OAuth
