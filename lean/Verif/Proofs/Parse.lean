import Verif.Spec.Parse
import Verif.Proofs.FormParse
import Verif.Proofs.Closed

/-
Parsing what the authorizer produces.
-/

namespace OAuth

open Spec

theorem proto_name_unreserved (p : Proto) : ∀ b ∈ p.name, unreserved b = true := by
  cases p <;> decide

theorem splitFirst_headerValue {k v : Bytes} (hk : ∀ b ∈ k, unreserved b = true)
    (hv : (0x22 : UInt8) ∉ v) {d : Bytes} (hd : decode v = some d) :
    parseHeaderItem (k ++ b!"=\"" ++ v ++ b!"\"") = some (k, d) := by
  have e : k ++ b!"=\"" ++ v ++ b!"\"" = k ++ 0x3D :: (0x22 :: (v ++ [0x22])) := by simp
  rw [e, parseHeaderItem, splitFirst_append (not_mem_of_unreserved hk (by decide))]
  simp only [List.getLast?_append, List.getLast?_singleton, Option.some_or, List.dropLast_concat,
    hv, not_false_eq_true, and_self, if_true, decode_unreserved hk, hd]

/-- A header of safe items parses. -/
theorem parseHeader_eq (items : List (Bytes × Bytes × Bytes)) (k t d : Bytes)
    (hi : ∀ i ∈ items, (∀ b ∈ i.1, unreserved b = true) ∧ (0x22 : UInt8) ∉ i.2.1 ∧
      (0x2C : UInt8) ∉ i.2.1 ∧ decode i.2.1 = some i.2.2)
    (hk : (∀ b ∈ k, unreserved b = true)) (hq : (0x22 : UInt8) ∉ t) (hc : (0x2C : UInt8) ∉ t)
    (hd : decode t = some d) :
    parseHeader (b!"OAuth " ++ (items.map fun i => headerItem (i.1, i.2.1)).flatten ++
      (k ++ b!"=\"" ++ t ++ b!"\"")) = some (items.map (fun i => (i.1, i.2.2)) ++ [(k, d)]) := by
  have hrest : ∀ its : List (Bytes × Bytes × Bytes),
      (∀ i ∈ its, (∀ b ∈ i.1, unreserved b = true) ∧ (0x22 : UInt8) ∉ i.2.1 ∧
        (0x2C : UInt8) ∉ i.2.1 ∧ decode i.2.1 = some i.2.2) →
      allSome parseHeaderItem (splitAll 0x2C ((its.map fun i => headerItem (i.1, i.2.1)).flatten ++
        (k ++ b!"=\"" ++ t ++ b!"\""))) = some (its.map (fun i => (i.1, i.2.2)) ++ [(k, d)]) := by
    intro its
    induction its with
    | nil =>
      intro _
      simp only [List.map_nil, List.flatten_nil, List.nil_append]
      rw [splitAll_no_sep]
      · simp only [allSome, splitFirst_headerValue hk hq hd]
      · simp only [List.mem_append, not_or]
        exact ⟨⟨⟨not_mem_of_unreserved hk (by decide), by decide⟩, hc⟩, by decide⟩
    | cons i its ih =>
      intro h
      obtain ⟨h1, h2, h3, h4⟩ := h i (by simp)
      have e : ((i :: its).map fun i => headerItem (i.1, i.2.1)).flatten ++
          (k ++ b!"=\"" ++ t ++ b!"\"") =
          (i.1 ++ b!"=\"" ++ i.2.1 ++ b!"\"") ++ 0x2C ::
            ((its.map fun i => headerItem (i.1, i.2.1)).flatten ++
              (k ++ b!"=\"" ++ t ++ b!"\"")) := by
        simp [headerItem]
      rw [e, splitAll_append_sep]
      · simp only [allSome, splitFirst_headerValue h1 h2 h4,
          ih (fun i hi => h i (by simp [hi])), List.map_cons, List.cons_append]
      · simp only [List.mem_append, not_or]
        exact ⟨⟨⟨not_mem_of_unreserved h1 (by decide), by decide⟩, h3⟩, by decide⟩
  have e1 : (b!"OAuth " ++ (items.map fun i => headerItem (i.1, i.2.1)).flatten ++
      (k ++ b!"=\"" ++ t ++ b!"\"")).take 6 = b!"OAuth " := by simp
  have e2 : (b!"OAuth " ++ (items.map fun i => headerItem (i.1, i.2.1)).flatten ++
      (k ++ b!"=\"" ++ t ++ b!"\"")).drop 6 =
      (items.map fun i => headerItem (i.1, i.2.1)).flatten ++ (k ++ b!"=\"" ++ t ++ b!"\"") := by
    simp
  rw [parseHeader, e1, if_pos rfl, e2]
  exact hrest items hi

/-- Parsing a form made of `key=text` items. -/
theorem parseForm_join (ps : List (Bytes × Bytes × Bytes))
    (h : ∀ p ∈ ps, (∀ b ∈ p.1, unreserved b = true) ∧ (0x26 : UInt8) ∉ p.2.1 ∧
      decode p.2.1 = some p.2.2) :
    parseForm (join b!"&" (ps.map fun p => p.1 ++ b!"=" ++ p.2.1)) =
      some (ps.map fun p => (p.1, p.2.2)) := by
  cases ps with
  | nil => rfl
  | cons p ps =>
    have hne : join b!"&" ((p :: ps).map fun p => p.1 ++ b!"=" ++ p.2.1) ≠ [] := by
      simp [Spec.join_cons]
    rw [parseForm, if_neg hne, splitAll_join (by simp)]
    · rw [allSome_map (fun p : Bytes × Bytes × Bytes => p.1 ++ b!"=" ++ p.2.1) parseItem
        (fun p => (p.1, p.2.2))]
      intro a ha
      obtain ⟨h1, h2, h3⟩ := h a ha
      simp only [parseItem, List.append_assoc, List.singleton_append]
      rw [splitFirst_append (not_mem_of_unreserved h1 (by decide))]
      simp [decode_unreserved h1, h3]
    · intro q hq
      obtain ⟨a, ha, rfl⟩ := List.mem_map.mp hq
      obtain ⟨h1, h2, h3⟩ := h a ha
      simp only [List.mem_append, not_or]
      exact ⟨⟨not_mem_of_unreserved h1 (by decide), by decide⟩, h2⟩

theorem encode_join (sep : Bytes) (ps : List Bytes) :
    encode (join sep ps) = join (encode sep) (ps.map encode) := by
  induction ps with
  | nil => rfl
  | cons p ps ih =>
    cases ps with
    | nil => rfl
    | cons q qs =>
      simp only [join, encode_append, ih, List.map_cons]

/-- The parameters part of a base string is an encoded form. -/
theorem join_signed_eq (ps : List (Bytes × Bytes)) (h : ∀ p ∈ ps, ∀ b ∈ p.1, unreserved b = true) :
    join b!"%26" (ps.map fun p => signedItem (p.1, encode p.2)) =
      encode (join b!"&" (ps.map fun p => p.1 ++ b!"=" ++ p.2)) := by
  rw [encode_join]
  have e1 : encode b!"&" = b!"%26" := by decide
  have e2 : encode b!"=" = b!"%3D" := by decide
  rw [e1, List.map_map]
  congr 1
  apply List.map_congr_left
  intro p hp
  simp only [Function.comp_apply, encode_append, encode_of_unreserved (h p hp), e2, signedItem]

theorem parseBase_eq (method uri : Bytes) (hm : (0x26 : UInt8) ∉ method)
    (ps : List (Bytes × Bytes × Bytes))
    (h : ∀ p ∈ ps, (∀ b ∈ p.1, unreserved b = true) ∧ (0x26 : UInt8) ∉ p.2.1 ∧
      decode p.2.1 = some p.2.2) :
    parseBase (baseString method uri (ps.map fun p => (p.1, encode p.2.1))) =
      some (method, uri, ps.map fun p => (p.1, p.2.2)) := by
  have hj : join b!"%26" ((ps.map fun p => (p.1, encode p.2.1)).map signedItem) =
      encode (join b!"&" (ps.map fun p => p.1 ++ b!"=" ++ p.2.1)) := by
    have := join_signed_eq (ps.map fun p => (p.1, p.2.1)) (by
      intro p hp
      obtain ⟨a, ha, rfl⟩ := List.mem_map.mp hp
      exact (h a ha).1)
    simpa [List.map_map, Function.comp_def] using this
  have e : baseString method uri (ps.map fun p => (p.1, encode p.2.1)) =
      method ++ 0x26 :: (encode uri ++ 0x26 ::
        encode (join b!"&" (ps.map fun p => p.1 ++ b!"=" ++ p.2.1))) := by
    rw [baseString, hj]; simp
  rw [e, parseBase, splitFirst_append hm]
  simp only []
  rw [splitFirst_append (not_mem_encode _ (by decide))]
  simp only [decode_encode, parseForm_join ps h, Option.map_some]

theorem filterMap_some_map {α β γ : Type} {f : α → Option β} {g : γ → β} {a : α} {l : List α} {c : γ}
    {cs : List γ} (h : f a = some (g c)) (hl : l.filterMap f = cs.map g) :
    (a :: l).filterMap f = (c :: cs).map g := by
  rw [List.filterMap_cons_some h, hl, List.map_cons]

theorem filterMap_none_map {α β γ : Type} {f : α → Option β} {g : γ → β} {a : α} {l : List α}
    {cs : List γ} (h : f a = none) (hl : l.filterMap f = cs.map g) :
    (a :: l).filterMap f = cs.map g := by
  rw [List.filterMap_cons_none h, hl]

/-- The signed text of safe calls. -/
theorem signed_effective (e : Env) (run : List (Call × Bytes × Nat)) (h : ∀ x ∈ run, x.1.safe) :
    ∃ ps : List (Bytes × Bytes × Bytes),
      run.filterMap (fun x => x.1.signed? e x.2.1 x.2.2) = ps.map (fun p => (p.1, encode p.2.1)) ∧
      run.filterMap (fun x => x.1.effective e x.2.1 x.2.2) = ps.map (fun p => (p.1, p.2.2)) ∧
      ∀ p ∈ ps, (∀ b ∈ p.1, unreserved b = true) ∧ (0x26 : UInt8) ∉ p.2.1 ∧
        decode p.2.1 = some p.2.2 := by
  induction run with
  | nil => exact ⟨[], rfl, rfl, by simp⟩
  | cons x run ih =>
    obtain ⟨ps, h1, h2, h3⟩ := ih (fun x hx => h x (by simp [hx]))
    obtain ⟨c, n, t⟩ := x
    have hc := h _ (List.mem_cons_self)
    simp only at hc
    cases c with
    | parameter k v =>
      refine ⟨(k, encode v.text, v.text) :: ps, ?_, ?_, ?_⟩
      · exact filterMap_some_map rfl h1
      · exact filterMap_some_map rfl h2
      · intro p hp
        rcases List.mem_cons.mp hp with rfl | hp
        · exact ⟨hc, not_mem_encode _ (by decide), decode_encode _⟩
        · exact h3 p hp
    | parameterEncoded k v =>
      obtain ⟨hk, ha, hd⟩ := hc
      obtain ⟨d, hd⟩ := Option.isSome_iff_exists.mp hd
      refine ⟨(k, v.text, d) :: ps, ?_, ?_, ?_⟩
      · exact filterMap_some_map rfl h1
      · exact filterMap_some_map (by simp [Call.effective, hd]) h2
      · intro p hp
        rcases List.mem_cons.mp hp with rfl | hp
        · exact ⟨hk, ha, hd⟩
        · exact h3 p hp
    | oauth p =>
      cases hv : e.value n t p with
      | none =>
        refine ⟨ps, ?_, ?_, h3⟩
        · exact filterMap_none_map (by simp [Call.signed?, hv]) h1
        · exact filterMap_none_map (by simp [Call.effective, hv]) h2
      | some v =>
        refine ⟨(p.name, encode v, v) :: ps, ?_, ?_, ?_⟩
        · exact filterMap_some_map (by simp [Call.signed?, hv]) h1
        · exact filterMap_some_map (by simp [Call.effective, hv]) h2
        · intro q hq
          rcases List.mem_cons.mp hq with rfl | hq
          · exact ⟨proto_name_unreserved p, not_mem_encode _ (by decide), decode_encode _⟩
          · exact h3 q hq

/-- Only the protocol calls of a run. -/
def protoOnly (run : List (Call × Bytes × Nat)) : List (Call × Bytes × Nat) :=
  run.filter fun x => x.1.proto?.isSome

/-- What is sent, as decoded by a recipient. -/
theorem sent_effective (e : Env) (run : List (Call × Bytes × Nat)) :
    ∃ ps : List (Bytes × Bytes × Bytes),
      run.filterMap (fun x => x.1.sent? e x.2.1 x.2.2) = ps.map (fun p => (p.1, p.2.1)) ∧
      (protoOnly run).filterMap (fun x => x.1.effective e x.2.1 x.2.2) =
        ps.map (fun p => (p.1, p.2.2)) ∧
      ∀ p ∈ ps, (∀ b ∈ p.1, unreserved b = true) ∧ (0x22 : UInt8) ∉ p.2.1 ∧
        (0x2C : UInt8) ∉ p.2.1 ∧ (0x26 : UInt8) ∉ p.2.1 ∧ decode p.2.1 = some p.2.2 := by
  induction run with
  | nil => exact ⟨[], rfl, rfl, by simp⟩
  | cons x run ih =>
    obtain ⟨ps, h1, h2, h3⟩ := ih
    obtain ⟨c, n, t⟩ := x
    cases c with
    | parameter k v => exact ⟨ps, filterMap_none_map rfl h1, h2, h3⟩
    | parameterEncoded k v => exact ⟨ps, filterMap_none_map rfl h1, h2, h3⟩
    | oauth p =>
      have hp : protoOnly ((Call.oauth p, n, t) :: run) = (Call.oauth p, n, t) :: protoOnly run := rfl
      rw [hp]
      cases hv : e.value n t p with
      | none =>
        refine ⟨ps, ?_, ?_, h3⟩
        · exact filterMap_none_map (by simp [Call.sent?, hv]) h1
        · exact filterMap_none_map (by simp [Call.effective, hv]) h2
      | some v =>
        refine ⟨(p.name, encode v, v) :: ps, ?_, ?_, ?_⟩
        · exact filterMap_some_map (by simp [Call.sent?, hv]) h1
        · exact filterMap_some_map (by simp [Call.effective, hv]) h2
        · intro q hq
          rcases List.mem_cons.mp hq with rfl | hq
          · exact ⟨proto_name_unreserved p, not_mem_encode _ (by decide), not_mem_encode _ (by decide),
              not_mem_encode _ (by decide), decode_encode _⟩
          · exact h3 q hq

end OAuth
