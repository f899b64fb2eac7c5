import Verif.Model.Client
import Verif.Proofs.Derive
import Verif.Proofs.Verify

/-
Parts of the example client, and what it shares with the example server.
-/

namespace OAuth

open Spec

/-! ### Responses: `serde_urlencoded` -/

namespace Server

/-- `+` as `form_urlencoded` reads it. -/
def plus (s : Bytes) : Bytes := s.map fun b => if b == 0x2B then 0x20 else b

theorem byteSerialize_cons (b : UInt8) (s : Bytes) :
    byteSerialize (b :: s) = byteSerialize [b] ++ byteSerialize s := by
  simp [byteSerialize]

theorem decode_cons {b : UInt8} (h : b ≠ 0x25) (t : Bytes) : decode (b :: t) = (decode t).map (b :: ·) := by
  rw [decode.eq_def]
  split
  · next heq => cases heq
  · next heq => simp only [List.cons.injEq] at heq; exact absurd heq.1 h
  · next heq => simp only [List.cons.injEq] at heq; obtain ⟨rfl, rfl⟩ := heq; simp [h]

/-- The encoding of one byte, read by `form_urlencoded`. -/
theorem decode_byteSerialize_byte (b : UInt8) (t : Bytes) :
    decode (plus (byteSerialize [b]) ++ t) = (decode t).map (b :: ·) := by
  have h : (plus (byteSerialize [b]) = [b] ∧ b ≠ 0x25) ∨
      (plus (byteSerialize [b]) = [0x25, hexChar (b.toNat / 16), hexChar (b.toNat % 16)]) := by
    revert b; apply forall_byte; decide +kernel
  have hv : hexVal (hexChar (b.toNat / 16)) = some (b.toNat / 16) ∧
      hexVal (hexChar (b.toNat % 16)) = some (b.toNat % 16) ∧
      UInt8.ofNat (b.toNat / 16 * 16 + b.toNat % 16) = b := by
    clear h; revert b; apply forall_byte; decide +kernel
  rcases h with ⟨h1, h2⟩ | h1
  · rw [h1, List.cons_append, List.nil_append, decode_cons h2]
  · rw [h1]
    simp only [List.cons_append, List.nil_append]
    rw [decode.eq_def]
    simp only [hv.1, hv.2.1]
    cases decode t <;> simp [hv.2.2]

theorem decode_byteSerialize (s : Bytes) : decode (plus (byteSerialize s)) = some s := by
  induction s with
  | nil => rfl
  | cons b s ih =>
    rw [byteSerialize_cons, plus, List.map_append]
    exact (decode_byteSerialize_byte b _).trans (by rw [← plus, ih]; rfl)

theorem formDecode_byteSerialize (s : Bytes) : formDecode (byteSerialize s) = Utf8.lossy s := by
  unfold formDecode
  rw [show ((byteSerialize s).map fun b => if b == 0x2B then 0x20 else b) = plus (byteSerialize s)
    from rfl, percentDecode_of_decode (decode_byteSerialize s)]

/-- The characters of serialized text. -/
theorem byteSerialize_mem (s : Bytes) :
    ∀ c ∈ byteSerialize s, c ≠ 0x26 ∧ c ≠ 0x3D ∧ c.toNat < 0x80 := by
  have key : ∀ b : UInt8, ∀ c ∈ byteSerialize [b], c ≠ 0x26 ∧ c ≠ 0x3D ∧ c.toNat < 0x80 := by
    apply forall_byte; decide +kernel
  intro c hc
  simp only [byteSerialize, List.mem_flatMap] at hc
  obtain ⟨b, -, hb⟩ := hc
  exact key b c (by simpa [byteSerialize] using hb)

theorem serializePairs_eq (ps : List Parameter) :
    serializePairs ps = join b!"&" (ps.map fun p => byteSerialize p.1 ++ b!"=" ++ byteSerialize p.2) := by
  induction ps with
  | nil => rfl
  | cons p ps ih =>
    cases ps with
    | nil => rfl
    | cons q ps => simp only [serializePairs, ih, List.map_cons, join]

theorem serializePairs_ascii (ps : List Parameter) : ∀ c ∈ serializePairs ps, c.toNat < 0x80 := by
  induction ps with
  | nil => intro c hc; cases hc
  | cons p ps ih =>
    have h1 := fun c h => (byteSerialize_mem p.1 c h).2.2
    have h2 := fun c h => (byteSerialize_mem p.2 c h).2.2
    intro c hc
    cases ps with
    | nil =>
      simp only [serializePairs, List.mem_append, List.mem_singleton] at hc
      rcases hc with (hc | rfl) | hc
      · exact h1 c hc
      · decide
      · exact h2 c hc
    | cons q ps =>
      simp only [serializePairs, List.mem_append, List.mem_singleton] at hc
      rcases hc with (((hc | rfl) | hc) | rfl) | hc
      · exact h1 c hc
      · decide
      · exact h2 c hc
      · decide
      · exact ih c (by simpa only [serializePairs, List.mem_append, List.mem_singleton] using hc)

theorem takeWhile_append_sep {p : UInt8 → Bool} {a : Bytes} (h : ∀ x ∈ a, p x = true) {c : UInt8}
    (hc : p c = false) (t : Bytes) :
    (a ++ c :: t).takeWhile p = a ∧ (a ++ c :: t).dropWhile p = c :: t := by
  induction a with
  | nil => simp [hc]
  | cons x a ih =>
    obtain ⟨i1, i2⟩ := ih (fun y hy => h y (by simp [hy]))
    simp [h x (by simp), i1, i2]

/-- What was serialized is read back. -/
theorem formParse_serializePairs (ps : List Parameter) :
    formParse (serializePairs ps) = ps.map fun p => (Utf8.lossy p.1, Utf8.lossy p.2) := by
  unfold formParse
  rw [serializePairs_eq, splitOn_eq]
  cases hps : ps with
  | nil => rfl
  | cons p rest =>
    rw [← hps]
    have hne : ps ≠ [] := by rw [hps]; simp
    clear hps p rest
    rw [splitAll_join (by simpa using hne)]
    · rw [List.filter_eq_self.mpr, List.map_map]
      · refine List.map_congr_left fun p _ => ?_
        have hk : ∀ x ∈ byteSerialize p.1, (x != 0x3D) = true := fun x hx => by
          simpa using (byteSerialize_mem p.1 x hx).2.1
        obtain ⟨t1, t2⟩ := takeWhile_append_sep hk (c := 0x3D) (by decide) (byteSerialize p.2)
        simp only [Function.comp_apply, formPair, List.append_assoc, List.cons_append, List.nil_append]
        rw [t1, t2, List.drop_one, List.tail_cons, formDecode_byteSerialize, formDecode_byteSerialize]
      · intro s hs
        obtain ⟨p, -, rfl⟩ := List.mem_map.mp hs
        simp
    · intro s hs
      obtain ⟨p, -, rfl⟩ := List.mem_map.mp hs
      simp only [List.mem_append, List.mem_singleton, not_or]
      exact ⟨⟨fun h => (byteSerialize_mem _ _ h).1 rfl, by decide⟩,
        fun h => (byteSerialize_mem _ _ h).1 rfl⟩

end Server

/-! ### Requests -/

namespace Client

open Server (Lib HttpRequest Response)

/-- Characters of a form. -/
def formChar (b : UInt8) : Bool := encodedChar b || b == 0x26 || b == 0x3D

theorem join_mem {sep : Bytes} {l : List Bytes} {c : UInt8} (h : c ∈ join sep l) :
    c ∈ sep ∨ ∃ p ∈ l, c ∈ p := by
  induction l with
  | nil => cases h
  | cons p l ih =>
    cases l with
    | nil => exact .inr ⟨p, by simp, h⟩
    | cons q l =>
      simp only [join, List.mem_append] at h
      rcases h with (h | h) | h
      · exact .inr ⟨p, by simp, h⟩
      · exact .inl h
      · rcases ih h with h | ⟨x, hx, h⟩
        · exact .inl h
        · exact .inr ⟨x, by simp [List.mem_cons.mp hx], h⟩

theorem form_chars {pairs : List Pair} (hkeys : ∀ p ∈ pairs, ∀ b ∈ p.1, unreserved b = true) :
    ∀ c ∈ join b!"&" (pairs.map fun p => p.1 ++ b!"=" ++ encode p.2.text), formChar c = true := by
  intro c hc
  rcases join_mem hc with hc | ⟨s, hs, hc⟩
  · simp only [List.mem_singleton] at hc; subst hc; decide
  · obtain ⟨p, hp, rfl⟩ := List.mem_map.mp hs
    simp only [List.mem_append, List.mem_singleton] at hc
    rcases hc with (hc | rfl) | hc
    · simp [formChar, encodedChar, hkeys p hp c hc]
    · decide
    · simp [formChar, encode_alphabet _ c hc]

theorem formChar_not_plus : ∀ b, formChar b = true → b ≠ 0x2B := by
  apply forall_byte; decide +kernel

theorem parseQuery_formChars {s : Bytes} (h : ∀ c ∈ s, formChar c = true) : parseQuery s = some s := by
  have key : ∀ b : UInt8, formChar b = true → (b == 0x23) = false ∧
      (b == 0x21 || (0x24 ≤ b.toNat && b.toNat ≤ 0x3B) || b == 0x3D ||
        (0x3F ≤ b.toNat && b.toNat ≤ 0x7E)) = true := by
    apply forall_byte; decide +kernel
  induction s with
  | nil => rfl
  | cons b s ih =>
    obtain ⟨h1, h2⟩ := key b (h b (by simp))
    simp only [parseQuery, h1, Bool.false_eq_true, if_false, h2, if_true,
      ih (fun c hc => h c (by simp [hc])), Option.map_some]

theorem headerText_bytes {ps : List (Bytes × Bytes)} (sig : Bytes)
    (hk : ∀ p ∈ ps, ∀ x ∈ p.1, unreserved x = true) :
    (headerText (ps.map fun p => (p.1, encode p.2)) (encode sig)).all headerByte = true := by
  have key : ∀ b : UInt8, encodedChar b = true → headerByte b = true := by
    apply forall_byte; decide +kernel
  have henc : ∀ s, ∀ x ∈ encode s, headerByte x = true := fun s x hx => key x (encode_alphabet s x hx)
  rw [List.all_eq_true]
  intro x hx
  simp only [headerText, List.mem_append, List.map_map, List.mem_flatten, List.mem_map,
    Function.comp_apply, headerItem] at hx
  have hlit : ∀ s : Bytes, s.all headerByte = true → x ∈ s → headerByte x = true :=
    fun s h hx => List.all_eq_true.mp h x hx
  rcases hx with (((hx | ⟨l, ⟨p, hp, rfl⟩, hx⟩) | hx) | hx) | hx
  · exact hlit _ (by decide +kernel) hx
  · simp only [List.mem_append] at hx
    rcases hx with ((hx | hx) | hx) | hx
    · exact key x (by simp [encodedChar, hk p hp x hx])
    · exact hlit _ (by decide +kernel) hx
    · exact henc _ x hx
    · exact hlit _ (by decide +kernel) hx
  · exact hlit _ (by decide +kernel) hx
  · exact henc _ x hx
  · exact hlit _ (by decide +kernel) hx

/-- Paths of the example. -/
def plainPath (p : Bytes) : Bool :=
  p.all fun b => unreserved b || b == 0x2F

theorem parsePath_plain {p : Bytes} (h : plainPath p = true) :
    parsePath p = some (p, none) ∧
      ∀ q, (∀ c ∈ q, formChar c = true) → parsePath (p ++ b!"?" ++ q) = some (p, some q) := by
  have key : ∀ b : UInt8, (unreserved b || b == 0x2F) = true → (b == 0x3F) = false ∧ (b == 0x23) = false ∧
      (b == 0x21 || (0x24 ≤ b.toNat && b.toNat ≤ 0x3B) || b == 0x3D ||
        (0x40 ≤ b.toNat && b.toNat ≤ 0x5F) || (0x61 ≤ b.toNat && b.toNat ≤ 0x7A) || b == 0x7C ||
        b == 0x7E || b == 0x22 || b == 0x7B || b == 0x7D) = true := by
    apply forall_byte; decide +kernel
  induction p with
  | nil =>
    refine ⟨rfl, fun q hq => ?_⟩
    simp [parsePath, parseQuery_formChars hq]
  | cons b p ih =>
    simp only [plainPath, List.all_cons, Bool.and_eq_true] at h
    obtain ⟨h1, h2, h3⟩ := key b h.1
    obtain ⟨i1, i2⟩ := ih h.2
    refine ⟨?_, fun q hq => ?_⟩
    · simp only [parsePath, h1, h2, h3, Bool.false_eq_true, if_false, if_true, i1, Option.map_some]
    · have := i2 q hq
      simp only [List.cons_append, List.append_assoc] at this ⊢
      simp only [parsePath, h1, h2, h3, Bool.false_eq_true, if_false, if_true, this, Option.map_some]

theorem parseUri_server (rest : Bytes) : parseUri (server ++ rest) = parsePath rest := by
  unfold parseUri
  rw [if_pos (by simp), List.drop_left]

/-! ### The world -/

/-- The world after a signature with a generated nonce and the current time. -/
def _root_.OAuth.World.step (w : World) : World := { w with rngPos := w.rngPos + 9, clockPos := w.clockPos + 1 }

theorem foldl_advance (e : Env) (cs : List Call) (w : World) :
    cs.foldl (advance e) w = ((cs.filterMap Call.proto?).map Call.oauth).foldl (advance e) w := by
  induction cs generalizing w with
  | nil => rfl
  | cons c cs ih =>
    cases c with
    | oauth p => exact ih _
    | parameter k v => exact (ih _).trans (by congr 1)
    | parameterEncoded k v => exact (ih _).trans (by congr 1)

theorem foldl_advance_standard {e : Env} (h1 : e.useNonce = true) (h2 : e.useTimestamp = true)
    (h3 : e.options.nonce = none) (h4 : e.options.timestamp = none) {cs : List Call} (h : Standard cs)
    (w : World) : cs.foldl (advance e) w = w.step := by
  rw [foldl_advance, h]
  simp [allProto, advance, needsRng, needsClock, h1, h2, h3, h4, World.step]

/-! ### Derived requests -/

end Client

section
open Derive
variable {V : Type}

/-- Without `encoded`, the calls are those of the list of pairs. -/
theorem isTrace_plain (sc : Scope V) (self : Bytes → V) {fs : List Field} (hs : NameSorted fs)
    (henc : ∀ f ∈ fs, f.info.encoded = false) :
    IsTrace (Derive.request sc self (weaveStmts allProto fs)) (weave allProto (sentPairs sc self fs)) := by
  have h := weaveCalls_forget sc self allProto fs hs
  have hid : (weaveCalls sc self allProto fs).map Call.forget = weaveCalls sc self allProto fs := by
    refine (List.map_congr_left fun c hc => ?_).trans (List.map_id _)
    cases hr : c.isRequest with
    | false => cases c <;> first | rfl | cases hr
    | true =>
      have : c ∈ (weaveCalls sc self allProto fs).filter Call.isRequest :=
        List.mem_filter.mpr ⟨hc, hr⟩
      rw [weaveCalls_requests] at this
      obtain ⟨f, hf, hcf⟩ := List.mem_filterMap.mp this
      unfold fieldCall at hcf
      simp only [henc f hf, Bool.false_eq_true, if_false, Option.bind_eq_some_iff] at hcf
      obtain ⟨u, -, hcf⟩ := hcf
      split at hcf
      · cases hcf
      · cases hcf; rfl
  rw [← h, hid]
  exact isTrace_request sc self fs

theorem sentPairs_keys (sc : Scope V) (self : Bytes → V) (fs : List Field) :
    ((sentPairs sc self fs).map (·.1)).Sublist (fs.map Field.name) := by
  induction fs with
  | nil => exact List.Sublist.refl _
  | cons g gs ih =>
    cases hc : fieldCall sc self g with
    | none =>
      have : sentPairs sc self (g :: gs) = sentPairs sc self gs := by simp [sentPairs, hc]
      rw [this]; exact ih.cons _
    | some c =>
      obtain ⟨v, h1, -, -⟩ := fieldCall_shape sc self g c hc
      have : sentPairs sc self (g :: gs) = (g.name, v) :: sentPairs sc self gs := by
        simp [sentPairs, hc, h1, Call.pair?]
      rw [this]; exact ih.cons₂ _

/-- Distinct names in ascending order: the pairs are sorted. -/
theorem sentPairs_ascending (sc : Scope V) (self : Bytes → V) {fs : List Field} (hs : NameSorted fs)
    (hn : (fs.map Field.name).Nodup) : Ascending (shown Display.text (sentPairs sc self fs)) := by
  have h0 : (fs.map Field.name).Pairwise (fun a b => bytesLe a b = true) := List.pairwise_map.mpr hs
  have h1 : (fs.map Field.name).Pairwise (fun a b => bytesLe a b = true ∧ a ≠ b) := h0.and hn
  have h2 := List.Pairwise.sublist (sentPairs_keys sc self fs) h1
  unfold Ascending shown
  rw [List.pairwise_map]
  refine (List.pairwise_map.mp h2).imp ?_
  intro a b ⟨hab, hne⟩
  refine .inl ((cmpBytes_lt_iff _ _).mp ?_)
  have h3 := (bytesLe_iff_ne_gt _ _).mp hab
  cases hc : cmpBytes a.1 b.1 with
  | lt => rfl
  | gt => exact absurd hc h3
  | eq => exact absurd ((cmpBytes_eq_iff _ _).mp hc) hne

end

namespace Client

theorem isTrace_strRequest (cfg : Cfg) (fields : List (Bytes × Bytes))
    (hn : (fields.map (·.1)).Nodup) :
    ∃ pairs : List Pair, IsTrace (strRequest cfg fields) (weave allProto pairs) ∧
      (shown Display.text pairs).Perm fields ∧ (∀ p ∈ pairs, p.2.outcome = .ok) ∧
      Ascending (shown Display.text pairs) := by
  unfold strRequest
  rw [methodBody_eq]
  have hp := sortByName_perm (fields.map fun f => (⟨f.1, .other, {}⟩ : Derive.Field))
  have hs := sortByName_sorted (fields.map fun f => (⟨f.1, .other, {}⟩ : Derive.Field))
  have hmem : ∀ g ∈ Derive.sortByName (fields.map fun f => (⟨f.1, .other, {}⟩ : Derive.Field)),
      ∃ f ∈ fields, g = ⟨f.1, .other, {}⟩ := by
    intro g hg
    obtain ⟨f, hf, rfl⟩ := List.mem_map.mp (hp.mem_iff.mp hg)
    exact ⟨f, hf, rfl⟩
  generalize Derive.sortByName (fields.map fun f => (⟨f.1, .other, {}⟩ : Derive.Field)) = gs at *
  have hk : kept gs = gs := by
    refine List.filter_eq_self.mpr fun g hg => ?_
    obtain ⟨f, -, rfl⟩ := hmem g hg
    rfl
  rw [hk]
  let sc : Derive.Scope Bytes := ⟨.ofBytes, fun _ => none, fun _ => .ofBytes, fun _ _ => false⟩
  let self : Bytes → Bytes := fun i => ((fields.find? (·.1 = i)).map (·.2)).getD []
  have hsent : ∀ l : List Derive.Field, (∀ g ∈ l, ∃ f ∈ fields, g = ⟨f.1, .other, {}⟩) →
      sentPairs sc self l = l.map fun g => (g.ident, Display.ofBytes (self g.ident)) := by
    intro l hl
    induction l with
    | nil => rfl
    | cons g l ih =>
      obtain ⟨f, hf, rfl⟩ := hl g (by simp)
      have := ih fun g hg => hl g (by simp [hg])
      rw [List.map_cons, ← this]
      rfl
  have hself : ∀ f ∈ fields, self f.1 = f.2 := by
    intro f hf
    simp only [self]
    have : fields.find? (fun x => decide (x.1 = f.1)) = some f := by
      clear hp hs hmem hk hsent
      induction fields with
      | nil => cases hf
      | cons x xs ih =>
        rw [List.map_cons, List.nodup_cons] at hn
        rcases List.mem_cons.mp hf with rfl | hf
        · simp
        · have hne : x.1 ≠ f.1 := by
            rintro e
            exact hn.1 (List.mem_map.mpr ⟨f, hf, e.symm⟩)
          rw [List.find?_cons_of_neg (by simpa using hne)]
          exact ih hn.2 hf
    rw [this]; rfl
  have hname : gs.map Derive.Field.name = gs.map (·.ident) := by
    refine List.map_congr_left fun g hg => ?_
    obtain ⟨f, -, rfl⟩ := hmem g hg
    rfl
  have hnodup : (gs.map Derive.Field.name).Nodup := by
    rw [hname, (hp.map (·.ident)).nodup_iff, List.map_map]
    exact hn
  refine ⟨sentPairs sc self gs, isTrace_plain sc self hs ?_, ?_, ?_,
    sentPairs_ascending sc self hs hnodup⟩
  · intro g hg
    obtain ⟨f, -, rfl⟩ := hmem g hg
    rfl
  · rw [hsent gs hmem, shown, List.map_map]
    refine (hp.map _).trans ?_
    rw [List.map_map]
    refine .of_eq ((List.map_congr_left fun f hf => ?_).trans (List.map_id _))
    simp [Display.ofBytes, Display.text, hself f hf]
  · rw [hsent gs hmem]
    intro p hp'
    obtain ⟨g, -, rfl⟩ := List.mem_map.mp hp'
    rfl

end Client
end OAuth
