import Verif.Model.Server
import Verif.Proofs.Utf8
import Verif.Proofs.Authorization
import Verif.Proofs.FormParse
import Verif.Proofs.ParameterList
import Verif.Proofs.Signers
import Verif.Properties.Rfc
import Verif.Spec.Received

/-
The example server, part by part.
-/

namespace OAuth.Server

open Spec

/-! ### Decoding -/

theorem toDigit16_eq (b : UInt8) : toDigit16 b = hexVal b := by
  revert b; apply forall_byte; decide +kernel

theorem percentDecodeAux_of_decode (fuel : Nat) {s d : Bytes} (hf : s.length ≤ fuel)
    (h : decode s = some d) : percentDecodeAux fuel s = d := by
  induction fuel generalizing s d with
  | zero =>
    cases s with
    | nil => simpa [decode, percentDecodeAux] using h
    | cons b s => simp at hf
  | succ fuel ih =>
    cases s with
    | nil => simpa [decode, percentDecodeAux] using h
    | cons b rest =>
      simp only [percentDecodeAux]
      by_cases hb : b = 0x25
      · subst hb
        rw [if_pos rfl]
        cases rest with
        | nil => simp [decode] at h
        | cons x rest =>
          cases rest with
          | nil => simp [decode] at h
          | cons y rest =>
            simp only [decode] at h
            split at h
            · next a b r h1 h2 h3 =>
              cases h
              simp only [afterPercentSign, toDigit16_eq, h1, h2]
              rw [ih (by simp at hf; omega) h3]
            · cases h
      · rw [if_neg hb]
        have : decode (b :: rest) = (decode rest).map (b :: ·) := by
          cases rest with
          | nil => simp [decode, hb]
          | cons x rest =>
            cases rest with
            | nil => simp [decode, hb]
            | cons y rest => simp [decode, hb]
        rw [this] at h
        obtain ⟨r, hr, rfl⟩ := Option.map_eq_some_iff.mp h
        rw [ih (by simp at hf; omega) hr]

/-- `percent_decode` does what RFC 3986 says on well-formed text. -/
theorem percentDecode_of_decode {s d : Bytes} (h : decode s = some d) : percentDecode s = d :=
  percentDecodeAux_of_decode _ (Nat.le_refl _) h

theorem percentDecodeAux_of_no_escape (fuel : Nat) {s : Bytes} (hf : s.length ≤ fuel)
    (h : hasEscape s = false) : percentDecodeAux fuel s = s := by
  induction fuel generalizing s with
  | zero =>
    cases s with
    | nil => rfl
    | cons b s => simp at hf
  | succ fuel ih =>
    cases s with
    | nil => rfl
    | cons b rest =>
      simp only [hasEscape, Bool.or_eq_false_iff, Bool.and_eq_false_iff] at h
      have ih := ih (s := rest) (by simpa using hf) h.2
      simp only [percentDecodeAux]
      split
      · next hb =>
        subst hb
        rcases h.1 with h1 | h1
        · simp at h1
        · split
          · next heq => rw [heq] at h1; simp at h1
          · rw [ih]
      · rw [ih]

theorem percentDecodeAux_eq (fuel : Nat) (s : Bytes) (h : s.length ≤ fuel) :
    percentDecodeAux fuel s = Spec.percentDecode s := by
  induction fuel generalizing s with
  | zero => cases s with
    | nil => simp [percentDecodeAux, Spec.percentDecode]
    | cons _ _ => simp at h
  | succ fuel ih =>
    cases s with
    | nil => simp [percentDecodeAux, Spec.percentDecode]
    | cons b rest =>
      rw [List.length_cons] at h
      have hr := ih rest (by omega)
      unfold percentDecodeAux
      by_cases hb : b = 0x25
      · subst hb
        match rest, hr with
        | [], hr => simp [afterPercentSign, hr, Spec.percentDecode]
        | [x], hr =>
          rw [Spec.percentDecode.eq_def]
          simp [afterPercentSign, hr]
        | x :: y :: rest, hr =>
          rw [Spec.percentDecode.eq_def]
          simp only [List.length_cons] at h
          have hr' := ih rest (by omega)
          simp only [afterPercentSign, toDigit16_eq, if_true]
          cases hexVal x <;> cases hexVal y <;> simp [hr, hr']
      · rw [if_neg hb, hr, Spec.percentDecode.eq_def (b :: rest)]
        split
        · next heq => cases heq
        · next heq => simp only [List.cons.injEq] at heq; exact absurd heq.1 hb
        · next heq => simp only [List.cons.injEq] at heq; rw [heq.1, heq.2]

theorem percentDecode_eq (s : Bytes) : percentDecode s = Spec.percentDecode s :=
  percentDecodeAux_eq _ _ (Nat.le_refl _)

theorem dec_eq (s : Bytes) : dec s = Utf8.lossy (percentDecode s) := by
  rw [dec, percentDecode_eq]

theorem decodeUtf8Lossy_bytes (s : Bytes) :
    (decodeUtf8Lossy s).bytes = dec s := by
  rw [dec_eq]
  unfold decodeUtf8Lossy
  split
  · next h =>
    simp only [Bool.and_eq_true, Bool.not_eq_true'] at h
    rw [percentDecode, percentDecodeAux_of_no_escape _ (Nat.le_refl _) h.1, Utf8.lossy_valid h.2]
    rfl
  · rfl

theorem decodeParam_eq (k : Bytes) (v : Cow) :
    decodeParam k v = .ok (dec k, dec v.bytes) := by
  unfold decodeParam
  cases v with
  | borrowed v => simp only [decodeUtf8Lossy_bytes]; rfl
  | owned v =>
    have h := decodeUtf8Lossy_bytes v
    simp only [decodeUtf8Lossy_bytes]
    cases hd : decodeUtf8Lossy v with
    | borrowed w =>
      rw [hd] at h
      unfold decodeUtf8Lossy at hd
      split at hd
      · next hv =>
        cases hd
        simp only [Bool.and_eq_true] at hv
        simp only [hv.2, if_true]
        change v = _ at h
        change _ = Except.ok (dec k, dec v)
        rw [← h]
      · cases hd
    | owned w =>
      rw [hd] at h
      simp only [Cow.bytes] at h
      simp only [dec, Cow.bytes, h]

theorem decodeParams_eq (items : List (Bytes × Cow)) :
    (items.mapM fun kv => decodeParam kv.1 kv.2) =
      Except.ok ((plainItems items).map fun p => (dec p.1, dec p.2)) := by
  induction items with
  | nil => rfl
  | cons i items ih =>
    rw [List.mapM_cons, ih, decodeParam_eq]
    rfl

theorem dec_encode {v : Bytes} (hv : IsText v) : dec (encode v) = v := by
  rw [dec_eq, percentDecode_of_decode (decode_encode v), Utf8.lossy_text hv]

theorem valid_unreserved {s : Bytes} (h : ∀ b ∈ s, unreserved b = true) :
    IsText s := IsText.ascii (s := s) fun b hb => unreserved_ascii b (h b hb)

theorem dec_unreserved {s : Bytes} (h : ∀ b ∈ s, unreserved b = true) : dec s = s := by
  rw [dec_eq, percentDecode_of_decode (decode_unreserved h), Utf8.lossy_text (valid_unreserved h)]

/-! ### Headers -/

theorem authScheme_eq (v : Bytes) :
    authScheme v = if v.takeWhile tchar = [] then .error .error
      else .ok (v.dropWhile tchar, v.takeWhile tchar) := by
  have : isTchar = tchar := funext isTchar_eq
  unfold authScheme token takeWhile1
  rw [this]
  cases h : v.takeWhile tchar with
  | nil => rfl
  | cons b m => rfl

theorem takeWhile_oauth (text : Bytes) :
    (b!"OAuth " ++ text).takeWhile tchar = b!"OAuth" ∧
      (b!"OAuth " ++ text).dropWhile tchar = 0x20 :: text :=
  takeWhile_stops (p := tchar) (m := b!"OAuth") (r := 0x20 :: text) (by decide) (stops_cons (by decide))

/-- A header with scheme `OAuth` and a list. -/
theorem collectAuthParams_oauth (L : Lib) (text : Bytes) (vs : List Bytes) :
    ∃ items t rest, text = t ++ rest ∧ IsParamList L.emptyOk t items ∧
      ¬ Continues L.emptyOk items rest ∧
      collectAuthParams L ((b!"OAuth " ++ text) :: vs) =
        .ok (if rest = [] then some (items.map fun p => (dec p.1, dec p.2)) else none) := by
  obtain ⟨items, t, rest, h1, h2, h3, h4⟩ :=
    drain_head L.emptyOk ((0x20 :: text : Bytes).length + 1) text (by simp; omega)
  refine ⟨plainItems items, t, rest, h2, h3, h4, ?_⟩
  obtain ⟨e1, e2⟩ := takeWhile_oauth text
  unfold collectAuthParams
  rw [authScheme_eq, e1, e2]
  rw [if_neg (by decide)]
  simp only [if_true]
  rw [if_neg (by simp), if_neg (by simp)]
  have e3 : (0x20 :: text : Bytes).drop 1 = text := rfl
  rw [e3, h1]
  simp only [bind, Except.bind, decodeParams_eq]
  simp only [Punctuated.finish, params]
  cases rest with
  | nil => rfl
  | cons b r => rfl

theorem collectAuthParams_skip (L : Lib) {v : Bytes} (vs : List Bytes)
    (h : v.takeWhile tchar ≠ b!"OAuth") : collectAuthParams L (v :: vs) = collectAuthParams L vs := by
  rw [collectAuthParams, authScheme_eq]
  by_cases he : v.takeWhile tchar = []
  · rw [if_pos he]
  · rw [if_neg he]
    simp only [if_neg h]

/-- How a header whose scheme is `OAuth` can go on. -/
theorem oauth_header_cases {v : Bytes} (h : v.takeWhile tchar = b!"OAuth") :
    v = b!"OAuth" ∨ (∃ text, v = b!"OAuth " ++ text) ∨
      (v.dropWhile tchar ≠ [] ∧ (v.dropWhile tchar).head? ≠ some 0x20) := by
  have e := (takeWhile_decomp tchar v).1
  rw [h] at e
  cases hd : v.dropWhile tchar with
  | nil => rw [hd] at e; exact .inl e
  | cons b r =>
    by_cases hb : b = 0x20
    · subst hb
      rw [hd] at e
      exact .inr (.inl ⟨r, e⟩)
    · exact .inr (.inr ⟨by simp, by simpa using hb⟩)

/-- The parameters of headers, if they are accepted. -/
theorem collectAuthParams_sound (L : Lib) (vs : List Bytes) :
    ∃ r, collectAuthParams L vs = .ok r ∧
      ∀ ps, r = some ps → HeaderParams L.emptyOk dec vs ps := by
  induction vs with
  | nil => exact ⟨some [], rfl, by rintro ps h; cases h; exact .none⟩
  | cons v vs ih =>
    by_cases h : v.takeWhile tchar = b!"OAuth"
    · rcases oauth_header_cases h with rfl | ⟨text, rfl⟩ | ⟨h1, h2⟩
      · refine ⟨some [], rfl, ?_⟩
        rintro ps h; cases h; exact .empty
      · obtain ⟨items, t, rest, e, hl, -, hc⟩ := collectAuthParams_oauth L text vs
        refine ⟨_, hc, ?_⟩
        intro ps hps
        split at hps
        · next hr =>
          cases hps
          subst hr
          rw [List.append_nil] at e
          subst e
          exact .params hl
        · cases hps
      · refine ⟨none, ?_, by rintro ps h; cases h⟩
        rw [collectAuthParams, authScheme_eq, h, if_neg (by decide)]
        simp only [if_true]
        rw [if_neg h1, if_pos h2]
    · rw [collectAuthParams_skip L vs h]
      obtain ⟨r, h1, h2⟩ := ih
      exact ⟨r, h1, fun ps hps => .skip h (h2 ps hps)⟩

/-! ### Forms -/

theorem splitOn_eq (sep : UInt8) (s : Bytes) : splitOn sep s = splitAll sep s := by
  induction s with
  | nil => rfl
  | cons b s ih =>
    unfold splitOn splitAll
    rw [ih]
    by_cases h : b = sep
    · simp [h]
    · simp only [beq_iff_eq, h, if_false]
      cases splitAll sep s <;> rfl

theorem readForm_ok (req : HttpRequest) (form : Bytes) :
    readForm req = .ok form ↔ formOf req = some form := by
  have hf : formOf req = if req.contentType = some formType then req.body else some [] := rfl
  rw [hf]
  unfold readForm
  by_cases h : req.contentType = some formType
  · rw [if_pos h, if_pos h]
    cases req.body <;> simp
  · rw [if_neg h, if_neg h]
    simp

theorem splitFirst_takeWhile (sep : UInt8) (s : Bytes) :
    (splitFirst sep s).getD (s, []) =
      (s.takeWhile (· != sep), (s.dropWhile (· != sep)).drop 1) := by
  induction s with
  | nil => rfl
  | cons b s ih =>
    by_cases hb : b = sep
    · subst hb; simp [splitFirst]
    · unfold splitFirst
      rw [if_neg hb]
      have hb' : (b != sep) = true := by simpa using hb
      simp only [List.takeWhile_cons, List.dropWhile_cons, hb', if_true]
      cases hs : splitFirst sep s with
      | none =>
        rw [hs] at ih
        simp only [Option.getD_none, Prod.mk.injEq] at ih
        simp only [Option.map_none, Option.getD_none]
        rw [← ih.1, ← ih.2]
      | some p =>
        rw [hs] at ih
        simp only [Option.getD_some] at ih
        simp only [Option.map_some, Option.getD_some]
        rw [ih]

/-- `form_urlencoded::parse` gives the pairs of the URL Standard, as text. -/
theorem formParse_eq (s : Bytes) :
    formParse s = pairsOf s := by
  unfold formParse pairsOf urlencoded
  rw [splitOn_eq, List.map_map]
  have hf : (fun p : Bytes => !p.isEmpty) = fun item => item != [] := by
    funext p; cases p <;> rfl
  rw [hf]
  refine List.map_congr_left fun item _ => ?_
  simp only [Function.comp, formPair, formDecode, splitFirst_takeWhile, percentDecode_eq]
  have hp : ∀ t : Bytes, (t.map fun b => if b == 0x2B then 0x20 else b) = plusToSpace t := by
    intro t; simp [plusToSpace]
  rw [hp, hp]

theorem replace_plus {s : Bytes} (h : (0x2B : UInt8) ∉ s) :
    (s.map fun b => if b == 0x2B then (0x20 : UInt8) else b) = s := by
  induction s with
  | nil => rfl
  | cons b s ih =>
    simp only [List.mem_cons, not_or] at h
    have hb : (b == 0x2B) = false := by simpa using Ne.symm h.1
    rw [List.map_cons, ih h.2, hb]
    rfl

theorem splitFirst_some {sep : UInt8} {s a c : Bytes} (h : splitFirst sep s = some (a, c)) :
    s = a ++ sep :: c ∧ sep ∉ a := by
  induction s generalizing a with
  | nil => cases h
  | cons b s ih =>
    unfold splitFirst at h
    split at h
    · next hb => cases h; subst hb; exact ⟨rfl, by simp⟩
    · next hb =>
      obtain ⟨⟨x, y⟩, h1, h2⟩ := Option.map_eq_some_iff.mp h
      cases h2
      obtain ⟨e1, e2⟩ := ih h1
      refine ⟨by rw [e1]; rfl, ?_⟩
      simp only [List.mem_cons, not_or]
      exact ⟨fun e => hb e.symm, e2⟩

theorem formPair_of_parseItem {s : Bytes} {p : Bytes × Bytes} (h : parseItem s = some p)
    (hp : (0x2B : UInt8) ∉ s) : s ≠ [] ∧ formPair s = (Utf8.lossy p.1, Utf8.lossy p.2) := by
  unfold parseItem at h
  split at h
  · cases h
  · next k v he =>
    obtain ⟨rfl, hk⟩ := splitFirst_some he
    simp only [List.mem_append, List.mem_cons, not_or] at hp
    split at h
    · next k' v' hk' hv' =>
      cases h
      refine ⟨by simp, ?_⟩
      obtain ⟨e1, e2⟩ := takeWhile_stops (p := (· != 0x3D)) (m := k) (r := 0x3D :: v)
        (fun b hb => by simp only [bne_iff_ne, ne_eq]; rintro rfl; exact hk hb) (stops_cons (by decide))
      simp only [formPair, e1, e2, List.drop_one, List.tail_cons, formDecode, replace_plus hp.1,
        replace_plus hp.2.2, percentDecode_of_decode hk', percentDecode_of_decode hv']
    · cases h

theorem splitAll_mem {sep : UInt8} {s p : Bytes} (hp : p ∈ splitAll sep s) {c : UInt8} (hc : c ∈ p) :
    c ∈ s := by
  induction s generalizing p with
  | nil => simp [splitAll] at hp; subst hp; cases hc
  | cons b s ih =>
    unfold splitAll at hp
    split at hp
    · rcases List.mem_cons.mp hp with rfl | hp
      · cases hc
      · exact List.mem_cons_of_mem _ (ih hp hc)
    · cases hs : splitAll sep s with
      | nil => exact absurd hs (splitAll_ne_nil sep s)
      | cons q qs =>
        rw [hs] at hp
        rcases List.mem_cons.mp hp with rfl | hp
        · rcases List.mem_cons.mp hc with rfl | hc
          · simp
          · exact List.mem_cons_of_mem _ (ih (by rw [hs]; simp) hc)
        · exact List.mem_cons_of_mem _ (ih (by rw [hs]; simp [hp]) hc)

/-- The server reads well-formed forms as specified. -/
theorem formParse_of_parseForm {s : Bytes} {ps : List (Bytes × Bytes)}
    (h : parseForm s = some ps) (hp : (0x2B : UInt8) ∉ s) :
    formParse s = ps.map fun p => (Utf8.lossy p.1, Utf8.lossy p.2) := by
  unfold parseForm at h
  split at h
  · next he => cases h; subst he; rfl
  · unfold formParse
    rw [splitOn_eq]
    have hmem : ∀ p ∈ splitAll 0x26 s, (0x2B : UInt8) ∉ p := fun p hp' hc => hp (splitAll_mem hp' hc)
    generalize splitAll 0x26 s = items at h hmem
    induction items generalizing ps with
    | nil => cases h; rfl
    | cons i items ih =>
      unfold allSome at h
      split at h
      · next p ps' h1 h2 =>
        cases h
        obtain ⟨hne, hf⟩ := formPair_of_parseItem h1 (hmem i (by simp))
        have : (!i.isEmpty) = true := by cases i <;> simp at hne ⊢
        simp only [List.filter_cons, this, if_true, List.map_cons, hf,
          ih h2 (fun p hp => hmem p (by simp [hp]))]
      · cases h

/-! ### Sorting -/

theorem cmpParam_eq (a b : Parameter) :
    cmpParam a b = ParameterList.cmp (a.1, .ofBytes a.2) (b.1, .ofBytes b.2) := by
  unfold cmpParam ParameterList.cmp fmtCmp
  simp

theorem cmpParam_ne_gt (a b : Parameter) : cmpParam a b ≠ .gt ↔ pairLe a b := by
  unfold cmpParam pairLe
  simp only [← cmpBytes_lt_iff, ← bytesLe_iff_le, bytesLe_iff_ne_gt, ← cmpBytes_eq_iff]
  cases cmpBytes a.1 b.1 <;> simp [Ordering.then]

theorem cmpParam_swap (a b : Parameter) : (cmpParam a b).swap = cmpParam b a := by
  unfold cmpParam
  rw [← cmpBytes_swap a.1 b.1, ← cmpBytes_swap a.2 b.2]
  cases cmpBytes a.1 b.1 <;> simp [Ordering.then, Ordering.swap]

theorem sort_eq (srt : SortFn) (l : List Parameter) : srt.run cmpParam l = sortPairs l := by
  have h := srt.sorted cmpParam l cmpParam_swap (by
    intro a b c h1 h2
    rw [cmpParam_ne_gt] at h1 h2 ⊢
    exact pairLe_trans h1 h2)
  have h' : Ascending (srt.run cmpParam l) := h.imp fun hab => (cmpParam_ne_gt _ _).mp hab
  exact ascending_perm_eq h' (sortPairs_spec l).2 ((srt.perm cmpParam l).trans (sortPairs_spec l).1.symm)

theorem sortPairs_perm {l l' : List (Bytes × Bytes)} (h : l.Perm l') : sortPairs l = sortPairs l' :=
  sortPairs_of_ascending ((sortPairs_spec l').1.trans h.symm) (sortPairs_spec l').2

/-! ### Looking up protocol parameters -/

/-- Keys in ascending order. -/
def KeysAscending (l : List Parameter) : Prop := l.Pairwise fun a b => bytesLe a.1 b.1 = true

theorem keysAscending_of_ascending {l : List Parameter} (h : Ascending l) : KeysAscending l := by
  refine h.imp ?_
  intro a b hab
  rw [bytesLe_iff_le]
  rcases hab with h | ⟨h, -⟩
  · exact List.le_of_lt h
  · rw [h]; exact List.le_refl _

theorem first_cons (name k v : Bytes) (l : List Parameter) :
    first name ((k, v) :: l) = if k = name then some v else first name l := by
  unfold first
  simp only [List.find?_cons]
  by_cases h : k = name
  · simp [h]
  · have : (k == name) = false := by simpa using h
    simp [this, h]

theorem first_none_of_lt {name : Bytes} {l : List Parameter}
    (h : ∀ p ∈ l, p.1 ≠ name) : first name l = none := by
  induction l with
  | nil => rfl
  | cons p l ih =>
    obtain ⟨k, v⟩ := p
    rw [first_cons, if_neg (h (k, v) (by simp)), ih (fun p hp => h p (by simp [hp]))]

theorem first_mem {name v : Bytes} {l : List Parameter} (h : first name l = some v) : (name, v) ∈ l := by
  induction l with
  | nil => cases h
  | cons p l ih =>
    obtain ⟨k, w⟩ := p
    rw [first_cons] at h
    split at h
    · next hk => cases h; subst hk; simp
    · exact List.mem_cons_of_mem _ (ih h)

theorem first_none {name : Bytes} {l : List Parameter} (h : first name l = none) :
    ∀ p ∈ l, p.1 ≠ name := by
  induction l with
  | nil => simp
  | cons p l ih =>
    obtain ⟨k, w⟩ := p
    rw [first_cons] at h
    split at h
    · cases h
    · next hk =>
      intro p hp
      rcases List.mem_cons.mp hp with rfl | hp
      · exact hk
      · exact ih h p hp

theorem cmpBytes_gt_iff (a b : Bytes) : cmpBytes a b = .gt ↔ cmpBytes b a = .lt := by
  rw [← cmpBytes_swap b a]
  cases cmpBytes b a <;> simp [Ordering.swap]

theorem get_spec (key : Bytes) {l : List Parameter} (hl : KeysAscending l) :
    (get key l).1 = first key l ∧ KeysAscending (get key l).2 ∧
      ∀ k', cmpBytes key k' = .lt → first k' (get key l).2 = first k' l := by
  induction l with
  | nil => exact ⟨rfl, .nil, fun _ _ => rfl⟩
  | cons p l ih =>
    obtain ⟨k, v⟩ := p
    have hl' := List.pairwise_cons.mp hl
    have ih := ih hl'.2
    unfold get
    rw [first_cons]
    by_cases hk : k = key
    · subst hk
      simp only [if_true]
      refine ⟨trivial, hl'.2, ?_⟩
      intro k' hk'
      rw [first_cons, if_neg]
      rintro rfl
      rw [cmpBytes_refl] at hk'
      cases hk'
    · simp only [if_neg hk]
      by_cases hgt : cmpBytes k key = .gt
      · simp only [if_pos hgt]
        refine ⟨?_, hl, fun _ _ => trivial⟩
        rw [first_none_of_lt]
        intro p hp he
        have h1 := hl'.1 p hp
        simp only [he] at h1
        rw [bytesLe_iff_ne_gt] at h1
        exact h1 hgt
      · simp only [if_neg hgt]
        refine ⟨ih.1, ih.2.1, ?_⟩
        intro k' hk'
        rw [ih.2.2 k' hk', first_cons, if_neg]
        rintro rfl
        exact hgt ((cmpBytes_gt_iff _ _).mpr hk')

/-- What `collect_oauth_params` makes of the first values of parameters, and of a value of
`oauth_callback`. -/
def readParams (callback : Option Bytes) (val : Bytes → Option Bytes) : Except Nat OAuthParams :=
  match val b!"oauth_consumer_key" with
  | none => .error 401
  | some consumerKey => match val b!"oauth_signature" with
    | none => .error 400
    | some signature => match val b!"oauth_signature_method" with
      | none => .error 400
      | some signatureMethod => match val b!"oauth_timestamp" with
        | none => .ok
            { consumerKey := consumerKey, token := val b!"oauth_token",
              signatureMethod := signatureMethod, timestamp := none,
              nonce := val b!"oauth_nonce", signature := signature, callback := callback,
              verifier := val b!"oauth_verifier" }
        | some t => match parseU64 t with
          | none => .error 400
          | some t => .ok
              { consumerKey := consumerKey, token := val b!"oauth_token",
                signatureMethod := signatureMethod, timestamp := some t,
                nonce := val b!"oauth_nonce", signature := signature, callback := callback,
                verifier := val b!"oauth_verifier" }

theorem search_spec (L : Lib) {l : List Parameter} (hl : KeysAscending l) (k : Bytes) :
    let i := L.search (l.map (·.1)) k
    i ≤ l.length ∧ (∀ k', cmpBytes k k' = .lt → first k' (l.drop i) = first k' l) ∧
      (first k (l.drop i) = none → first k l = none) := by
  intro i
  have hsorted : (l.map (·.1)).Pairwise (fun a b => bytesLe a b = true) := List.pairwise_map.mpr hl
  have hle : i ≤ l.length := by simpa using L.search_le (l.map (·.1)) k
  have hdrop : ∀ k', (∀ p ∈ l.take i, p.1 ≠ k') → first k' (l.drop i) = first k' l := by
    intro k' hk'
    have : l = l.take i ++ l.drop i := (List.take_append_drop i l).symm
    generalize hd : l.drop i = d at this ⊢
    generalize ht : l.take i = t at this hk'
    subst this
    clear hl hsorted hle hd ht
    clear i
    induction t with
    | nil => rfl
    | cons p t ih =>
      obtain ⟨a, v⟩ := p
      rw [List.cons_append, first_cons, if_neg (hk' (a, v) (by simp))]
      exact ih (fun p hp => hk' p (by simp [hp]))
  by_cases hmem : k ∈ l.map (·.1)
  · have hf := L.search_found _ k hsorted hmem
    have hi : ∃ v, l[i]? = some (k, v) := by
      rw [List.getElem?_map, Option.map_eq_some_iff] at hf
      obtain ⟨⟨a, v⟩, h1, h2⟩ := hf
      simp only at h2
      subst h2
      exact ⟨v, h1⟩
    obtain ⟨v, hi⟩ := hi
    have hd : l.drop i = (k, v) :: l.drop (i + 1) := by
      have hlt : i < l.length := by
        rcases Nat.lt_or_ge i l.length with h | h
        · exact h
        · rw [List.getElem?_eq_none h] at hi; cases hi
      rw [List.getElem?_eq_getElem hlt] at hi
      cases hi' : l[i] with
      | mk a w =>
        rw [hi'] at hi
        cases hi
        rw [← hi', List.drop_eq_getElem_cons hlt]
    have hbefore : ∀ p ∈ l.take i, bytesLe p.1 k = true := by
      intro p hp
      have : l = l.take i ++ l.drop i := (List.take_append_drop i l).symm
      rw [KeysAscending, this, hd] at hl
      exact (List.pairwise_append.mp hl).2.2 p hp (k, v) (by simp)
    refine ⟨hle, ?_, ?_⟩
    · intro k' hk'
      apply hdrop
      rintro p hp rfl
      have := hbefore p hp
      rw [bytesLe_iff_ne_gt] at this
      exact this ((cmpBytes_gt_iff _ _).mpr hk')
    · intro h
      rw [hd, first_cons, if_pos rfl] at h
      cases h
  · obtain ⟨h1, h2⟩ := L.search_missing _ k hsorted hmem
    refine ⟨hle, ?_, ?_⟩
    · intro k' hk'
      apply hdrop
      rintro p hp rfl
      have := h1 p.1 (by rw [← List.map_take]; exact List.mem_map.mpr ⟨p, hp, rfl⟩)
      rw [← cmpBytes_gt_iff, this] at hk'
      cases hk'
    · intro _
      apply first_none_of_lt
      rintro p hp rfl
      exact hmem (List.mem_map.mpr ⟨p, hp, rfl⟩)

theorem collectOAuthParams_eq (L : Lib) {l : List Parameter} (hl : KeysAscending l) :
    ∃ callback, (∀ v, callback = some v → (b!"oauth_callback", v) ∈ l) ∧
      (callback = none → first b!"oauth_callback" l = none) ∧
      collectOAuthParams L l = .ok (readParams callback fun k => first k l) := by
  obtain ⟨s1, s2, s3⟩ := search_spec L hl b!"oauth_callback"
  let d := l.drop (L.search (l.map (·.1)) b!"oauth_callback")
  have hd : KeysAscending d := List.Pairwise.sublist (List.drop_sublist _ _) hl
  obtain ⟨c1, c2, c3⟩ := get_spec b!"oauth_callback" hd
  obtain ⟨ck1, ck2, ck3⟩ := get_spec b!"oauth_consumer_key" c2
  obtain ⟨n1, n2, n3⟩ := get_spec b!"oauth_nonce" ck2
  obtain ⟨sg1, sg2, sg3⟩ := get_spec b!"oauth_signature" n2
  obtain ⟨sm1, sm2, sm3⟩ := get_spec b!"oauth_signature_method" sg2
  obtain ⟨ts1, ts2, ts3⟩ := get_spec b!"oauth_timestamp" sm2
  obtain ⟨tk1, tk2, tk3⟩ := get_spec b!"oauth_token" ts2
  obtain ⟨vf1, vf2, vf3⟩ := get_spec b!"oauth_verifier" tk2
  rw [c3 _ (by decide), s2 _ (by decide)] at ck1
  rw [ck3 _ (by decide), c3 _ (by decide), s2 _ (by decide)] at n1
  rw [n3 _ (by decide), ck3 _ (by decide), c3 _ (by decide), s2 _ (by decide)] at sg1
  rw [sg3 _ (by decide), n3 _ (by decide), ck3 _ (by decide), c3 _ (by decide), s2 _ (by decide)] at sm1
  rw [sm3 _ (by decide), sg3 _ (by decide), n3 _ (by decide), ck3 _ (by decide), c3 _ (by decide),
    s2 _ (by decide)] at ts1
  rw [ts3 _ (by decide), sm3 _ (by decide), sg3 _ (by decide), n3 _ (by decide), ck3 _ (by decide),
    c3 _ (by decide), s2 _ (by decide)] at tk1
  rw [tk3 _ (by decide), ts3 _ (by decide), sm3 _ (by decide), sg3 _ (by decide), n3 _ (by decide),
    ck3 _ (by decide), c3 _ (by decide), s2 _ (by decide)] at vf1
  refine ⟨(get b!"oauth_callback" d).1, ?_, ?_, ?_⟩
  · intro v hv
    rw [c1] at hv
    exact List.mem_of_mem_drop (first_mem hv)
  · intro h
    rw [c1] at h
    exact s3 h
  · unfold collectOAuthParams
    simp only []
    rw [if_neg (by omega)]
    change (match get b!"oauth_consumer_key" (get b!"oauth_callback" d).2 with
      | (none, _) => _
      | (some consumerKey, params) => _) = _
    generalize get b!"oauth_callback" d = x0 at *
    obtain ⟨cb, p0⟩ := x0
    simp only at *
    simp only [readParams]
    rw [← ck1]
    generalize get b!"oauth_consumer_key" p0 = x1 at *
    obtain ⟨v1, p1⟩ := x1
    cases v1 with
    | none => rfl
    | some v1 =>
    simp only at *
    rw [← sg1, ← n1]
    generalize get b!"oauth_nonce" p1 = x2 at *
    obtain ⟨v2, p2⟩ := x2
    simp only at *
    generalize get b!"oauth_signature" p2 = x3 at *
    obtain ⟨v3, p3⟩ := x3
    cases v3 with
    | none => rfl
    | some v3 =>
    simp only at *
    rw [← sm1]
    generalize get b!"oauth_signature_method" p3 = x4 at *
    obtain ⟨v4, p4⟩ := x4
    cases v4 with
    | none => rfl
    | some v4 =>
    simp only at *
    rw [← ts1, ← tk1, ← vf1]
    generalize get b!"oauth_timestamp" p4 = x5 at *
    obtain ⟨v5, p5⟩ := x5
    cases v5 with
    | none => rfl
    | some v5 =>
      simp only at *
      cases parseU64 v5 <;> rfl

/-! ### The base string -/

theorem pct_eq (s : Bytes) : pct s = encode s := percentEncodeStr_text s

theorem toAsciiUppercase_eq (s : Bytes) : toAsciiUppercase s = upper s := by
  unfold toAsciiUppercase upper
  congr 1
  funext b
  revert b; apply forall_byte; decide +kernel

theorem baseParams_eq (f : Bool) (ps : List Parameter) :
    baseParams f ps = (if f || (unsigned ps).isEmpty then [] else b!"%26") ++
      join b!"%26" ((unsigned ps).map fun p =>
        encode (encode p.1) ++ b!"%3D" ++ encode (encode p.2)) := by
  induction ps generalizing f with
  | nil => cases f <;> rfl
  | cons p ps ih =>
    obtain ⟨k, v⟩ := p
    unfold baseParams
    by_cases hk : k = b!"oauth_signature"
    · rw [if_pos hk, ih]
      have : unsigned ((k, v) :: ps) = unsigned ps := by simp [unsigned, hk]
      rw [this]
    · rw [if_neg hk, ih]
      have : unsigned ((k, v) :: ps) = (k, v) :: unsigned ps := by simp [unsigned, hk]
      rw [this]
      cases hu : unsigned ps with
      | nil => cases f <;> simp [join, pct_eq]
      | cons q qs => cases f <;> simp [join, pct_eq]

theorem createBaseStringAt_eq (scheme authority : Bytes) (req : HttpRequest) (ps : List Parameter)
    (hps : Ascending ps) :
    createBaseStringAt scheme authority req ps =
      rawOrderBase req.method (scheme ++ b!"://" ++ baseAuthority scheme authority ++ req.path)
        (unsigned ps) := by
  have hs : sortPairs (unsigned ps) = unsigned ps :=
    sortPairs_of_ascending (.refl _) (hps.sublist List.filter_sublist)
  have e1 : encode b!"://" = b!"%3A%2F%2F" := by decide
  unfold createBaseStringAt rawOrderBase
  rw [hs, baseParams_eq, encode_append, encode_append, encode_append, e1, encode_join]
  have e2 : encode b!"&" = b!"%26" := by decide
  have e3 : encode b!"=" = b!"%3D" := by decide
  simp only [pct_eq, toAsciiUppercase_eq, Bool.true_or, if_true, List.nil_append, List.append_assoc,
    e2, List.map_map]
  have e4 : (encode ∘ fun p : Bytes × Bytes => encode p.1 ++ (b!"=" ++ encode p.2)) =
      fun p : Bytes × Bytes => encode (encode p.1) ++ (b!"%3D" ++ encode (encode p.2)) := by
    funext p
    simp only [Function.comp_apply, encode_append, e3]
  rw [e4]

theorem createBaseString_eq (req : HttpRequest) (ps : List Parameter) (hps : Ascending ps) :
    createBaseString req ps =
      rawOrderBase req.method (b!"http://127.0.0.1:8080" ++ req.path) (unsigned ps) := by
  have e : SCHEME ++ b!"://" ++ baseAuthority SCHEME AUTHORITY = b!"http://127.0.0.1:8080" := by
    decide +kernel
  rw [createBaseString, createBaseStringAt_eq _ _ _ _ hps, e]

theorem mac_eq (key msg : Bytes) :
    ((Hmac.newFromSlice Sha1.hash key).update msg).finalize Sha1.hash = hmac Sha1.hash key msg := by
  have : (Hmac.newFromSlice Sha1.hash key).update msg = ⟨hmacBlockKey Sha1.hash key, msg⟩ := by
    unfold Hmac.newFromSlice Hmac.update hmacBlockKey
    by_cases h : key.length ≤ 64
    · simp [h, Nat.not_lt.mpr h]
    · simp [h, Nat.lt_of_not_le h]
  rw [this, finalize_eq]

end OAuth.Server
