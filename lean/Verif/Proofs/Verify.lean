import Verif.Proofs.Decimal
import Verif.Proofs.Server
import Verif.Properties.Signature

/-
The example server's verification as a whole, and the headers of this crate as it reads them.
-/

namespace OAuth.Server

open Spec

/-! ### Whole lists -/

theorem authParam_exact {emptyOk : Bool} {t k v : Bytes} (h : IsAuthParam emptyOk t k v) {r : Bytes}
    (hr : Stops isTchar r) :
    ∃ c : Cow, authParam emptyOk (t ++ r) = .ok (r, (k, c)) ∧ c.bytes = v := by
  obtain ⟨w, w', vt, rfl, hk, hw, hw', hv⟩ := h
  obtain ⟨hs, -⟩ := paramValue_starts hv r
  have e : k ++ (w ++ (0x3D :: (w' ++ vt))) ++ r = k ++ (w ++ (0x3D :: (w' ++ (vt ++ r)))) := by simp
  rw [e, authParam_steps hk hw hw' hs]
  rcases hv with ⟨ht, rfl⟩ | ⟨q, rfl, hq, hne⟩
  · rw [paramValue_token ht hr]
    exact ⟨_, rfl, rfl⟩
  · have := paramValue_quoted r hq hne
    simp only [List.cons_append, List.append_assoc] at this ⊢
    simp only [List.nil_append] at this ⊢
    rw [this]
    exact ⟨_, rfl, rfl⟩

theorem tail_stops {emptyOk : Bool} {s : Bytes} {items : List (Bytes × Bytes)}
    (h : IsParamTail emptyOk s items) : Stops isTchar s := by
  cases h with
  | nil => exact stops_nil _
  | @cons w _ _ _ _ _ _ hw _ _ _ =>
    cases w with
    | nil => exact stops_cons (by decide)
    | cons b w =>
      refine stops_cons ?_
      rcases hw b (by simp) with rfl | rfl <;> decide

theorem drain_tail_complete {emptyOk : Bool} {s : Bytes} {items : List (Bytes × Bytes)}
    (h : IsParamTail emptyOk s items) (fuel : Nat) (hfuel : s.length < fuel) :
    ∃ cows, (params emptyOk s .mid).drain fuel = .ok (cows, params emptyOk [] .done) ∧
      plainItems cows = items := by
  induction h generalizing fuel with
  | nil =>
    obtain ⟨f, rfl⟩ : ∃ f, fuel = f + 1 := ⟨fuel - 1, by simp at hfuel; omega⟩
    exact ⟨[], rfl, rfl⟩
  | @cons w w' text key value rest items hw hw' ht htail ih =>
    obtain ⟨f, rfl⟩ : ∃ f, fuel = f + 1 := ⟨fuel - 1, by omega⟩
    obtain ⟨c, hc, hv⟩ := authParam_exact ht (tail_stops htail)
    have hcomma := comma_eq (s := text ++ rest) hw hw' (authParam_complete ht rest).2
    obtain ⟨cows, h1, h2⟩ := ih f (by simp at hfuel; omega)
    refine ⟨(key, c) :: cows, ?_, ?_⟩
    · simp only [params] at h1
      simp only [Punctuated.drain, Punctuated.next, params, hcomma, hc, h1]
      rfl
    · rw [← h2, ← hv]; rfl

theorem drain_complete {emptyOk : Bool} {s : Bytes} {items : List (Bytes × Bytes)}
    (h : IsParamList emptyOk s items) (fuel : Nat) (hfuel : s.length < fuel) :
    ∃ cows, (hash s (authParam emptyOk)).drain fuel = .ok (cows, params emptyOk [] .done) ∧
      plainItems cows = items := by
  obtain ⟨f, rfl⟩ : ∃ f, fuel = f + 1 := ⟨fuel - 1, by omega⟩
  cases h with
  | nil => exact ⟨[], rfl, rfl⟩
  | @cons text key value rest items ht htail =>
    obtain ⟨c, hc, hv⟩ := authParam_exact ht (tail_stops htail)
    have hpos : 0 < text.length := by
      obtain ⟨w, w', v, rfl, -⟩ := ht
      simp
      omega
    obtain ⟨cows, h1, h2⟩ := drain_tail_complete htail f (by simp at hfuel; omega)
    refine ⟨(key, c) :: cows, ?_, ?_⟩
    · simp only [params] at h1
      simp only [Punctuated.drain, Punctuated.next, hash, Punctuated.new, hc, h1, params]
      rfl
    · rw [← h2, ← hv]; rfl

/-- A whole list is read one way only. -/
theorem paramList_unique {emptyOk : Bool} {s : Bytes} {items items' : List (Bytes × Bytes)}
    (h : IsParamList emptyOk s items) (h' : IsParamList emptyOk s items') : items = items' := by
  obtain ⟨c, h1, rfl⟩ := drain_complete h (s.length + 1) (by omega)
  obtain ⟨c', h2, rfl⟩ := drain_complete h' (s.length + 1) (by omega)
  rw [h1] at h2
  cases h2
  rfl

theorem collectAuthParams_list (L : Lib) {text : Bytes} {items : List (Bytes × Bytes)}
    (h : IsParamList L.emptyOk text items) (vs : List Bytes) :
    collectAuthParams L ((b!"OAuth " ++ text) :: vs) =
      .ok (some (items.map fun p => (dec p.1, dec p.2))) := by
  obtain ⟨cows, h1, h2⟩ := drain_complete h ((0x20 :: text : Bytes).length + 1) (by simp; omega)
  obtain ⟨e1, e2⟩ := takeWhile_oauth text
  unfold collectAuthParams
  rw [authScheme_eq, e1, e2]
  rw [if_neg (by decide)]
  simp only [if_true]
  rw [if_neg (by simp), if_neg (by simp)]
  have e3 : (0x20 :: text : Bytes).drop 1 = text := rfl
  rw [e3, h1]
  simp only [bind, Except.bind, decodeParams_eq, h2]
  rfl

/-- Headers are read as the grammar says, and rejected if it does not allow them. -/
theorem collectAuthParams_iff (L : Lib) (vs : List Bytes) (ps : List Parameter) :
    collectAuthParams L vs = .ok (some ps) ↔ HeaderParams L.emptyOk dec vs ps := by
  constructor
  · intro h
    obtain ⟨r, h1, h2⟩ := collectAuthParams_sound L vs
    rw [h] at h1
    cases h1
    exact h2 ps rfl
  · intro h
    induction h with
    | none => rfl
    | skip hne _ ih => rw [collectAuthParams_skip L _ hne, ih]
    | empty => rfl
    | params hl => exact collectAuthParams_list L hl _

/-! ### Headers of this crate -/

theorem isAuthParam_quoted {emptyOk : Bool} {k q : Bytes} (hk : IsToken k)
    (hq : ∀ b ∈ q, qdtext b = true) (hne : q = [] → emptyOk = true) :
    IsAuthParam emptyOk (k ++ b!"=\"" ++ q ++ b!"\"") k q := by
  refine ⟨[], [], b!"\"" ++ q ++ b!"\"", by simp, hk, by simp [IsBlank], by simp [IsBlank],
    .inr ⟨q, by simp, ?_, hne⟩⟩
  have := QuotedText.append_text hq .nil
  simpa using this

theorem isParamTail_items {emptyOk : Bool} (ps : List (Bytes × Bytes)) {k v : Bytes}
    (h : ∀ p ∈ ps ++ [(k, v)], IsToken p.1 ∧ (∀ b ∈ p.2, qdtext b = true) ∧
      (p.2 = [] → emptyOk = true)) :
    IsParamTail emptyOk (b!"," ++ ((ps.map headerItem).flatten ++ (k ++ b!"=\"" ++ v ++ b!"\"")))
      (ps ++ [(k, v)]) := by
  induction ps with
  | nil =>
    obtain ⟨h1, h2, h3⟩ := h (k, v) (by simp)
    have := IsParamTail.cons (w := []) (w' := []) (by simp [IsBlank]) (by simp [IsBlank])
      (isAuthParam_quoted h1 h2 h3) (.nil (emptyOk := emptyOk))
    simpa using this
  | cons p ps ih =>
    obtain ⟨h1, h2, h3⟩ := h p (by simp)
    have := IsParamTail.cons (w := []) (w' := []) (by simp [IsBlank]) (by simp [IsBlank])
      (isAuthParam_quoted h1 h2 h3) (ih fun q hq => h q (by simp at hq ⊢; exact .inr hq))
    simpa [headerItem] using this

theorem isParamList_items {emptyOk : Bool} (ps : List (Bytes × Bytes)) {k v : Bytes}
    (h : ∀ p ∈ ps ++ [(k, v)], IsToken p.1 ∧ (∀ b ∈ p.2, qdtext b = true) ∧
      (p.2 = [] → emptyOk = true)) :
    IsParamList emptyOk ((ps.map headerItem).flatten ++ (k ++ b!"=\"" ++ v ++ b!"\""))
      (ps ++ [(k, v)]) := by
  cases ps with
  | nil =>
    obtain ⟨h1, h2, h3⟩ := h (k, v) (by simp)
    have := IsParamList.cons (isAuthParam_quoted h1 h2 h3) (.nil (emptyOk := emptyOk))
    simpa using this
  | cons p ps =>
    obtain ⟨h1, h2, h3⟩ := h p (by simp)
    have := IsParamList.cons (isAuthParam_quoted h1 h2 h3)
      (isParamTail_items ps (k := k) (v := v) fun q hq => h q (by simp at hq ⊢; exact .inr hq))
    simpa [headerItem] using this

theorem unreserved_tchar {b : UInt8} (h : unreserved b = true) : tchar b = true := by
  revert h; revert b; apply forall_byte; decide +kernel

theorem encode_qdtext (s : Bytes) : ∀ b ∈ encode s, qdtext b = true := by
  have h : ∀ b : UInt8, (unreserved b || b == 0x25) = true → qdtext b = true := by
    apply forall_byte; decide +kernel
  intro b hb
  exact h b (encode_alphabet s b hb)

theorem encode_eq_nil {s : Bytes} (h : encode s = []) : s = [] := by
  have := decode_encode s
  rw [h] at this
  simpa [decode] using this.symm

theorem isToken_signature : IsToken b!"oauth_signature" := ⟨by decide, by decide⟩

/-- The header of parameters with names that need no encoding is read completely. `sig` is the text of
the signature. -/
theorem headerText_list {emptyOk : Bool} {ps : List (Bytes × Bytes)} {sig : Bytes}
    (hk : ∀ p ∈ ps, p.1 ≠ [] ∧ ∀ b ∈ p.1, unreserved b = true)
    (hv : ∀ p ∈ ps, p.2 = [] → emptyOk = true)
    (hs : ∀ b ∈ sig, qdtext b = true) (hne : sig ≠ []) :
    ∃ text, headerText (ps.map fun p => (p.1, encode p.2)) sig = b!"OAuth " ++ text ∧
      IsParamList emptyOk text (ps.map (fun p => (p.1, encode p.2)) ++ [(b!"oauth_signature", sig)]) := by
  refine ⟨_, ?_, isParamList_items (ps.map fun p => (p.1, encode p.2)) ?_⟩
  · simp [headerText]
  · intro p hp
    rcases List.mem_append.mp hp with hp | hp
    · obtain ⟨q, hq, rfl⟩ := List.mem_map.mp hp
      refine ⟨⟨(hk q hq).1, fun b hb => unreserved_tchar ((hk q hq).2 b hb)⟩, encode_qdtext _, ?_⟩
      intro he
      exact hv q hq (encode_eq_nil he)
    · simp only [List.mem_singleton] at hp
      subst hp
      exact ⟨isToken_signature, hs, fun h => absurd h hne⟩

/-! ### Verification -/

theorem addWindow_le {cfg : Cfg} {t u : Nat} (h : addWindow cfg t = .ok u) : u ≤ t + 30 := by
  unfold addWindow at h
  split at h
  · cases h; exact Nat.le_refl _
  · split at h
    · cases h
    · cases h; exact Nat.mod_le _ _

theorem checkHmacSha1_ok_iff (L : Lib) (req : HttpRequest) {ps : List Parameter} (hps : Ascending ps)
    (o : OAuthParams) (client : Credentials Bytes) (token : Option (Credentials Bytes)) :
    checkHmacSha1 L req ps o client token = .ok (.ok ()) ↔
      o.timestamp.isSome = true ∧ o.nonce.isSome = true ∧ o.signature.length ≤ 28 ∧
      L.base64Decode o.signature = some (hmac Sha1.hash (macKey client token)
        (rawOrderBase req.method (b!"http://127.0.0.1:8080" ++ req.path) (unsigned ps))) := by
  have hl : ∀ k m, (hmac Sha1.hash k m).length = 20 := fun k m => by simp only [hmac, sha1_length]
  unfold checkHmacSha1
  simp only [mac_eq, createBaseString_eq req ps hps]
  cases o.timestamp with
  | none => simp
  | some t =>
    cases o.nonce with
    | none => simp
    | some n =>
      simp only [Option.isNone_some, Bool.or_self, Option.isSome_some, true_and]
      by_cases h28 : o.signature.length ≤ 28
      · rw [if_neg (by simp), if_neg (by omega)]
        cases L.base64Decode o.signature with
        | none => simp
        | some s =>
          simp only [Option.some.injEq]
          constructor
          · intro h
            split at h
            · cases h
            · split at h
              · cases h
              · split at h
                · cases h
                · next hx => exact ⟨h28, Decidable.not_not.mp hx⟩
          · rintro ⟨-, rfl⟩
            rw [if_neg (by rw [hl]; decide), if_neg (by rw [hl]; decide), if_neg (by simp)]
      · rw [if_neg (by simp), if_pos (by omega)]
        simp [h28]

theorem checkHmacSha1_no_panic (L : Lib) (req : HttpRequest) (ps : List Parameter) (o : OAuthParams)
    (client : Credentials Bytes) (token : Option (Credentials Bytes)) :
    ∃ r, checkHmacSha1 L req ps o client token = .ok r ∧ ∀ c, r = .error c → c = 400 ∨ c = 401 := by
  unfold checkHmacSha1
  split
  · exact ⟨_, rfl, by rintro c ⟨⟩; exact .inl rfl⟩
  · split
    · exact ⟨_, rfl, by rintro c ⟨⟩; exact .inl rfl⟩
    · next h28 =>
      split
      · exact ⟨_, rfl, by rintro c ⟨⟩; exact .inl rfl⟩
      · next s hs =>
        have := L.base64Decode_length _ _ hs
        have h21 : ¬ s.length > 21 := by omega
        rw [if_neg h21]
        simp only []
        split
        · exact ⟨_, rfl, by rintro c ⟨⟩; exact .inl rfl⟩
        · split
          · exact ⟨_, rfl, by rintro c ⟨⟩; exact .inr rfl⟩
          · exact ⟨_, rfl, by rintro c ⟨⟩⟩

theorem checkPresence_ok_iff {α β : Type} (e : Option α) (f : Option β) :
    checkPresence e f = .ok () ↔ e.isSome = f.isSome := by
  cases e <;> cases f <;> simp [checkPresence]

theorem checkPresence_error {α β : Type} {e : Option α} {f : Option β} {c : Nat}
    (h : checkPresence e f = .error c) : c = 400 ∨ c = 401 := by
  cases e <;> cases f <;> simp [checkPresence] at h <;> omega

theorem checkIdentifiers_ok_iff (o : OAuthParams) (client : Credentials Bytes)
    (token : Option (Credentials Bytes)) (verifier : Option Bytes)
    (ht : token.isSome = o.token.isSome) (hv : verifier.isSome = o.verifier.isSome) :
    checkIdentifiers o client token verifier = .ok () ↔
      o.consumerKey = client.identifier ∧ o.token = token.map (·.identifier) ∧ o.verifier = verifier := by
  have hver : checkIdentifiers.checkVerifier o verifier = .ok () ↔ o.verifier = verifier := by
    unfold checkIdentifiers.checkVerifier
    cases verifier <;> cases hov : o.verifier <;> simp [hov] at hv ⊢
    exact eq_comm
  unfold checkIdentifiers
  by_cases hc : client.identifier = o.consumerKey
  · rw [if_neg (by simpa using hc)]
    cases token with
    | none =>
      cases hot : o.token with
      | none => simp [hver, hc]
      | some t => simp [hot] at ht
    | some tk =>
      cases hot : o.token with
      | none => simp [hot] at ht
      | some t =>
        simp only [Option.map_some, Option.some.injEq]
        by_cases he : tk.identifier = t
        · rw [if_neg (by simpa using he), hver]
          simp [hc, he]
        · rw [if_pos he]
          constructor
          · intro h; cases h
          · rintro ⟨-, h, -⟩; exact absurd h.symm he
  · rw [if_pos hc]
    constructor
    · intro h; cases h
    · rintro ⟨h, -⟩; exact absurd h.symm hc

theorem checkIdentifiers_error {o : OAuthParams} {client : Credentials Bytes}
    {token : Option (Credentials Bytes)} {verifier : Option Bytes} {c : Nat}
    (h : checkIdentifiers o client token verifier = .error c) : c = 401 := by
  have hver : checkIdentifiers.checkVerifier o verifier = .error c → c = 401 := by
    unfold checkIdentifiers.checkVerifier
    intro h
    split at h
    · split at h
      · cases h; rfl
      · cases h
    · cases h
  unfold checkIdentifiers at h
  split at h
  · cases h; rfl
  · split at h
    · split at h
      · cases h; rfl
      · exact hver h
    · exact hver h

/-- `inner` passes exactly if all checks do. -/
theorem inner_ok_iff (L : Lib) (cfg : Cfg) (now : Nat) (req : HttpRequest) (ps : List Parameter)
    (o : OAuthParams) (client : Credentials Bytes)
    (token : Option (Credentials Bytes)) (verifier : Option Bytes) :
    inner L cfg (some now) req ps o client token verifier = .ok (.ok ()) ↔
      (∀ t, o.timestamp = some t → ∃ u, addWindow cfg t = .ok u ∧ now ≤ u) ∧
      o.consumerKey = client.identifier ∧ o.token = token.map (·.identifier) ∧
      o.verifier = verifier ∧
      (o.signatureMethod = b!"PLAINTEXT" ∨
        (o.signatureMethod = b!"HMAC-SHA1" ∧ checkHmacSha1 L req ps o client token = .ok (.ok ()))) := by
  have hts : checkTimestamp cfg now o = .ok (.ok ()) ↔
      ∀ t, o.timestamp = some t → ∃ u, addWindow cfg t = .ok u ∧ now ≤ u := by
    unfold checkTimestamp
    cases o.timestamp with
    | none => simp
    | some t =>
      simp only [Option.some.injEq, forall_eq']
      cases addWindow cfg t with
      | error e => simp [bind, Except.bind]
      | ok u =>
        simp only [bind, Except.bind, Except.ok.injEq, exists_eq_left']
        by_cases hu : u < now
        · simp [hu, pure, Except.pure]
        · simp [hu, pure, Except.pure]
          omega
  rw [← hts]
  simp only [inner]
  cases htc : checkTimestamp cfg now o with
  | error e => simp [bind, Except.bind]
  | ok x =>
    cases x with
    | error c => simp [bind, Except.bind, andThen]
    | ok x =>
    cases x
    simp only [bind, Except.bind, andThen, true_and]
    cases hpt : checkPresence token o.token with
    | error c =>
      simp only [Except.ok.injEq, reduceCtorEq, false_iff]
      rintro ⟨-, h, -⟩
      have : checkPresence token o.token = .ok () := by
        rw [checkPresence_ok_iff, h]; cases token <;> rfl
      rw [hpt] at this; cases this
    | ok x =>
    cases x
    simp only []
    cases hpv : checkPresence verifier o.verifier with
    | error c =>
      simp only [Except.ok.injEq, reduceCtorEq, false_iff]
      rintro ⟨-, -, h, -⟩
      have : checkPresence verifier o.verifier = .ok () := by
        rw [checkPresence_ok_iff, h]
      rw [hpv] at this; cases this
    | ok x =>
    cases x
    have hid := checkIdentifiers_ok_iff o client token verifier
      ((checkPresence_ok_iff _ _).mp hpt) ((checkPresence_ok_iff _ _).mp hpv)
    simp only []
    by_cases hm : o.signatureMethod = b!"HMAC-SHA1"
    · rw [if_pos hm]
      have hne : o.signatureMethod ≠ b!"PLAINTEXT" := by rw [hm]; decide
      cases hc : checkHmacSha1 L req ps o client token with
      | error e => simp [hne]
      | ok y =>
        cases y with
        | error c => simp [hne]
        | ok y =>
          cases y
          simp only [Except.ok.injEq, hid, hm, true_and, and_true, or_true]
    · rw [if_neg hm]
      by_cases hp : o.signatureMethod = b!"PLAINTEXT"
      · rw [if_pos hp]
        simp only [checkPlaintext, Except.ok.injEq, hid, hp, true_or, and_true]
      · rw [if_neg hp]
        simp [hp, hm]

/-- What `inner` does if it does not pass. -/
theorem inner_outcome (L : Lib) (cfg : Cfg) (now : Nat) (req : HttpRequest) (ps : List Parameter)
    (o : OAuthParams) (client : Credentials Bytes) (token : Option (Credentials Bytes))
    (verifier : Option Bytes) :
    (∃ r, inner L cfg (some now) req ps o client token verifier = .ok r ∧
      ∀ c, r = .error c → c = 400 ∨ c = 401) ∨
    (cfg.debug = true ∧ ∃ t, o.timestamp = some t ∧ 2 ^ 64 ≤ t + 30) := by
  have hts : (∃ r, checkTimestamp cfg now o = .ok r ∧ ∀ c, r = .error c → c = 400 ∨ c = 401) ∨
      (cfg.debug = true ∧ ∃ t, o.timestamp = some t ∧ 2 ^ 64 ≤ t + 30) := by
    unfold checkTimestamp
    cases o.timestamp with
    | none => exact .inl ⟨_, rfl, by rintro c ⟨⟩⟩
    | some t =>
      have hend : ∀ u, addWindow cfg t = .ok u → ∃ r, ((addWindow cfg t).bind fun u =>
          if u < now then pure (.error 401) else pure (.ok ())) = Except.ok r ∧
          ∀ c, r = Except.error c → c = 400 ∨ c = 401 := by
        intro u hu
        rw [hu]
        simp only [Except.bind]
        split
        · exact ⟨_, rfl, by rintro c ⟨⟩; exact .inr rfl⟩
        · exact ⟨_, rfl, by rintro c ⟨⟩⟩
      by_cases hlt : t + 30 < 2 ^ 64
      · exact .inl (hend (t + 30) (by rw [addWindow, if_pos hlt]))
      · cases hd : cfg.debug with
        | true => exact .inr ⟨rfl, t, rfl, by omega⟩
        | false =>
          refine .inl (hend ((t + 30) % 2 ^ 64) ?_)
          rw [addWindow, if_neg hlt, hd]
          rfl
  refine hts.elim ?_ .inr
  rintro ⟨r, hr, hr'⟩
  left
  simp only [inner]
  rw [hr]
  cases r with
  | error c => exact ⟨_, rfl, by rintro c' ⟨⟩; exact hr' c rfl⟩
  | ok x =>
  cases x
  simp only [bind, Except.bind, andThen]
  cases hpt : checkPresence token o.token with
  | error c => exact ⟨_, rfl, by rintro c' ⟨⟩; exact checkPresence_error hpt⟩
  | ok x =>
  cases x
  simp only []
  cases hpv : checkPresence verifier o.verifier with
  | error c => exact ⟨_, rfl, by rintro c' ⟨⟩; exact checkPresence_error hpv⟩
  | ok x =>
  cases x
  simp only []
  have hid : ∀ c, checkIdentifiers o client token verifier = .error c → c = 400 ∨ c = 401 :=
    fun c h => .inr (checkIdentifiers_error h)
  by_cases hm : o.signatureMethod = b!"HMAC-SHA1"
  · rw [if_pos hm]
    obtain ⟨r, h1, h2⟩ := checkHmacSha1_no_panic L req ps o client token
    rw [h1]
    cases r with
    | error c => exact ⟨_, rfl, by rintro c' ⟨⟩; exact h2 c rfl⟩
    | ok x => cases x; exact ⟨_, rfl, hid⟩
  · rw [if_neg hm]
    by_cases hp : o.signatureMethod = b!"PLAINTEXT"
    · rw [if_pos hp]
      exact ⟨_, rfl, hid⟩
    · rw [if_neg hp]
      exact ⟨_, rfl, by rintro c ⟨⟩; exact .inl rfl⟩

theorem readParams_error {cb : Option Bytes} {val : Bytes → Option Bytes} {c : Nat}
    (h : readParams cb val = .error c) : c = 400 ∨ c = 401 := by
  unfold readParams at h
  split at h
  · cases h; exact .inr rfl
  · split at h
    · cases h; exact .inl rfl
    · split at h
      · cases h; exact .inl rfl
      · split at h
        · cases h
        · split at h
          · cases h; exact .inl rfl
          · cases h

/-- What verification does: it reads the parameters, sorts them, finds the protocol parameters and
checks them. -/
theorem verifyAndThen_of_received {L : Lib} {req : HttpRequest} {ps : List Parameter}
    (h : Received L req ps) :
    ∃ callback, (∀ v, callback = some v → (b!"oauth_callback", v) ∈ ps) ∧
      (callback = none → first b!"oauth_callback" (sortPairs ps) = none) ∧
      ∀ (cfg : Cfg) (now : Option Nat) (client : Credentials Bytes)
        (token : Option (Credentials Bytes)) (verifier : Option Bytes)
        (f : List Parameter → OAuthParams → Response),
      verifyAndThen L cfg now req client token verifier f =
        match readParams callback (fun k => first k (sortPairs ps)) with
        | .error c => .ok (.ofStatus c)
        | .ok o => match inner L cfg now req (sortPairs ps) o client token verifier with
          | .error e => .error e
          | .ok (.ok ()) => .ok (f (sortPairs ps) o)
          | .ok (.error c) => .ok (.ofStatus c) := by
  obtain ⟨form, header, h1, h2, rfl⟩ := h
  rw [← readForm_ok] at h1
  simp only [← formParse_eq]
  have hs := sortPairs_spec (header ++ (formParse form ++ formParse (req.query.getD [])))
  have hcp : collectParams L req form =
      .ok (some (sortPairs (header ++ (formParse form ++ formParse (req.query.getD []))))) := by
    unfold collectParams
    rw [(collectAuthParams_iff L _ _).mpr h2]
    simp only [bind, Except.bind, sort_eq]
    rfl
  obtain ⟨cb, c1, c2, c3⟩ := collectOAuthParams_eq L (keysAscending_of_ascending hs.2)
  refine ⟨cb, fun v hv => hs.1.mem_iff.mp (c1 v hv), c2, ?_⟩
  intro cfg now client token verifier f
  unfold verifyAndThen
  rw [h1]
  simp only [bind, Except.bind, hcp, c3]
  cases readParams cb fun k => first k (sortPairs
      (header ++ (formParse form ++ formParse (req.query.getD [])))) with
  | error c => rfl
  | ok o =>
    simp only []
    cases inner L cfg now req _ o client token verifier with
    | error e => rfl
    | ok r =>
      cases r with
      | error c => rfl
      | ok x => cases x; rfl

/-- If the parameters cannot be read, the server answers 400, or panics because the body could not be
read. -/
theorem verifyAndThen_of_not_received {L : Lib} {req : HttpRequest}
    (h : ∀ ps, ¬ Received L req ps) (cfg : Cfg) (now : Option Nat) (client : Credentials Bytes)
    (token : Option (Credentials Bytes)) (verifier : Option Bytes)
    (f : List Parameter → OAuthParams → Response) :
    verifyAndThen L cfg now req client token verifier f = .ok (.ofStatus 400) ∨
      (req.contentType = some formType ∧ req.body = none) := by
  cases hf : readForm req with
  | error e =>
    right
    unfold readForm at hf
    split at hf
    · next h1 =>
      split at hf
      · cases hf
      · next h2 => exact ⟨h1, h2⟩
    · cases hf
  | ok form =>
    left
    obtain ⟨r, h1, h2⟩ := collectAuthParams_sound L req.authorization
    cases r with
    | some header => exact absurd ⟨form, header, (readForm_ok _ _).mp hf, h2 _ rfl, rfl⟩ (h _)
    | none =>
      unfold verifyAndThen collectParams
      rw [hf]
      simp only [bind, Except.bind, h1]
      rfl

/-! ### Values of unique parameters -/

theorem first_sort {l : List Parameter} {name v : Bytes} (hm : (name, v) ∈ l)
    (hu : ∀ v', (name, v') ∈ l → v' = v) : first name (sortPairs l) = some v := by
  have hp := (sortPairs_spec l).1
  cases h : first name (sortPairs l) with
  | none => exact absurd rfl (first_none h (name, v) (hp.mem_iff.mpr hm))
  | some v' => rw [hu v' (hp.mem_iff.mp (first_mem h))]

theorem first_sort_none {l : List Parameter} {name : Bytes} (hn : ∀ p ∈ l, p.1 ≠ name) :
    first name (sortPairs l) = none :=
  first_none_of_lt fun p hp => hn p ((sortPairs_spec l).1.mem_iff.mp hp)

theorem readDecimalAux_ge {acc : Nat} {s : Bytes} {n : Nat} (h : readDecimalAux acc s = some n) :
    acc ≤ n := by
  induction s generalizing acc with
  | nil => simp only [readDecimalAux, Option.some.injEq] at h; omega
  | cons c s ih =>
    simp only [readDecimalAux] at h
    split at h
    · have := ih h; omega
    · cases h

theorem parseDigits_eq {acc : Nat} {s : Bytes} {n : Nat} (h : readDecimalAux acc s = some n)
    (hn : n < 2 ^ 64) : parseDigits acc s = some n := by
  induction s generalizing acc with
  | nil => exact h
  | cons c s ih =>
    simp only [readDecimalAux] at h
    split at h
    · next hc =>
      have e : acc * 10 + (c.toNat - 48) = 10 * acc + (c.toNat - 48) := by omega
      have hge := readDecimalAux_ge h
      simp only [parseDigits]
      rw [if_pos (by simpa using hc), e, if_pos (by omega)]
      exact ih h
    · cases h

theorem parseDigits_iff (acc : Nat) (s : Bytes) (n : Nat) (ha : acc < 2 ^ 64) :
    parseDigits acc s = some n ↔ readDecimalAux acc s = some n ∧ n < 2 ^ 64 := by
  refine ⟨fun h => ?_, fun h => parseDigits_eq h.1 h.2⟩
  induction s generalizing acc with
  | nil =>
    simp only [parseDigits, Option.some.injEq] at h
    subst h
    exact ⟨rfl, ha⟩
  | cons c s ih =>
    simp only [parseDigits] at h
    split at h
    · rename_i hc
      split at h
      · rename_i hl
        have := ih _ hl h
        simp only [readDecimalAux]
        rw [if_pos hc]
        have e : acc * 10 + (c.toNat - 48) = 10 * acc + (c.toNat - 48) := by omega
        rw [e] at this
        exact this
      · cases h
    · cases h

theorem parseU64_iff (s : Bytes) (n : Nat) : parseU64 s = some n ↔ U64Text s n := by
  unfold U64Text readDecimal
  cases s with
  | nil => simp [parseU64]
  | cons b s =>
    by_cases hb : b = 0x2B
    · subst hb
      have hp : parseU64 (0x2B :: s) = if s = [] then none else parseDigits 0 s := rfl
      have hr : readDecimalAux 0 (0x2B :: s) = none := by simp [readDecimalAux]
      rw [hp]
      simp only [hr, reduceCtorEq, if_false, false_or, List.cons.injEq, true_and, exists_eq_left']
      by_cases hs : s = []
      · simp [hs]
      · rw [if_neg hs, if_neg hs]
        exact parseDigits_iff 0 s n (by decide)
    · have hp : parseU64 (b :: s) = parseDigits 0 (b :: s) := by
        unfold parseU64
        split
        · rename_i heq; cases heq
        · rename_i heq; cases heq; exact absurd rfl hb
        · rfl
      rw [hp, parseDigits_iff 0 _ n (by decide)]
      simp [hb]

theorem parseU64_decimal {n : Nat} (hn : n < 2 ^ 64) : parseU64 (decimal n) = some n := by
  have h := readDecimal_decimal n
  unfold readDecimal at h
  split at h
  · cases h
  · cases hd : decimal n with
    | nil => rw [hd] at h; contradiction
    | cons c s =>
      rw [hd] at h
      have hc : c ≠ 0x2B := by
        rintro rfl
        simp [readDecimalAux] at h
      have := parseDigits_eq h hn
      unfold parseU64
      split
      · next he => cases he
      · next he => cases he; exact absurd rfl hc
      · exact this

theorem macKey_eq {client : Credentials Bytes} {token : Option (Credentials Bytes)}
    (hc : ∀ b ∈ client.secret, unreserved b = true)
    (ht : ∀ t, token = some t → ∀ b ∈ t.secret, unreserved b = true) :
    macKey client token = signingKey client.secret (token.map (·.secret)) := by
  unfold macKey signingKey
  rw [encode_of_unreserved hc]
  cases token with
  | none => rfl
  | some t => simp only [Option.map_some, Option.getD_some, encode_of_unreserved (ht t rfl)]

/-! ### The order of this crate -/

/-- The pairs of the base string are in ascending order before encoding. -/
theorem conveyed_ascending (e : Env) (n : Bytes) (t : Nat) {l : List Pair}
    (ha : Ascending (shown Display.text l)) (hproto : ∀ x ∈ l, ∀ p : Proto, x.1 ≠ p.name) :
    Ascending (conveyed e n t l) := by
  obtain ⟨hf1, hf2⟩ := conveyed_sublist e n t l hproto
  unfold Ascending
  rw [List.pairwise_iff_forall_sublist]
  intro a b hab
  have hle := List.pairwise_iff_forall_sublist.mp (conveyed_keys e n t (ascending_keys ha)) hab
  rcases Classical.em (a.1 = b.1) with he | he
  · right
    refine ⟨he, ?_⟩
    cases hp : allProto.any fun q => q.name == a.1 with
    | true =>
      have hab' := hab.filter (fun p => allProto.any fun q => q.name == p.1)
      rw [hf2] at hab'
      have hp' : (allProto.any fun q => q.name == b.1) = true := by rw [← he]; exact hp
      simp only [List.filter_cons, hp, hp', if_true, List.filter_nil] at hab'
      exact absurd he (List.pairwise_iff_forall_sublist.mp (protocolParams_nodup e n t) hab')
    | false =>
      have hab' := hab.filter (fun p => !(allProto.any fun q => q.name == p.1))
      rw [hf1] at hab'
      have hp' : (allProto.any fun q => q.name == b.1) = false := by rw [← he]; exact hp
      simp only [List.filter_cons, hp, hp', Bool.not_false, if_true, List.filter_nil] at hab'
      rcases List.pairwise_iff_forall_sublist.mp ha hab' with h3 | ⟨-, h3⟩
      · rw [he] at h3
        exact absurd h3 (List.lt_irrefl _)
      · exact h3
  · left
    rcases Classical.em (a.1 < b.1) with h | h
    · exact h
    · exact absurd (List.le_antisymm hle (List.not_lt.mp h)) he

/-- The base string of this crate, whatever the values. -/
theorem base_rawOrder {S : Type} (cfg : Cfg) (b : Builder S) (name : Bytes)
    {supplied current : List Pair} (hb : Built supplied current) {method : Bytes}
    (hp : Plain supplied method) (uri : Display) (w : World) :
    b.base cfg name method uri (weave allProto current) w =
      rawOrderBase method uri.text (b.params cfg name w ++ shown Display.text supplied) := by
  obtain ⟨hperm, ha⟩ := C19_always_sorted hb
  have hkeys : ∀ x ∈ current, ∀ b ∈ x.1, unreserved b = true :=
    fun x hx => hp.keys x (hperm.mem_iff.mp hx)
  have hproto : ∀ x ∈ current, ∀ p : Proto, x.1 ≠ p.name :=
    fun x hx => hp.notProto x (hperm.mem_iff.mp hx)
  have hcperm : (conveyed (b.env name true true) w.nonce (w.time cfg) current).Perm
      (b.params cfg name w ++ shown Display.text supplied) :=
    (conveyed_perm _ _ _ _).trans ((hperm.map _).append_left _)
  have hsort := sortPairs_of_ascending hcperm
    (conveyed_ascending (b.env name true true) w.nonce (w.time cfg) ha hproto)
  have hck : ∀ p ∈ conveyed (b.env name true true) w.nonce (w.time cfg) current,
      ∀ x ∈ p.1, unreserved x = true := by
    intro p hp'
    rcases List.mem_append.mp ((conveyed_perm _ _ _ _).mem_iff.mp hp') with h | h
    · obtain ⟨q, -, hq⟩ := List.mem_filterMap.mp h
      obtain ⟨v, -, rfl⟩ := Option.map_eq_some_iff.mp hq
      exact proto_name_unreserved q
    · obtain ⟨x, hx, rfl⟩ := List.mem_map.mp h
      exact hkeys x hx
  rw [rawOrderBase, hsort, hp.methodUpper, encode_of_unreserved hp.methodUnreserved]
  unfold Builder.base baseString
  rw [conveyed_signed]
  generalize conveyed (b.env name true true) w.nonce (w.time cfg) current = c at hck
  have := join_signed_eq (c.map fun p => (p.1, encode p.2)) (by
    intro p hp'
    obtain ⟨q, hq, rfl⟩ := List.mem_map.mp hp'
    exact hck q hq)
  rw [List.map_map] at this ⊢
  have e1 : (signedItem ∘ fun p : Bytes × Bytes => (p.1, encode (encode p.2))) =
      ((fun p : Bytes × Bytes => signedItem (p.1, encode p.2)) ∘ fun p : Bytes × Bytes =>
        (p.1, encode p.2)) := rfl
  rw [e1, this]
  congr 3
  rw [List.map_map]
  apply List.map_congr_left
  intro p hp'
  simp only [Function.comp_apply, encode_of_unreserved (hck p hp')]

end OAuth.Server
