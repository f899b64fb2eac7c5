import Verif.Properties.ServerBinds

/-
C70, C71, C72: what the example server gives away, which headers it reads, and the text it verifies
signatures of.
-/

namespace OAuth

open Spec
open Server (Lib HttpRequest Response OAuthParams Parameter Received)

/-! ### C70 -/

/-- What the server expects of a request. -/
structure Expectation where
  client : Credentials Bytes
  token : Option (Credentials Bytes)
  verifier : Option Bytes

/-- Two expectations with the same secrets, one of which has a token or verifier if the other does. They
may differ in the identifiers of client and token and in the text of the verifier. -/
structure Expectation.SameSecrets (e e' : Expectation) : Prop where
  client : e.client.secret = e'.client.secret
  token : e.token.map (·.secret) = e'.token.map (·.secret)
  verifier : e.verifier.isSome = e'.verifier.isSome

/-- The answer of the server under an expectation. -/
def Expectation.answer (e : Expectation) (L : Lib) (cfg : Cfg) (now : Option Nat) (req : HttpRequest)
    (f : List Parameter → OAuthParams → Response) : Except Panic Response :=
  Server.verifyAndThen L cfg now req e.client e.token e.verifier f

/-- The request has a signature that matches the secrets. -/
def Expectation.SignedFor (e : Expectation) (L : Lib) (req : HttpRequest) : Prop :=
  ∃ ps method signature, Received L req ps ∧ (b!"oauth_signature_method", method) ∈ ps ∧
    (b!"oauth_signature", signature) ∈ ps ∧
    SignatureMatches L req ps e.client e.token method signature

/-- C70, the claim: to a request that is not signed with the secrets, the server gives the same answer
whatever client, token and verifier it expects (handler.rs l.199-200). -/
def C70_claim : Prop :=
  ∀ (L : Lib) (cfg : Cfg) (now : Option Nat) (req : HttpRequest)
    (f : List Parameter → OAuthParams → Response) (e e' : Expectation), e.SameSecrets e' →
    ¬ e.SignedFor L req → e.answer L cfg now req f = e'.answer L cfg now req f

theorem macKey_same {e e' : Expectation} (h : e.SameSecrets e') :
    Server.macKey e.client e.token = Server.macKey e'.client e'.token := by
  obtain ⟨h1, h2, -⟩ := h
  obtain ⟨c, t, v⟩ := e
  obtain ⟨c', t', v'⟩ := e'
  simp only [Server.macKey] at *
  rw [h1]
  cases t <;> cases t' <;> simp_all

theorem checkPresence_same {α α' β : Type} {a : Option α} {a' : Option α'} (b : Option β)
    (h : a.isSome = a'.isSome) : Server.checkPresence a b = Server.checkPresence a' b := by
  cases a <;> cases a' <;> cases b <;> simp_all [Server.checkPresence]

/-- C70, where it holds: requests that do not name the signature method `PLAINTEXT`. Missing are those
that do; with them the claim is false (`C70_violated`). -/
theorem C70_partial (L : Lib) (cfg : Cfg) (now : Option Nat) (req : HttpRequest)
    (f : List Parameter → OAuthParams → Response) {e e' : Expectation} (hs : e.SameSecrets e')
    (hp : ∀ ps, Received L req ps → (b!"oauth_signature_method", b!"PLAINTEXT") ∉ ps)
    (h : ¬ e.SignedFor L req) : e.answer L cfg now req f = e'.answer L cfg now req f := by
  unfold Expectation.answer
  by_cases hrec : ∃ ps, Received L req ps
  case neg =>
    rcases Server.verifyAndThen_of_not_received (fun ps h => hrec ⟨ps, h⟩) cfg now e.client e.token
      e.verifier f with h1 | ⟨h1, h2⟩
    · rcases Server.verifyAndThen_of_not_received (fun ps h => hrec ⟨ps, h⟩) cfg now e'.client e'.token
        e'.verifier f with h2 | ⟨h2, h3⟩
      · rw [h1, h2]
      · unfold Server.verifyAndThen Server.readForm
        rw [if_pos h2, h3]
        rfl
    · unfold Server.verifyAndThen Server.readForm
      rw [if_pos h1, h2]
      rfl
  obtain ⟨ps, hrec⟩ := hrec
  have hperm := (sortPairs_spec ps).1
  have hasc := (sortPairs_spec ps).2
  obtain ⟨cb, -, -, hv⟩ := Server.verifyAndThen_of_received hrec
  rw [hv, hv]
  cases hrp : Server.readParams cb fun k => first k (sortPairs ps) with
  | error c => rfl
  | ok o =>
    obtain ⟨-, r2, r3, -⟩ := readParams_ok hrp
    have mem : ∀ {k v}, first k (sortPairs ps) = some v → (k, v) ∈ ps :=
      fun hf => hperm.mem_iff.mp (Server.first_mem hf)
    have hnp : o.signatureMethod ≠ b!"PLAINTEXT" := by
      intro he
      rw [he] at r3
      exact hp ps hrec (mem r3)
    have htok : e.token.isSome = e'.token.isSome := by
      have := congrArg Option.isSome hs.token
      simpa using this
    have hinner : Server.inner L cfg now req (sortPairs ps) o e.client e.token e.verifier =
        Server.inner L cfg now req (sortPairs ps) o e'.client e'.token e'.verifier := by
      unfold Server.inner
      cases now with
      | none => rfl
      | some now =>
        simp only []
        rw [checkPresence_same o.token htok, checkPresence_same o.verifier hs.verifier]
        by_cases hm : o.signatureMethod = b!"HMAC-SHA1"
        · have hc : Server.checkHmacSha1 L req (sortPairs ps) o e.client e.token =
              Server.checkHmacSha1 L req (sortPairs ps) o e'.client e'.token := by
            unfold Server.checkHmacSha1
            rw [macKey_same hs]
          rw [if_pos hm, if_pos hm, ← hc]
          have hbad : Server.checkHmacSha1 L req (sortPairs ps) o e.client e.token ≠ .ok (.ok ()) := by
            intro hok
            obtain ⟨-, -, -, h4⟩ := (Server.checkHmacSha1_ok_iff L req hasc o e.client e.token).mp hok
            have hu : (unsigned (sortPairs ps)).Perm (unsigned ps) := hperm.filter _
            rw [rawOrderBase_perm _ _ hu, macKey_sharedKey] at h4
            exact h ⟨ps, _, _, hrec, mem r3, mem r2, .inl ⟨hm, h4⟩⟩
          obtain ⟨r, e1, -⟩ := Server.checkHmacSha1_no_panic L req (sortPairs ps) o e.client e.token
          rw [e1] at hbad ⊢
          cases r with
          | ok x => cases x; exact absurd rfl hbad
          | error c => rfl
        · rw [if_neg hm, if_neg hm, if_neg hnp, if_neg hnp]
          rfl
    simp only [hinner]

theorem received_of {L : Lib} {req : HttpRequest} {form : Bytes} {header ps : List Parameter}
    (hf : Server.formOf req = some form)
    (hh : (Server.collectAuthParams L req.authorization).toOption = some (some header))
    (hp : ps = header ++ (Server.pairsOf form ++ Server.pairsOf (req.query.getD []))) :
    Received L req ps := by
  refine ⟨form, header, hf, (Server.collectAuthParams_iff _ _ _).mp ?_, hp⟩
  cases hc : Server.collectAuthParams L req.authorization with
  | error e => rw [hc] at hh; cases hh
  | ok r => rw [hc] at hh; cases hh; rfl

theorem forged_received : Received (Server.exampleLib true) forged
    [(b!"oauth_consumer_key", b!"client"), (b!"oauth_token", b!"token"),
      (b!"oauth_signature_method", b!"PLAINTEXT"), (b!"oauth_signature", b!"wrong"),
      (b!"stolen", b!"yes")] :=
  received_of (form := []) rfl (header := [(b!"oauth_consumer_key", b!"client"),
    (b!"oauth_token", b!"token"), (b!"oauth_signature_method", b!"PLAINTEXT"),
    (b!"oauth_signature", b!"wrong")]) (by decide +kernel) (by decide +kernel)

/-- C70 is false: with `PLAINTEXT` and a wrong signature, one learns whether `client` is the client. -/
theorem C70_violated : ¬ C70_claim := by
  intro h
  have hs : Expectation.SameSecrets ⟨Server.CLIENT, some Server.TOKEN, none⟩
      ⟨⟨b!"other", b!"client_secret"⟩, some Server.TOKEN, none⟩ := ⟨rfl, rfl, rfl⟩
  have hn : ¬ Expectation.SignedFor ⟨Server.CLIENT, some Server.TOKEN, none⟩ (Server.exampleLib true)
      forged := by
    rintro ⟨ps, m, s, hrec, hm, hsig, hmatch⟩
    obtain rfl := received_unique hrec forged_received
    have hm' : m = b!"PLAINTEXT" := by simpa using hm
    have hs' : s = b!"wrong" := by simpa using hsig
    subst hm' hs'
    rcases hmatch with ⟨h2, -⟩ | ⟨-, h2⟩
    · exact absurd h2 (by decide)
    · exact absurd h2 (by decide)
  have := congrArg (fun x => x.toOption.map (·.status)) (h (Server.exampleLib true) ⟨true, true, .std⟩
    (some 0) forged (fun _ _ => ⟨200, []⟩) _ _ hs hn)
  exact absurd this (by decide +kernel)

/-- A wrong HMAC-SHA1 signature (of a request that was tampered with): the answer is the same for a
client and a token that exist and for others. -/
example (now : Option Nat) (f : List Parameter → OAuthParams → Response) (c t : Bytes) :
    Expectation.answer ⟨Server.CLIENT, some Server.TOKEN, none⟩ (Server.exampleLib true)
      ⟨true, true, .std⟩ now tampered f =
    Expectation.answer ⟨⟨c, b!"client_secret"⟩, some ⟨t, b!"token_secret"⟩, none⟩
      (Server.exampleLib true) ⟨true, true, .std⟩ now tampered f := by
  refine C70_partial _ _ _ _ _ ⟨rfl, rfl, rfl⟩ ?_ ?_
  · intro ps hps
    rw [received_unique hps tampered_received]
    decide
  · rintro ⟨ps, m, s, hrec, hm, hsig, hmatch⟩
    obtain rfl := received_unique hrec tampered_received
    have hm' : m = b!"HMAC-SHA1" := by simpa [signedOnceParams] using hm
    have hs' : s = b!"9rYGahrF9h+pj4Nfm4DrmFwWjak=" := by simpa [signedOnceParams] using hsig
    subst hm' hs'
    rcases hmatch with ⟨-, h2⟩ | ⟨h2, -⟩
    · exact absurd h2 (by decide +kernel)
    · exact absurd h2 (by decide)

/-! ### C71 -/

/-- The grammar in the documentation of authorization.rs (l.11-13), for the scheme `OAuth`:
`auth-scheme [ 1*SP #auth-param ]`, with the items of the list. -/
inductive DocHeader : Bytes → List (Bytes × Bytes) → Prop
  | scheme : DocHeader b!"OAuth" []
  | params {n : Nat} {text : Bytes} {items : List (Bytes × Bytes)} : 0 < n →
      IsParamList true text items → DocHeader (b!"OAuth" ++ (List.replicate n 0x20 ++ text)) items

/-- The parameters a header has according to the documentation: none unless the scheme is `OAuth`. -/
def DocParams (dec : Bytes → Bytes) (v : Bytes) (ps : List (Bytes × Bytes)) : Prop :=
  (v.takeWhile tchar ≠ b!"OAuth" ∧ ps = []) ∨
    ∃ items, DocHeader v items ∧ ps = items.map fun p => (dec p.1, dec p.2)

/-- C71, the claim: the server takes parameters from a header exactly as its documentation says. -/
def C71_claim : Prop :=
  ∀ (L : Lib) (v : Bytes) (ps : List Parameter),
    Server.collectAuthParams L [v] = .ok (some ps) ↔ DocParams Server.dec v ps

theorem paramTail_strict {s : Bytes} {items : List (Bytes × Bytes)} (h : IsParamTail true s items)
    (hv : ∀ p ∈ items, p.2 ≠ []) : IsParamTail false s items := by
  induction h with
  | nil => exact .nil
  | cons h1 h2 h3 _ ih =>
    refine .cons h1 h2 ?_ (ih fun p hp => hv p (List.mem_cons_of_mem _ hp))
    obtain ⟨w, w', vt, e, k1, k2, k3, k4⟩ := h3
    refine ⟨w, w', vt, e, k1, k2, k3, ?_⟩
    rcases k4 with k4 | ⟨q, e1, e2, -⟩
    · exact .inl k4
    · refine .inr ⟨q, e1, e2, ?_⟩
      rintro rfl
      cases e2
      exact absurd rfl (hv _ (List.mem_cons_self ..))

theorem paramList_strict {s : Bytes} {items : List (Bytes × Bytes)} (h : IsParamList true s items)
    (hv : ∀ p ∈ items, p.2 ≠ []) : IsParamList false s items := by
  cases h with
  | nil => exact .nil
  | cons h3 h4 =>
    refine .cons ?_ (paramTail_strict h4 fun p hp => hv p (List.mem_cons_of_mem _ hp))
    obtain ⟨w, w', vt, e, k1, k2, k3, k4⟩ := h3
    refine ⟨w, w', vt, e, k1, k2, k3, ?_⟩
    rcases k4 with k4 | ⟨q, e1, e2, -⟩
    · exact .inl k4
    · refine .inr ⟨q, e1, e2, ?_⟩
      rintro rfl
      cases e2
      exact absurd rfl (hv _ (List.mem_cons_self ..))

/-- A list does not begin with a space. -/
theorem paramList_no_space {s : Bytes} {items : List (Bytes × Bytes)} {b : Bool}
    (h : IsParamList b (0x20 :: s) items) : False := by
  generalize hs : (0x20 : UInt8) :: s = t at h
  cases h with
  | nil => cases hs
  | cons h1 _ =>
    obtain ⟨w, w', vt, rfl, k, -⟩ := h1
    obtain ⟨c, key, hk⟩ := List.exists_cons_of_ne_nil k.1
    have hc := k.2 c (by rw [hk]; simp)
    rw [hk] at hs
    simp only [List.cons_append, List.cons.injEq] at hs
    rw [← hs.1] at hc
    exact absurd hc (by decide)

/-- The lists of either kind. -/
theorem paramList_kind {L : Lib} {s : Bytes} {items : List (Bytes × Bytes)} :
    IsParamList L.emptyOk s items ↔
      IsParamList true s items ∧ (L.emptyOk = true ∨ ∀ p ∈ items, p.2 ≠ []) := by
  cases h : L.emptyOk with
  | true => simp
  | false =>
    constructor
    · exact fun h => ⟨paramList_mono h, .inr (paramList_values h)⟩
    · rintro ⟨h1, h2 | h2⟩
      · cases h2
      · exact paramList_strict h1 h2

/-- What the server takes from one header. -/
theorem collect_one (L : Lib) (v : Bytes) (ps : List Parameter) :
    Server.collectAuthParams L [v] = .ok (some ps) ↔
      (v.takeWhile tchar ≠ b!"OAuth" ∧ ps = []) ∨ (v = b!"OAuth" ∧ ps = []) ∨
      ∃ text items, v = b!"OAuth " ++ text ∧ IsParamList L.emptyOk text items ∧
        ps = items.map fun p => (Server.dec p.1, Server.dec p.2) := by
  rw [(C48_headers L [v]).1]
  constructor
  · intro h
    generalize hvs : [v] = vs at h
    cases h with
    | none => cases hvs
    | skip h1 h2 =>
      cases hvs
      cases h2
      exact .inl ⟨h1, rfl⟩
    | empty => cases hvs; exact .inr (.inl ⟨rfl, rfl⟩)
    | params h1 => cases hvs; exact .inr (.inr ⟨_, _, rfl, h1, rfl⟩)
  · rintro (⟨h1, rfl⟩ | ⟨rfl, rfl⟩ | ⟨text, items, rfl, h1, rfl⟩)
    · exact .skip h1 .none
    · exact .empty
    · exact .params h1

/-- The shape of a documented header: the scheme alone, or one space and a list, or more spaces. -/
theorem docHeader_cases {v : Bytes} {items : List (Bytes × Bytes)} (h : DocHeader v items) :
    (v = b!"OAuth" ∧ items = []) ∨
      (∃ text, v = b!"OAuth " ++ text ∧ IsParamList true text items) ∨
      ∃ text, v = b!"OAuth  " ++ text := by
  cases h with
  | scheme => exact .inl ⟨rfl, rfl⟩
  | @params n text _ hn hl =>
    obtain ⟨n, rfl⟩ : ∃ m, n = m + 1 := ⟨n - 1, by omega⟩
    cases n with
    | zero => exact .inr (.inl ⟨text, rfl, hl⟩)
    | succ n => exact .inr (.inr ⟨List.replicate n 0x20 ++ text, rfl⟩)

/-- C71, exact for every header: it is read as documented if and only if, in case it is one of the
grammar, it has at most one space after the scheme and no empty value (unless the parser library takes
empty quoted strings). -/
theorem C71_iff (L : Lib) (v : Bytes) :
    (∀ ps, Server.collectAuthParams L [v] = .ok (some ps) ↔ DocParams Server.dec v ps) ↔
      ∀ items, DocHeader v items →
        ¬ b!"OAuth  " <+: v ∧ (L.emptyOk = true ∨ ∀ p ∈ items, p.2 ≠ []) := by
  constructor
  · intro h items hd
    have ha := (h _).mpr (.inr ⟨items, hd, rfl⟩)
    have htok : v.takeWhile tchar = b!"OAuth" := by
      rcases docHeader_cases hd with ⟨rfl, -⟩ | ⟨text, rfl, -⟩ | ⟨text, rfl⟩
      · decide
      · exact (Server.takeWhile_oauth text).1
      · exact (Server.takeWhile_oauth (0x20 :: text)).1
    rcases (collect_one L v _).mp ha with ⟨h1, -⟩ | ⟨rfl, h1⟩ | ⟨text, items', rfl, hl, h1⟩
    · exact absurd htok h1
    · refine ⟨by decide, .inr ?_⟩
      rw [List.map_eq_nil_iff.mp h1]
      simp
    · have hns : ¬ b!"OAuth  " <+: b!"OAuth " ++ text := by
        rintro ⟨t, ht⟩
        have : text = 0x20 :: t := by simpa using ht.symm
        rw [this] at hl
        exact paramList_no_space hl
      refine ⟨hns, ?_⟩
      obtain ⟨hl1, hl2⟩ := paramList_kind.mp hl
      rcases docHeader_cases hd with ⟨h2, -⟩ | ⟨text', h2, hl'⟩ | ⟨text', h2⟩
      · have := congrArg List.length h2
        simp at this
      · obtain rfl := List.append_cancel_left h2
        rw [Server.paramList_unique hl' hl1]
        exact hl2
      · exact absurd ⟨text', h2.symm⟩ hns
  · intro h ps
    rw [collect_one]
    constructor
    · rintro (h1 | ⟨rfl, rfl⟩ | ⟨text, items, rfl, hl, rfl⟩)
      · exact .inl h1
      · exact .inr ⟨[], .scheme, rfl⟩
      · exact .inr ⟨items, .params (n := 1) (by omega) (paramList_kind.mp hl).1, rfl⟩
    · rintro (h1 | ⟨items, hd, rfl⟩)
      · exact .inl h1
      · obtain ⟨h1, h2⟩ := h items hd
        rcases docHeader_cases hd with ⟨rfl, rfl⟩ | ⟨text, rfl, hl⟩ | ⟨text, rfl⟩
        · exact .inr (.inl ⟨rfl, rfl⟩)
        · exact .inr (.inr ⟨text, items, rfl, paramList_kind.mpr ⟨hl, h2⟩, rfl⟩)
        · exact absurd ⟨text, rfl⟩ h1

/-- C71, where it holds: one space, and no empty values (unless the parser library takes empty quoted
strings). -/
theorem C71_partial {L : Lib} {text : Bytes} {items : List (Bytes × Bytes)}
    (h : IsParamList true text items) (he : L.emptyOk = true ∨ ∀ p ∈ items, p.2 ≠ []) :
    Server.collectAuthParams L [b!"OAuth " ++ text] =
      .ok (some (items.map fun p => (Server.dec p.1, Server.dec p.2))) :=
  (collect_one L _ _).mpr (.inr (.inr ⟨text, items, rfl, paramList_kind.mpr ⟨h, he⟩, rfl⟩))

theorem isParamList_ab : IsParamList true b!"a=b" [(b!"a", b!"b")] :=
  .cons (text := b!"a=b") (rest := []) ⟨[], [], b!"b", rfl, ⟨by decide, by decide⟩, by simp [IsBlank],
    by simp [IsBlank], .inl ⟨⟨by decide, by decide⟩, rfl⟩⟩ .nil

/-- C71 is false: two spaces after the scheme. -/
theorem C71_violated : ¬ C71_claim := by
  intro h
  have h1 := (h (Server.exampleLib true) b!"OAuth  a=b" _).mpr
    (.inr ⟨_, .params (n := 2) (by omega) isParamList_ab, rfl⟩)
  have h2 := congrArg Except.toOption h1
  exact absurd h2 (by decide +kernel)

/-- The header of the violation is refused, the same header with one space is read. -/
example : (Server.collectAuthParams (Server.exampleLib true) [b!"OAuth  a=b"]).toOption = some none ∧
    (Server.collectAuthParams (Server.exampleLib true) [b!"OAuth a=b"]).toOption =
      some (some [(b!"a", b!"b")]) := by decide +kernel

example := C71_partial (L := Server.exampleLib false) isParamList_ab (.inr (by decide))

/-- The condition of the exact statement for the two headers. -/
example : ¬ (∀ ps, Server.collectAuthParams (Server.exampleLib true) [b!"OAuth  a=b"] = .ok (some ps) ↔
    DocParams Server.dec b!"OAuth  a=b" ps) := by
  rw [C71_iff]
  intro h
  exact (h _ (.params (n := 2) (by omega) isParamList_ab)).1 ⟨b!"a=b", rfl⟩

example : ∀ ps, Server.collectAuthParams (Server.exampleLib true) [b!"OAuth a=b"] = .ok (some ps) ↔
    DocParams Server.dec b!"OAuth a=b" ps :=
  (C71_iff _ _).mpr fun _ _ => ⟨by decide, .inl rfl⟩

/-- C71, the name of the scheme: RFC 5849 section 3.5.1 compares it without regard to case, the server
does not. Such a header is passed over. -/
theorem C71_scheme_case (L : Lib) (text : Bytes) :
    Server.collectAuthParams L [b!"oauth " ++ text] = .ok (some []) := by
  refine (collect_one L _ _).mpr (.inl ⟨?_, rfl⟩)
  have : (b!"oauth " ++ text).takeWhile tchar = b!"oauth" :=
    (Server.takeWhile_stops (m := b!"oauth") (r := 0x20 :: text) (by decide)
      (Server.stops_cons (by decide))).1
  rw [this]
  decide

example := C71_scheme_case (Server.exampleLib true) b!"a=b"

/-! ### C72 -/

/-- C72, the claim: the text the server verifies a signature of is the signature base string of RFC 5849
for the parameters in the header, in the form and in the query. -/
def C72_claim : Prop :=
  ∀ (L : Lib) (req : HttpRequest) (form : Bytes) (header : List Parameter),
    Server.formOf req = some form → HeaderParams L.emptyOk Server.dec req.authorization header →
    let own := Server.pairsOf form ++ Server.pairsOf (req.query.getD [])
    Server.createBaseString req (sortPairs (header ++ own)) =
      rfcBase req.method (b!"http://127.0.0.1:8080" ++ req.path) (collectParams header own)

/-- Encoding does not change the order of parameters. -/
def OrderKept (ps : List (Bytes × Bytes)) : Prop :=
  ∀ p ∈ ps, ∀ q ∈ ps, pairLe p q → pairLe (encode p.1, encode p.2) (encode q.1, encode q.2)

theorem ascending_encode_iff (l : List (Bytes × Bytes)) :
    Ascending (encodePairs (sortPairs l)) ↔ OrderKept l := by
  obtain ⟨hperm, hasc⟩ := sortPairs_spec l
  unfold Ascending encodePairs
  rw [List.pairwise_map]
  constructor
  · intro h
    have key : ∀ m : List (Bytes × Bytes), m.Pairwise pairLe →
        m.Pairwise (fun p q => pairLe (encode p.1, encode p.2) (encode q.1, encode q.2)) →
        OrderKept m := by
      intro m h1 h2
      induction m with
      | nil => intro p hp; cases hp
      | cons x m ih =>
        obtain ⟨a1, a2⟩ := List.pairwise_cons.mp h1
        obtain ⟨b1, b2⟩ := List.pairwise_cons.mp h2
        have refl : ∀ p : Bytes × Bytes, pairLe p p := fun p => (pairLe_total p p).elim id id
        intro p hp q hq hpq
        rcases List.mem_cons.mp hp with e1 | hp' <;> rcases List.mem_cons.mp hq with e2 | hq'
        · rw [e1, e2]
          exact refl _
        · rw [e1]
          exact b1 q hq'
        · rw [pairLe_antisymm hpq (e2 ▸ a1 p hp')]
          exact refl _
        · exact ih a2 b2 p hp' q hq' hpq
    intro p hp q hq
    exact key _ hasc h p (hperm.mem_iff.mpr hp) q (hperm.mem_iff.mpr hq)
  · intro h
    exact List.Pairwise.imp_of_mem
      (fun ha hb hab => h _ (hperm.mem_iff.mp ha) _ (hperm.mem_iff.mp hb) hab) hasc

/-- When sorting before encoding, and signing `realm`, makes no difference. -/
theorem rawOrder_rfc_iff (method uri : Bytes) (header own : List Parameter) :
    rawOrderBase method uri (unsigned (header ++ own)) = rfcBase method uri (collectParams header own) ↔
    (∀ p ∈ header, p.1 ≠ b!"realm") ∧ OrderKept (unsigned (header ++ own)) := by
  have hraw : rawOrderBase method uri (unsigned (header ++ own)) =
      encode (upper method) ++ b!"&" ++ encode uri ++ b!"&" ++
        encode (join b!"&" ((encodePairs (sortPairs (unsigned (header ++ own)))).map
          fun p => p.1 ++ b!"=" ++ p.2)) := by
    simp [rawOrderBase, encodePairs, List.map_map, Function.comp_def]
  have hrfc : rfcBase method uri (collectParams header own) =
      encode (upper method) ++ b!"&" ++ encode uri ++ b!"&" ++
        encode (join b!"&" ((sortPairs (encodePairs (collectParams header own))).map
          fun p => p.1 ++ b!"=" ++ p.2)) := rfl
  have hsub : header.filter (fun p => p.1 != b!"realm") = header ↔ ∀ p ∈ header, p.1 ≠ b!"realm" := by
    rw [List.filter_eq_self]
    simp
  have hsort := sortPairs_spec (encodePairs (collectParams header own))
  rw [hraw, hrfc, ← ascending_encode_iff]
  constructor
  · intro h
    have h := encode_injective (List.append_cancel_left h)
    obtain ⟨l', hl'⟩ := exists_encodePairs
      (l := sortPairs (encodePairs (collectParams header own))) (by
        intro x hx
        obtain ⟨y, -, hy⟩ := List.mem_map.mp (hsort.1.mem_iff.mp hx)
        exact ⟨y, hy⟩)
    rw [← hl'] at h
    have hc := join_formItems_injective h
    rw [hc, hl']
    refine ⟨?_, hsort.2⟩
    have hlen : (unsigned (header ++ own)).length = (collectParams header own).length := by
      rw [← (sortPairs_spec (unsigned (header ++ own))).1.length_eq, hc]
      have h1 := congrArg List.length hl'
      rw [hsort.1.length_eq] at h1
      simpa [encodePairs] using h1
    have hf : (header.filter fun p => p.1 != b!"realm").filter (fun p => p.1 != b!"oauth_signature") =
        header.filter fun p => p.1 != b!"oauth_signature" := by
      refine (List.filter_sublist.filter _).eq_of_length ?_
      simpa [unsigned, collectParams, List.filter_append] using hlen.symm
    intro p hp hr
    have hm : p ∈ header.filter fun p => p.1 != b!"oauth_signature" :=
      List.mem_filter.mpr ⟨hp, by rw [hr]; decide⟩
    rw [← hf] at hm
    have := (List.mem_filter.mp (List.mem_filter.mp hm).1).2
    rw [hr] at this
    exact absurd this (by decide)
  · rintro ⟨h1, h2⟩
    have hcol : collectParams header own = unsigned (header ++ own) := by
      rw [collectParams, hsub.mpr h1]
      rfl
    rw [hcol, sortPairs_of_ascending (l' := encodePairs (unsigned (header ++ own)))
      ((sortPairs_spec _).1.map _) h2]
    rfl

/-- C72, exact for every method, target and lists of parameters: the text is that of RFC 5849 if and only
if the header has no `realm` and encoding keeps the order of the parameters. -/
theorem C72_iff (req : HttpRequest) (header own : List Parameter) :
    Server.createBaseString req (sortPairs (header ++ own)) =
      rfcBase req.method (b!"http://127.0.0.1:8080" ++ req.path) (collectParams header own) ↔
    (∀ p ∈ header, p.1 ≠ b!"realm") ∧ OrderKept (unsigned (header ++ own)) := by
  rw [Server.createBaseString_eq _ _ (sortPairs_spec _).2,
    rawOrderBase_perm _ _ (show (unsigned (sortPairs (header ++ own))).Perm (unsigned (header ++ own)) from
      (sortPairs_spec _).1.filter _)]
  exact rawOrder_rfc_iff _ _ _ _

/-- C72, exact for what the server does with a request: it reads the form and collects parameters, and the
text of these is that of RFC 5849 for the parameters of header, form and query, by the decoding of the
specifications, if and only if the header has no `realm` and encoding keeps the order. -/
theorem C72_collected {L : Lib} {req : HttpRequest} {form : Bytes} {header : List Parameter}
    (hf : Server.formOf req = some form) (hh : HeaderParams L.emptyOk Server.dec req.authorization header) :
    let own := Server.pairsOf form ++ Server.pairsOf (req.query.getD [])
    Server.readForm req = .ok form ∧
    ∃ params, Server.collectParams L req form = .ok (some params) ∧
      (Server.createBaseString req params =
          rfcBase req.method (b!"http://127.0.0.1:8080" ++ req.path) (collectParams header own) ↔
        (∀ p ∈ header, p.1 ≠ b!"realm") ∧ OrderKept (unsigned (header ++ own))) := by
  intro own
  refine ⟨(Server.readForm_ok _ _).mpr hf, sortPairs (header ++ own), ?_, C72_iff _ _ _⟩
  unfold Server.collectParams
  rw [(Server.collectAuthParams_iff L _ _).mpr hh]
  simp only [bind, Except.bind, Server.sort_eq, Server.formParse_eq]
  rfl

/-- C72, where it holds: every request read whose header has no `realm` and whose parameters are in the
same order when encoded. -/
theorem C72_partial {L : Lib} {req : HttpRequest} {form : Bytes} {header : List Parameter}
    (_hf : Server.formOf req = some form)
    (_hh : HeaderParams L.emptyOk Server.dec req.authorization header)
    (hr : ∀ p ∈ header, p.1 ≠ b!"realm")
    (hk : OrderKept (unsigned (header ++ (Server.pairsOf form ++
      Server.pairsOf (req.query.getD []))))) :
    let own := Server.pairsOf form ++ Server.pairsOf (req.query.getD [])
    Server.createBaseString req (sortPairs (header ++ own)) =
      rfcBase req.method (b!"http://127.0.0.1:8080" ++ req.path) (collectParams header own) :=
  (C72_iff _ _ _).mpr ⟨hr, hk⟩

/-- A request with a `realm` in its header. -/
def withRealm : HttpRequest :=
  { signedOnce with authorization := [b!"OAuth realm=\"r\",oauth_consumer_key=\"client\""] }

theorem header_of {L : Lib} {req : HttpRequest} {header : List Parameter}
    (hh : (Server.collectAuthParams L req.authorization).toOption = some (some header)) :
    HeaderParams L.emptyOk Server.dec req.authorization header := by
  refine (Server.collectAuthParams_iff _ _ _).mp ?_
  cases hc : Server.collectAuthParams L req.authorization with
  | error e => rw [hc] at hh; cases hh
  | ok r => rw [hc] at hh; cases hh; rfl

/-- C72 is false: the server signs the `realm`, too. -/
theorem C72_violated : ¬ C72_claim := by
  intro h
  have h1 := (C72_iff _ _ _).mp (h (Server.exampleLib true) withRealm [] [(b!"realm", b!"r"),
    (b!"oauth_consumer_key", b!"client")] rfl (header_of (by decide +kernel)))
  exact h1.1 _ (List.mem_cons_self ..) rfl

/-- Without `realm` it is false as well: the server compares values before it encodes them. `-` is less
than `/`, but `%2F` is less than `-`. -/
theorem C72_violated_order : ∃ (req : HttpRequest) (own : List Parameter),
    own = Server.pairsOf (req.query.getD []) ∧
    Server.createBaseString req (sortPairs ([] ++ own)) ≠
      rfcBase req.method (b!"http://127.0.0.1:8080" ++ req.path) (collectParams [] own) := by
  refine ⟨{ signedOnce with query := some b!"a=-&a=%2F" }, [(b!"a", b!"-"), (b!"a", b!"/")],
    by decide +kernel, ?_⟩
  intro h
  have := ((C72_iff _ _ _).mp h).2 (b!"a", b!"-") (by decide) (b!"a", b!"/") (by decide)
    (.inr ⟨rfl, by decide⟩)
  rcases this with h1 | ⟨-, h1⟩
  · exact absurd h1 (by decide)
  · exact absurd h1 (by decide)

/-- The request of `signedOnce` meets the conditions. -/
example : Server.createBaseString signedOnce (sortPairs (signedOnceParams ++ [])) =
    rfcBase b!"GET" b!"http://127.0.0.1:8080/echo" (collectParams signedOnceParams []) := by
  have := C72_partial (L := Server.exampleLib true) (req := signedOnce) (form := []) rfl
    (header := signedOnceParams) (header_of (by decide +kernel)) (by decide)
    (by
      have : Server.pairsOf [] = [] := by decide +kernel
      show OrderKept (unsigned (_ ++ (Server.pairsOf [] ++
        Server.pairsOf [])))
      rw [this]
      intro p hp q hq hpq
      have : ∀ x ∈ unsigned signedOnceParams, (encode x.1, encode x.2) = x := by decide +kernel
      rw [List.append_nil, List.append_nil] at hp hq
      rw [this p hp, this q hq]
      exact hpq)
  have e : Server.pairsOf [] = [] := by decide +kernel
  have e' : Server.pairsOf (signedOnce.query.getD []) = [] := e
  simp only [e, e'] at this
  exact this

/-- What the server collects of this request and of the one with a `realm`. -/
example := C72_collected (L := Server.exampleLib true) (req := signedOnce) (form := []) rfl
  (header := signedOnceParams) (header_of (by decide +kernel))
example := C72_collected (L := Server.exampleLib true) (req := withRealm) (form := []) rfl
  (header := [(b!"realm", b!"r"), (b!"oauth_consumer_key", b!"client")]) (header_of (by decide +kernel))

end OAuth
