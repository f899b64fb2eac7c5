import Verif.Proofs.Uri
import Verif.Properties.BaseUri
import Verif.Properties.RfcDerived
import Verif.Spec.Wire

/-
C60, C61: whole HTTP requests and a server that follows RFC 5849.
-/

namespace OAuth

open Spec Derive

variable {S : Type}

/-! ### Reading forms -/

theorem percentDecode_of_decode {s d : Bytes} (h : decode s = some d) : percentDecode s = d := by
  fun_induction decode s generalizing d with
  | case1 => cases h; rfl
  | case2 h l rest c d r hr hd hc ih =>
    simp only [Option.some.injEq] at h
    subst h
    rw [percentDecode, hc, hd]
    simp only [ih hr]
  | case3 h l rest hn => simp at h
  | case4 rest hn => simp at h
  | case5 c rest hn hc ih =>
    simp only [Option.map_eq_some_iff] at h
    obtain ⟨r, hr, rfl⟩ := h
    rw [percentDecode, ih hr]
    intro h l t e1 e2
    exact absurd e1 hc

theorem plusToSpace_of_not_mem {s : Bytes} (h : (0x2B : UInt8) ∉ s) : plusToSpace s = s := by
  unfold plusToSpace
  induction s with
  | nil => rfl
  | cons b s ih =>
    simp only [List.mem_cons, not_or] at h
    rw [List.map_cons, ih h.2, if_neg (Ne.symm h.1)]

theorem mem_of_splitFirst {sep : UInt8} {s k v : Bytes} (h : splitFirst sep s = some (k, v)) :
    s = k ++ sep :: v := by
  induction s generalizing k with
  | nil => cases h
  | cons b s ih =>
    rw [splitFirst] at h
    split at h
    · next e => cases h; rw [e]; rfl
    · obtain ⟨⟨a, c⟩, h1, h2⟩ := Option.map_eq_some_iff.mp h
      cases h2
      rw [ih h1]; rfl

theorem mem_splitAll {sep : UInt8} {s p : Bytes} (h : p ∈ splitAll sep s) : ∀ b ∈ p, b ∈ s := by
  induction s generalizing p with
  | nil => simp only [splitAll, List.mem_singleton] at h; subst h; simp
  | cons c s ih =>
    intro b hb
    rw [splitAll] at h
    split at h
    · rcases List.mem_cons.mp h with rfl | h
      · cases hb
      · exact List.mem_cons_of_mem _ (ih h b hb)
    · split at h
      · simp only [List.mem_singleton] at h; subst h
        exact List.mem_cons.mpr (.inl (List.mem_singleton.mp hb))
      · next q qs hq =>
        rcases List.mem_cons.mp h with rfl | h
        · rcases List.mem_cons.mp hb with rfl | hb
          · exact List.mem_cons_self
          · exact List.mem_cons_of_mem _ (ih (by rw [hq]; exact List.mem_cons_self) b hb)
        · exact List.mem_cons_of_mem _ (ih (by rw [hq]; exact List.mem_cons_of_mem _ h) b hb)

/-- A form without `+` that can be parsed strictly is read the same way by the URL Standard. -/
theorem urlencoded_of_parseForm {s : Bytes} {ps : List (Bytes × Bytes)} (h : parseForm s = some ps)
    (hplus : (0x2B : UInt8) ∉ s) : urlencoded s = ps := by
  unfold parseForm at h
  split at h
  · next e => cases h; subst e; rfl
  · have hall : ∀ p ∈ splitAll 0x26 s, (0x2B : UInt8) ∉ p := fun p hp hm =>
      hplus (mem_splitAll hp _ hm)
    unfold urlencoded
    generalize splitAll 0x26 s = l at h hall
    induction l generalizing ps with
    | nil => cases h; rfl
    | cons x l ih =>
      rw [allSome] at h
      cases hx : parseItem x with
      | none => rw [hx] at h; cases h
      | some q =>
        cases hl : allSome parseItem l with
        | none => rw [hx, hl] at h; cases h
        | some qs =>
          rw [hx, hl] at h
          cases h
          unfold parseItem at hx
          cases hsf : splitFirst 0x3D x with
          | none => rw [hsf] at hx; cases hx
          | some kv =>
            obtain ⟨k, v⟩ := kv
            rw [hsf] at hx
            have hxe := mem_of_splitFirst hsf
            have hp := hall x (by simp)
            have hne : (x != []) = true := by rw [hxe]; simp
            rw [List.filter_cons_of_pos (p := fun item : Bytes => item != []) hne, List.map_cons, ih hl (fun p hp => hall p (by simp [hp]))]
            rw [hsf]
            have hk : (0x2B : UInt8) ∉ k := fun hm => hp (by rw [hxe]; simp [hm])
            have hv : (0x2B : UInt8) ∉ v := fun hm => hp (by rw [hxe]; simp [hm])
            cases hdk : decode k with
            | none => simp only [hdk] at hx; cases hx
            | some k' =>
              cases hdv : decode v with
              | none => simp only [hdk, hdv] at hx; cases hx
              | some v' =>
                simp only [hdk, hdv, Option.some.injEq] at hx
                subst hx
                simp only [Option.getD_some, plusToSpace_of_not_mem hk, plusToSpace_of_not_mem hv,
                  percentDecode_of_decode hdk, percentDecode_of_decode hdv]

/-- The characters of a form. -/
def formChar (b : UInt8) : Bool := encodedChar b || b == 0x3D || b == 0x26

theorem mem_join {sep : Bytes} {l : List Bytes} {b : UInt8} (h : b ∈ join sep l) :
    b ∈ sep ∨ ∃ x ∈ l, b ∈ x := by
  induction l with
  | nil => cases h
  | cons x l ih =>
    cases l with
    | nil => exact .inr ⟨x, by simp, h⟩
    | cons y l =>
      rw [join, List.append_assoc] at h
      rcases List.mem_append.mp h with h | h
      · exact .inr ⟨x, by simp, h⟩
      rcases List.mem_append.mp h with h | h
      · exact .inl h
      rcases ih h with h | ⟨z, hz, hb⟩
      · exact .inl h
      · exact .inr ⟨z, by simp [hz], hb⟩

theorem encodedChar_of_unreserved : ∀ b : UInt8, unreserved b = true → encodedChar b = true := by
  apply forall_byte; decide +kernel

theorem formChars {l : List (Bytes × Bytes)} (h : ∀ p ∈ l, ∀ b ∈ p.1, unreserved b = true) :
    ∀ b ∈ formOf (l.map fun p => p.1 ++ b!"=" ++ encode p.2), formChar b = true := by
  intro b hb
  rcases mem_join hb with hb | ⟨x, hx, hb⟩
  · rw [List.mem_singleton] at hb; subst hb; decide
  · obtain ⟨p, hp, rfl⟩ := List.mem_map.mp hx
    unfold formChar
    rcases List.mem_append.mp hb with hb | hb
    · rcases List.mem_append.mp hb with hb | hb
      · rw [encodedChar_of_unreserved b (h p hp b hb)]; rfl
      · rw [List.mem_singleton] at hb; subst hb; decide
    · rw [encode_alphabet _ b hb]; rfl

theorem canonical_formItems {cs : List Call} (h : ∀ c ∈ cs, c.canonical) :
    cs.filterMap Call.formItem? =
      (cs.filterMap Call.own?).map fun p => p.1 ++ b!"=" ++ encode p.2 := by
  induction cs with
  | nil => rfl
  | cons c cs ih =>
    have ih := ih (fun c hc => h c (by simp [hc]))
    have hc := h c (by simp)
    cases c with
    | parameter k v => simp only [List.filterMap_cons, Call.formItem?, Call.own?, List.map_cons, ih]
    | parameterEncoded k v =>
      obtain ⟨-, d, hd⟩ := hc
      simp only [List.filterMap_cons, Call.formItem?, Call.own?, hd, decode_encode, Option.map_some,
        List.map_cons, ih]
    | oauth p => exact ih

theorem canonical_own_keys {cs : List Call} (h : ∀ c ∈ cs, c.canonical) :
    ∀ p ∈ cs.filterMap Call.own?, ∀ b ∈ p.1, unreserved b = true := by
  intro p hp
  obtain ⟨c, hc, hcp⟩ := List.mem_filterMap.mp hp
  rw [(own_key hcp).1]
  exact canonical_key (h c hc)

/-- What a server reads in the plain form, and in the plain query, of a request. -/
theorem plain_form_read {r : Request} {cs : List Call} (hr : IsTrace r cs) (hcs : ∀ c ∈ cs, c.ok)
    (hcan : ∀ c ∈ cs, c.canonical) {w w' : World} {form : Bytes}
    (h : (Free.toForm r).run w = .ok (form, w')) :
    urlencoded form = cs.filterMap Call.own? ∧ (∀ b ∈ form, formChar b = true) := by
  rw [C01_to_form_any_request hr hcs] at h
  cases h
  rw [canonical_formItems hcan]
  have hk := canonical_own_keys hcan
  have hch := formChars hk
  exact ⟨urlencoded_of_parseForm (parseForm_formOf _ hk) (fun hm => absurd (hch _ hm) (by decide)), hch⟩

/-- The URI with a query appended to it. -/
theorem text_with_query {u v : Uri} (hu : u.Valid) (hq : u.query = none) (hf : u.fragment = none)
    (hv : v.Valid) {form : Bytes} (hform : ∀ b ∈ form, formChar b = true)
    (h : v.text = u.text ++ b!"?" ++ form) : v = { u with query := some form } := by
  refine uri_text_injective hv ⟨hu.scheme, hu.userinfo, hu.host, hu.port, hu.path, hu.pathChars, ?_⟩ ?_
  · intro q hq'
    cases hq'
    intro b hb e
    subst e
    exact absurd (hform _ hb) (by decide)
  · rw [h]
    simp [Uri.text, hq, hf]

theorem plain_query_read {r : Request} {cs : List Call} (hr : IsTrace r cs) (hcs : ∀ c ∈ cs, c.ok)
    (hcan : ∀ c ∈ cs, c.canonical) {u v : Uri} (hu : u.Valid) (hq : u.query = none)
    (hf : u.fragment = none) {w w' : World} {target : Bytes}
    (h : (Free.toQuery u.text r).run w = .ok (target, w')) (hv : v.Valid) (ht : v.text = target) :
    urlencoded (v.query.getD []) = cs.filterMap Call.own? ∧ v.baseUri = u.baseUri := by
  have hform := C01_to_form_any_request hr hcs w
  rw [C13_to_query_of_to_form hr u.text w w _ hform] at h
  obtain ⟨h1, h2⟩ := plain_form_read hr hcs hcan hform
  cases h
  split at ht
  · next e =>
    obtain rfl := uri_text_injective hv hu ht
    rw [e] at h1
    rw [hq]
    exact ⟨h1, rfl⟩
  · rw [text_with_query hu hq hf hv h2 ht]
    exact ⟨h1, rfl⟩

/-! ### What acceptance of a message comes down to -/

/-- If a message's parameters are, in some order, the protocol parameters, a signature and others, none
of the latter named `oauth_signature`. -/
theorem accepted_eq (check : Bytes → Bytes → Bool) (cfg : Cfg) (b : Builder S) (name : Bytes) (w : World)
    {m : Message} {ps own : List (Bytes × Bytes)} {sig : Bytes}
    (hown : ∀ x ∈ own, x.1 ≠ b!"oauth_signature") (hps : m.params = some ps)
    (h : ps.Perm (b.params cfg name w ++ [(b!"oauth_signature", sig)] ++ own)) :
    m.accepted check =
      check (rfcBase m.method m.uri.baseUri (b.params cfg name w ++ own)) sig := by
  have hn : ∀ x ∈ b.params cfg name w, x.1 ≠ b!"oauth_signature" := by
    intro x hx
    obtain ⟨q, -, hq⟩ := List.mem_filterMap.mp hx
    obtain ⟨v, -, rfl⟩ := Option.map_eq_some_iff.mp hq
    have : q.name ≠ b!"oauth_signature" := by cases q <;> decide
    exact this
  have h1 : ∀ l : List (Bytes × Bytes), (∀ x ∈ l, x.1 ≠ b!"oauth_signature") →
      l.filter (fun p => p.1 == b!"oauth_signature") = [] ∧
      l.filter (fun p => p.1 != b!"oauth_signature") = l := fun l hl =>
    ⟨List.filter_eq_nil_iff.mpr (fun x hx => by simp [hl x hx]),
      List.filter_eq_self.mpr (fun x hx => by simp [hl x hx])⟩
  have h2 : single b!"oauth_signature" ps = some sig := by
    have := h.filter (fun p => p.1 == b!"oauth_signature")
    rw [List.filter_append, List.filter_append, (h1 _ hn).1, (h1 _ hown).1] at this
    have := List.perm_singleton.mp (this.trans (by simp : List.Perm _ [(b!"oauth_signature", sig)]))
    unfold single
    rw [this]
  have h3 : (ps.filter fun p => p.1 != b!"oauth_signature").Perm (b.params cfg name w ++ own) := by
    have := h.filter (fun p => p.1 != b!"oauth_signature")
    rw [List.filter_append, List.filter_append, (h1 _ hn).2, (h1 _ hown).2] at this
    simpa using this
  unfold Message.accepted
  rw [hps]
  simp only [h2]
  rw [rfcBase_perm _ _ h3]

/-- The header's part of the parameters. -/
theorem params_of_header (cfg : Cfg) (b : Builder S) (name : Bytes) (w : World) {m : Message}
    {out sig : Bytes} (ha : m.authorization = some out)
    (hout : parseHeader out = some (b.params cfg name w ++ [(b!"oauth_signature", sig)])) :
    m.params = some (b.params cfg name w ++ [(b!"oauth_signature", sig)] ++
      (urlencoded (m.uri.query.getD []) ++ urlencoded (m.body.getD []))) := by
  have hn : ∀ x ∈ b.params cfg name w ++ [(b!"oauth_signature", sig)], x.1 ≠ b!"realm" := by
    intro x hx
    rcases List.mem_append.mp hx with hx | hx
    · obtain ⟨q, -, hq⟩ := List.mem_filterMap.mp hx
      obtain ⟨v, -, rfl⟩ := Option.map_eq_some_iff.mp hq
      have : q.name ≠ b!"realm" := by cases q <;> decide
      exact this
    · rw [List.mem_singleton] at hx
      subst hx
      exact (by decide : b!"oauth_signature" ≠ b!"realm")
  unfold Message.params
  rw [ha]
  simp only [hout, Option.map_some]
  rw [List.filter_eq_self.mpr (fun x hx => by simp [hn x hx])]

/-! ### C60: header and plain form or query -/

/-- The messages that consist of a header and the request's own parameters in the body or in the query
are accepted if the signature fits the base string that was signed. -/
theorem header_messages {check : Bytes → Bytes → Bool} {cfg : Cfg} {b : Builder S} {name : Bytes}
    {r : Request} {cs : List Call} (hr : IsTrace r cs) (hstd : Standard cs) (hcs : ∀ c ∈ cs, c.ok)
    {method : Bytes} {w : World} (hu : Understandable cfg (b.env name true true) w cs method)
    {u : Uri} (hv : u.Valid) (hn : u.Normal) {uri : Display} (htext : uri.text = u.text) {out sig : Bytes}
    (hout : parseHeader out = some (b.params cfg name w ++ [(b!"oauth_signature", sig)]))
    (hsig : check (b.base cfg name method uri cs w) sig = true) {w1 w2 : World} :
    (∀ form, (Free.toForm r).run w1 = .ok (form, w2) →
      Message.accepted check ⟨method, u, some out, some form⟩ = true) ∧
    (∀ target v, (Free.toQuery u.text r).run w1 = .ok (target, w2) → v.Valid → v.text = target →
      Message.accepted check ⟨method, v, some out, none⟩ = true) := by
  obtain ⟨h1, h2⟩ := understandable_base hu hstd uri (List.Perm.refl _)
  rw [htext, (baseUri_iff hv).mpr hn] at h1
  constructor
  · intro form hf
    obtain ⟨h3, -⟩ := plain_form_read hr hcs hu.canonical hf
    have hp := params_of_header cfg b name w (m := ⟨method, u, some out, some form⟩) rfl hout
    have e : urlencoded (u.query.getD []) ++ urlencoded ((some form).getD []) =
        cs.filterMap Call.own? := by
      rw [hn.query]; exact h3
    rw [e] at hp
    rw [accepted_eq check cfg b name w h2 hp (.refl _)]
    change check (rfcBase method u.baseUri _) sig = true
    rw [h1, hsig]
  · intro target v hq hv' ht
    obtain ⟨h3, h4⟩ := plain_query_read hr hcs hu.canonical hv hn.query hn.fragment hq hv' ht
    have hp := params_of_header cfg b name w (m := ⟨method, v, some out, none⟩) rfl hout
    have e : urlencoded (v.query.getD []) ++ urlencoded ((none : Option Bytes).getD []) =
        cs.filterMap Call.own? := by
      rw [h3]; simp [urlencoded, splitAll]
    rw [e] at hp
    rw [accepted_eq check cfg b name w h2 hp (.refl _)]
    change check (rfcBase method v.baseUri _) sig = true
    rw [h4, h1, hsig]

/-- C60 for HMAC-SHA1: sign a request to a URI in normal form, send the header that `authorize` returns
with the form that `to_form` returns as the body, or to the URI that `to_query` returns; a server that
follows RFC 5849 accepts what it receives. -/
theorem C60_hmac {cfg : Cfg} {b : Builder Hmac} (hb : b.signatureMethod = hmacSha1)
    {r : Request} {cs : List Call} (hr : IsTrace r cs) (hstd : Standard cs) (hcs : ∀ c ∈ cs, c.ok)
    {method : Bytes} {w w' : World}
    (hu : Understandable cfg (b.env b!"HMAC-SHA1" true true) w cs method)
    {u : Uri} (hv : u.Valid) (hn : u.Normal) {uri : Display} (huri : uri.outcome = .ok)
    (htext : uri.text = u.text) {out : Bytes} (h : b.authorize cfg method uri r w = .ok (out, w'))
    {w1 w2 : World} :
    (∀ form, (Free.toForm r).run w1 = .ok (form, w2) →
      Message.accepted (hmacCheck Sha1.hash b.client.secret (b.token.map (·.secret)))
        ⟨method, u, some out, some form⟩ = true) ∧
    (∀ target v, (Free.toQuery u.text r).run w1 = .ok (target, w2) → v.Valid → v.text = target →
      Message.accepted (hmacCheck Sha1.hash b.client.secret (b.token.map (·.secret)))
        ⟨method, v, some out, none⟩ = true) := by
  obtain ⟨b64, h1, -, h2⟩ := (C26_hmac_sha1_signature hb hr hstd hcs method w w' out).1 uri huri h
  exact header_messages hr hstd hcs hu hv hn htext h2 (by simp [hmacCheck, h1])

/-- The shared case: with the form in the body, and with the pairs in the query. -/
example : ∃ out w', (Case.builder hmacSha1).authorize Case.cfg b!"GET" (.ofBytes Case.uri) Case.request
      Case.world = .ok (out, w') ∧
    Message.accepted (hmacCheck Sha1.hash b!"client/secret" (some b!"token secret"))
      ⟨b!"GET", Case.parsedUri, some out, some b!"a=1%20%C3%A9&p=%26%3D%2B&p=~%25"⟩ = true ∧
    Message.accepted (hmacCheck Sha1.hash b!"client/secret" (some b!"token secret"))
      ⟨b!"GET", { Case.parsedUri with query := some b!"a=1%20%C3%A9&p=%26%3D%2B&p=~%25" }, some out,
        none⟩ = true := by
  obtain ⟨out, w', h⟩ := Case.header
  obtain ⟨_, hf⟩ := Case.ok_of_eq (x := (Free.toForm Case.request).run Case.world)
    (a := b!"a=1%20%C3%A9&p=%26%3D%2B&p=~%25") (by decide +kernel)
  obtain ⟨_, hq⟩ := Case.ok_of_eq (x := (Free.toQuery Case.parsedUri.text Case.request).run Case.world)
    (a := b!"http://example.com/a?a=1%20%C3%A9&p=%26%3D%2B&p=~%25") (by decide +kernel)
  have key := fun {w2 : World} => C60_hmac (w2 := w2) (w1 := Case.world) rfl Case.trace Case.standard
    (weave_ok Case.ok) (Case.understandable _ _ _ (by decide)) Case.parsedUri_valid Case.parsedUri_normal
    rfl (by decide) h
  refine ⟨out, w', h, key.1 _ hf, key.2 _ _ hq ?_ (by decide)⟩
  exact ⟨by decide, fun x hx => (by cases hx), .inl (by decide), fun p hp => (by cases hp), by decide,
    by decide, fun x hx => (by cases hx; decide)⟩

/-- C60 for RSA-SHA1, with RFC 3447 signatures. -/
theorem C60_rsa {key : RsaKey} (hkey : key.Valid Nat.Prime) (hk : 46 ≤ key.k) {cfg : Cfg}
    {b : Builder (RsaSign RsaKey)}
    (hb : b.signatureMethod = rsaOwned Sha1.hash pkcs1Ops key ∨
      b.signatureMethod = rsaRef Sha1.hash pkcs1Ops key)
    {r : Request} {cs : List Call} (hr : IsTrace r cs) (hstd : Standard cs) (hcs : ∀ c ∈ cs, c.ok)
    (hsorted : (cs.map Call.key).Pairwise (fun x y => bytesLe x y = true)) {method : Bytes} {w : World}
    (hclock : cfg.clock ≠ .none ∨ b.options.timestamp ≠ none)
    (hu : Understandable cfg (b.env b!"RSA-SHA1" true true) w cs method)
    {u : Uri} (hv : u.Valid) (hn : u.Normal) {uri : Display} (huri : uri.outcome = .ok)
    (htext : uri.text = u.text) (hq : (0x3F : UInt8) ∉ uri.text) :
    ∃ out w', b.authorize cfg method uri r w = .ok (out, w') ∧
    (∀ form w1 w2, (Free.toForm r).run w1 = .ok (form, w2) →
      Message.accepted (rsaCheck Sha1.hash key.verify) ⟨method, u, some out, some form⟩ = true) ∧
    (∀ target v w1 w2, (Free.toQuery u.text r).run w1 = .ok (target, w2) → v.Valid →
      v.text = target →
      Message.accepted (rsaCheck Sha1.hash key.verify) ⟨method, v, some out, none⟩ = true) := by
  obtain ⟨-, h2⟩ := C28_rsa_sha1_signature pkcs1Ops key hb hr hstd hcs hsorted method hclock w huri hq
  obtain ⟨sig, hs⟩ := rsa_signs key hk (digest := Sha1.hash (b.base cfg b!"RSA-SHA1" method uri cs w))
    (sha1_length _)
  obtain ⟨b64, h3, ⟨out, w', h4, h5⟩, -⟩ := h2 sig hs
  have hc : rsaCheck Sha1.hash key.verify (b.base cfg b!"RSA-SHA1" method uri cs w) b64 = true := by
    rw [rsaCheck, h3]
    exact (rsa_verify_sign hkey hs _).mpr rfl
  refine ⟨out, w', h4, fun form w1 w2 hf => ?_, fun target v w1 w2 hf hv' ht => ?_⟩
  · exact (header_messages hr hstd hcs hu hv hn htext h5 hc).1 form hf
  · exact (header_messages hr hstd hcs hu hv hn htext h5 hc).2 target v hf hv' ht

example := C60_rsa exampleKey_valid (by decide) (cfg := Case.cfg)
  (b := Case.builder (rsaRef Sha1.hash pkcs1Ops exampleKey)) (.inr rfl) Case.trace Case.standard
  (weave_ok Case.ok) (by decide) (w := Case.world) (.inl (by decide))
  (Case.understandable _ _ b!"POST" (by decide)) Case.parsedUri_valid Case.parsedUri_normal
  (uri := .ofBytes Case.uri) rfl (by decide)

/-- C60 for parameter lists. -/
theorem C60_parameter_list {cfg : Cfg} {b : Builder Hmac} (hb : b.signatureMethod = hmacSha1)
    {supplied current : List Pair} (hbuilt : Built supplied current) (hok : AllOk supplied)
    {method : Bytes} (hp : Plain supplied method) (hkeeps : EncodingKeepsOrder supplied)
    {u : Uri} (hv : u.Valid) (hn : u.Normal) {uri : Display} (huri : uri.outcome = .ok)
    (htext : uri.text = u.text) {w w' : World} {out : Bytes}
    (h : b.authorize cfg method uri (ParameterList.request cfg current) w = .ok (out, w'))
    {w1 w2 : World} :
    (∀ form, (Free.toForm (ParameterList.request cfg current)).run w1 = .ok (form, w2) →
      Message.accepted (hmacCheck Sha1.hash b.client.secret (b.token.map (·.secret)))
        ⟨method, u, some out, some form⟩ = true) ∧
    (∀ target v, (Free.toQuery u.text (ParameterList.request cfg current)).run w1 =
        .ok (target, w2) → v.Valid → v.text = target →
      Message.accepted (hmacCheck Sha1.hash b.client.secret (b.token.map (·.secret)))
        ⟨method, v, some out, none⟩ = true) := by
  have hok' : AllOk current := fun x hx => hok x ((C19_always_sorted hbuilt).1.mem_iff.mp hx)
  exact C60_hmac hb (isTrace_parameterList cfg current) (standard_weave current) (weave_ok hok')
    (parameterList_understandable cfg _ w hbuilt hp hkeeps) hv hn huri htext h

example {out : Bytes} {w' : World} (h : (Case.builder hmacSha1).authorize Case.cfg b!"GET"
    (.ofBytes Case.uri) Case.request Case.world = .ok (out, w')) :=
  C60_parameter_list (w1 := Case.world) (w2 := Case.world) rfl Case.built Case.ok (Case.plain _ (by decide))
    Case.keepsOrder Case.parsedUri_valid Case.parsedUri_normal rfl (by decide) h

/-- C60 for structs with `#[derive(Request)]`, whatever the values of their fields. -/
theorem C60_derived {τ : Type} {cfg : Cfg} {S : Syn τ} (hS : Lawful S)
    {lookup : CrateLookup} {isIdent : Bytes → Bool} {attrs : List (Attribute τ)}
    {fs : List (SynField τ)} {i : Import} {body : List Stmt}
    (hx : expand cfg S lookup isIdent ⟨attrs, some fs⟩ = .ok (.impl i body))
    {V : Type} {sc : Scope V} {self : Bytes → V} (hf : PlainFields S fs sc self)
    {b : Builder Hmac} (hb : b.signatureMethod = hmacSha1) {method : Bytes}
    (hm : ∀ b ∈ method, unreserved b = true) (hu : upper method = method)
    {u : Uri} (hv : u.Valid) (hn : u.Normal) {uri : Display} (huri : uri.outcome = .ok)
    (htext : uri.text = u.text) {w w' : World} {out : Bytes}
    (h : b.authorize cfg method uri (Derive.request sc self body) w = .ok (out, w'))
    {w1 w2 : World} :
    (∀ form, (Free.toForm (Derive.request sc self body)).run w1 = .ok (form, w2) →
      Message.accepted (hmacCheck Sha1.hash b.client.secret (b.token.map (·.secret)))
        ⟨method, u, some out, some form⟩ = true) ∧
    (∀ target v, (Free.toQuery u.text (Derive.request sc self body)).run w1 =
        .ok (target, w2) → v.Valid → v.text = target →
      Message.accepted (hmacCheck Sha1.hash b.client.secret (b.token.map (·.secret)))
        ⟨method, v, some out, none⟩ = true) := by
  obtain ⟨cs, htr, hstd, hok, -, -, -, hun⟩ := derived_understandable hS hx hf hm hu
  exact C60_hmac hb htr hstd hok (hun _ _ _) hv hn huri htext h

/-- The struct `rfcFields`, with the form in the body. -/
example : ∃ out w', (Case.builder hmacSha1).authorize Case.cfg b!"POST" (.ofBytes Case.uri)
      (Derive.request exampleScope rfcSelf rfcBody) Case.world = .ok (out, w') ∧
    Message.accepted (hmacCheck Sha1.hash b!"client/secret" (some b!"token secret"))
      ⟨b!"POST", Case.parsedUri, some out, some b!"q=%3Cx%2By%3E&type=%7B~%7D&zeta=1%20%2B2"⟩ = true := by
  obtain ⟨out, w', h⟩ := Case.ok_of_isSome (x := (Case.builder hmacSha1).authorize Case.cfg b!"POST"
    (.ofBytes Case.uri) (Derive.request exampleScope rfcSelf rfcBody) Case.world) (by decide +kernel)
  obtain ⟨_, hf⟩ := Case.ok_of_eq
    (x := (Free.toForm (Derive.request exampleScope rfcSelf rfcBody)).run Case.world)
    (a := b!"q=%3Cx%2By%3E&type=%7B~%7D&zeta=1%20%2B2") (by decide +kernel)
  exact ⟨out, w', h, (C60_derived tokSyn_lawful rfcFields_expand rfcFields_plain rfl (by decide) (by decide)
    Case.parsedUri_valid Case.parsedUri_normal rfl (by decide) h).1 _ hf⟩

/-! ### C61: signed form or query -/

/-- What a server reads in the form (or in the query) with the protocol parameters. -/
theorem signed_form_read (cfg : Cfg) (b : Builder S) (name : Bytes) (w : World) (d : Bytes) :
    let form := formText ((b.params cfg name w).map fun p => (p.1, encode p.2)) (encode d)
    urlencoded form = b.params cfg name w ++ [(b!"oauth_signature", d)] ∧
      ∀ x ∈ form, formChar x = true := by
  intro form
  have e : form = formOf ((b.params cfg name w ++ [(b!"oauth_signature", d)]).map
      fun p => p.1 ++ b!"=" ++ encode p.2) := by
    simp only [form, formText, formOf, List.map_append, List.map_map]
    rfl
  have hk : ∀ p ∈ b.params cfg name w ++ [(b!"oauth_signature", d)],
      ∀ x ∈ p.1, unreserved x = true := by
    intro p hp
    rcases List.mem_append.mp hp with hp | hp
    · obtain ⟨r, _, hr⟩ := List.mem_filterMap.mp hp
      obtain ⟨v, _, rfl⟩ := Option.map_eq_some_iff.mp hr
      exact proto_name_unreserved r
    · rw [List.mem_singleton] at hp
      subst hp
      exact (by decide : ∀ x ∈ b!"oauth_signature", unreserved x = true)
  have hch := formChars hk
  rw [← e] at hch
  exact ⟨urlencoded_of_parseForm (parse_output cfg b name w d).2
    (fun hm => absurd (hch _ hm) (by decide)), hch⟩

/-- The base string of the message without the request's own parameters is the one signed exactly if
there are none. -/
theorem base_without_own_iff {cfg : Cfg} {b : Builder S} {name : Bytes} {cs : List Call} {w : World}
    {method : Bytes} (hu : Understandable cfg (b.env name true true) w cs method) (hstd : Standard cs)
    (uri : Display) :
    b.base cfg name method uri cs w = rfcBase method uri.text (b.params cfg name w) ↔
      cs.filterMap Call.own? = [] := by
  rw [← (understandable_base hu hstd uri (List.Perm.refl _)).1]
  constructor
  · intro h
    unfold rfcBase normalizedParams at h
    have h := encode_injective (List.append_cancel_left h)
    change join b!"&" ((sortPairs (encodePairs _)).map _) =
      join b!"&" ((sortPairs (encodePairs _)).map _) at h
    have hex : ∀ l, ∃ l', encodePairs l' = sortPairs (encodePairs l) := fun l =>
      exists_encodePairs (by
        intro x hx
        obtain ⟨y, -, hy⟩ := List.mem_map.mp ((sortPairs_spec (encodePairs l)).1.mem_iff.mp hx)
        exact ⟨y, hy⟩)
    obtain ⟨l1, e1⟩ := hex (b.params cfg name w ++ cs.filterMap Call.own?)
    obtain ⟨l2, e2⟩ := hex (b.params cfg name w)
    rw [← e1, ← e2] at h
    have h := join_formItems_injective h
    have n1 := (sortPairs_spec (encodePairs (b.params cfg name w ++ cs.filterMap Call.own?))).1.length_eq
    have n2 := (sortPairs_spec (encodePairs (b.params cfg name w))).1.length_eq
    rw [← e1] at n1
    rw [← e2, ← h] at n2
    rw [n1] at n2
    simp only [encodePairs, List.length_map, List.length_append] at n2
    exact List.length_eq_zero_iff.mp (by omega)
  · intro h
    rw [h, List.append_nil]

/-- C61, the claim: the form that `Builder::to_form` returns, sent as the body, and the URI that
`Builder::to_query` returns, are accepted by a server that follows RFC 5849. -/
def C61_claim : Prop :=
  ∀ (cfg : Cfg) (b : Builder Hmac), b.signatureMethod = hmacSha1 →
  ∀ (supplied current : List Pair), Built supplied current → AllOk supplied →
    EncodingKeepsOrder supplied →
  ∀ (method : Bytes), Plain supplied method → ∀ (u : Uri), u.Valid → u.Normal →
  ∀ (w w' : World) (out : Bytes),
    (∀ uri : Display, uri.outcome = .ok → uri.text = u.text →
      b.toForm cfg method uri (ParameterList.request cfg current) w = .ok (out, w') →
      Message.accepted (hmacCheck Sha1.hash b.client.secret (b.token.map (·.secret)))
        ⟨method, u, none, some out⟩ = true) ∧
    (b.toQuery cfg stringWriter .ofBytes method u.text (ParameterList.request cfg current) w =
        .ok (out, w') → ∀ v : Uri, v.Valid → v.text = out →
      Message.accepted (hmacCheck Sha1.hash b.client.secret (b.token.map (·.secret)))
        ⟨method, v, none, none⟩ = true)

/-- The form or URI of a method that signs with `f`, sent alone: accepted exactly if the server's check
of `f` of the base string that was signed succeeds for the base string of what it receives. -/
theorem alone_iff {check : Bytes → Bytes → Bool} {cfg : Cfg} {b : Builder S} {name : Bytes}
    {f : Bytes → Bytes} (hs : b.Signs name true true (fun m => encode (f m)))
    {r : Request} {cs : List Call} (hr : IsTrace r cs) (hstd : Standard cs) (hcs : ∀ c ∈ cs, c.ok)
    {method : Bytes} {w w' : World} {u : Uri} (hv : u.Valid) (hn : u.Normal) {out : Bytes} :
    let signed := b.base cfg name method (.ofBytes u.text) cs w
    let expected := rfcBase method u.text (b.params cfg name w)
    (∀ uri : Display, uri.outcome = .ok → uri.text = u.text →
      b.toForm cfg method uri r w = .ok (out, w') →
      (Message.accepted check ⟨method, u, none, some out⟩ = true ↔
        check expected (f signed) = true)) ∧
    (b.toQuery cfg stringWriter .ofBytes method u.text r w = .ok (out, w') →
      ∀ v : Uri, v.Valid → v.text = out →
      (Message.accepted check ⟨method, v, none, none⟩ = true ↔
        check expected (f signed) = true)) := by
  intro signed expected
  have hbt : u.baseUri = u.text := ((baseUri_iff hv).mpr hn).symm
  have hbase : ∀ uri : Display, uri.text = u.text → b.base cfg name method uri cs w =
      b.base cfg name method (.ofBytes u.text) cs w := by
    intro uri h
    unfold Builder.base
    rw [h, Display.text_ofBytes]
  obtain ⟨-, h2, h3⟩ := signs_output hs hr hstd hcs method w w' out
  refine ⟨?_, ?_⟩
  · intro uri huri htext h
    obtain ⟨h4, -⟩ := signed_form_read cfg b name w (f (b.base cfg name method uri cs w))
    rw [← h2 uri huri h] at h4
    have hp : Message.params ⟨method, u, none, some out⟩ = some (urlencoded out) := by
      simp [Message.params, hn.query, urlencoded, splitAll]
    rw [accepted_eq _ cfg b name w (own := []) (by simp) hp (by rw [h4, List.append_nil]),
      List.append_nil]
    simp only [hbase uri htext, hbt, signed, expected]
  · intro h v hv' ht
    obtain ⟨h4, h5⟩ := signed_form_read cfg b name w
      (f (b.base cfg name method (.ofBytes u.text) cs w))
    have hv2 := text_with_query hv hn.query hn.fragment hv' h5 (ht.trans (h3 _ h))
    have hp : Message.params ⟨method, v, none, none⟩ = some (urlencoded (v.query.getD [])) := by
      simp [Message.params, urlencoded, splitAll]
    have hb' : v.baseUri = u.baseUri := by rw [hv2]; rfl
    rw [hv2] at hp
    simp only [Option.getD_some, h4] at hp
    rw [← hv2] at hp
    rw [accepted_eq _ cfg b name w (own := []) (by simp) hp (by rw [List.append_nil]),
      List.append_nil]
    simp only [hb', hbt, signed, expected]

/-- The form or URI of a method that signs with `f`, with the parameters of the request sent the other
way. -/
theorem other_way {check : Bytes → Bytes → Bool} {cfg : Cfg} {b : Builder S} {name : Bytes}
    {f : Bytes → Bytes} (hs : b.Signs name true true (fun m => encode (f m)))
    {r : Request} {cs : List Call} (hr : IsTrace r cs) (hstd : Standard cs) (hcs : ∀ c ∈ cs, c.ok)
    {method : Bytes} {w w' : World} (hu : Understandable cfg (b.env name true true) w cs method)
    (hc : ∀ m, check m (f m) = true) {u : Uri} (hv : u.Valid) (hn : u.Normal) {out : Bytes} :
    (∀ uri : Display, uri.outcome = .ok → uri.text = u.text →
      b.toForm cfg method uri r w = .ok (out, w') →
      ∀ target v w1 w2, (Free.toQuery u.text r).run w1 = .ok (target, w2) → v.Valid →
        v.text = target → Message.accepted check ⟨method, v, none, some out⟩ = true) ∧
    (b.toQuery cfg stringWriter .ofBytes method u.text r w = .ok (out, w') →
      ∀ v : Uri, v.Valid → v.text = out →
      ∀ form w1 w2, (Free.toForm r).run w1 = .ok (form, w2) →
        Message.accepted check ⟨method, v, none, some form⟩ = true) := by
  have hbt : u.baseUri = u.text := ((baseUri_iff hv).mpr hn).symm
  obtain ⟨-, h2, h3⟩ := signs_output hs hr hstd hcs method w w' out
  refine ⟨fun uri huri htext h target v w1 w2 hq hv' ht => ?_, fun h v hv' ht form w1 w2 hf => ?_⟩
  · obtain ⟨h4, -⟩ := signed_form_read cfg b name w (f (b.base cfg name method uri cs w))
    rw [← h2 uri huri h] at h4
    obtain ⟨q1, q2⟩ := plain_query_read hr hcs hu.canonical hv hn.query hn.fragment hq hv' ht
    obtain ⟨b1, b2⟩ := understandable_base hu hstd uri (List.Perm.refl _)
    have hp : Message.params ⟨method, v, none, some out⟩ =
        some (cs.filterMap Call.own? ++ urlencoded out) := by
      simp [Message.params, q1]
    rw [accepted_eq _ cfg b name w b2 hp (by rw [h4]; exact List.perm_append_comm)]
    change check (rfcBase method v.baseUri _) _ = true
    rw [q2, hbt, ← htext, b1]
    exact hc _
  · obtain ⟨h4, h5⟩ := signed_form_read cfg b name w
      (f (b.base cfg name method (.ofBytes u.text) cs w))
    have hv2 := text_with_query hv hn.query hn.fragment hv' h5 (ht.trans (h3 _ h))
    obtain ⟨q1, -⟩ := plain_form_read hr hcs hu.canonical hf
    obtain ⟨b1, b2⟩ := understandable_base hu hstd (.ofBytes u.text) (List.Perm.refl _)
    have hb' : v.baseUri = u.baseUri := by rw [hv2]; rfl
    have hp : Message.params ⟨method, v, none, some form⟩ =
        some (urlencoded (v.query.getD []) ++ cs.filterMap Call.own?) := by
      simp [Message.params, q1]
    rw [hv2] at hp
    simp only [Option.getD_some, h4] at hp
    rw [← hv2] at hp
    rw [accepted_eq _ cfg b name w b2 hp (.refl _)]
    change check (rfcBase method v.baseUri _) _ = true
    rw [Display.text_ofBytes] at b1
    rw [hb', hbt, b1]
    exact hc _

/-- `hmacSha1` signs, by definition, with what a server checks. -/
theorem builder_signs_hmac {b : Builder Hmac} (hb : b.signatureMethod = hmacSha1) :
    b.Signs b!"HMAC-SHA1" true true (fun m => encode (base64Standard
      (hmac Sha1.hash (signingKey b.client.secret (b.token.map (·.secret))) m))) := by
  rw [Builder.Signs, hb]
  exact signs_hmac _ (fun m => by rw [sha1_length]; decide) _ _

/-- The signature of an RSA key that is long enough. -/
def rsaText (key : RsaKey) (m : Bytes) : Bytes := base64Standard ((key.sign (Sha1.hash m)).getD [])

theorem builder_signs_rsa {key : RsaKey} (hk : 46 ≤ key.k) {b : Builder (RsaSign RsaKey)}
    (hb : b.signatureMethod = rsaOwned Sha1.hash pkcs1Ops key ∨
      b.signatureMethod = rsaRef Sha1.hash pkcs1Ops key) :
    b.Signs b!"RSA-SHA1" true true (fun m => encode (rsaText key m)) := by
  have hs : ∀ m, pkcs1Ops.sign key (Sha1.hash m) =
      some ((fun d => (key.sign d).getD []) (Sha1.hash m)) := by
    intro m
    obtain ⟨sig, h⟩ := rsa_signs key hk (digest := Sha1.hash m) (sha1_length _)
    change key.sign _ = some ((key.sign _).getD [])
    rw [h]
    rfl
  rcases hb with hb | hb
  · rw [Builder.Signs, hb]
    exact signs_rsaOwned Sha1.hash pkcs1Ops key (fun d => (key.sign d).getD []) hs _ _
  · rw [Builder.Signs, hb]
    exact signs_rsaRef Sha1.hash pkcs1Ops key (fun d => (key.sign d).getD []) hs _ _

theorem rsaCheck_text {key : RsaKey} (hkey : key.Valid Nat.Prime) (hk : 46 ≤ key.k) (m m' : Bytes) :
    rsaCheck Sha1.hash key.verify m' (rsaText key m) = true ↔ Sha1.hash m' = Sha1.hash m := by
  obtain ⟨sig, h⟩ := rsa_signs key hk (digest := Sha1.hash m) (sha1_length _)
  have hd : ∀ x, base64DecodePad base64Alphabet (base64Standard x) = some x := base64_decodePad false
  rw [rsaCheck, rsaText, h, hd]
  exact rsa_verify_sign hkey h _

/-- C61, exactly: sent alone, the form or URI is accepted if and only if two base strings have the same
MAC; they are the same string if and only if the request has no parameters of its own. -/
theorem C61_alone {cfg : Cfg} {b : Builder Hmac} (hb : b.signatureMethod = hmacSha1)
    {r : Request} {cs : List Call} (hr : IsTrace r cs) (hstd : Standard cs) (hcs : ∀ c ∈ cs, c.ok)
    {method : Bytes} {w w' : World}
    (hu : Understandable cfg (b.env b!"HMAC-SHA1" true true) w cs method)
    {u : Uri} (hv : u.Valid) (hn : u.Normal) {out : Bytes} :
    let signed := b.base cfg b!"HMAC-SHA1" method (.ofBytes u.text) cs w
    let expected := rfcBase method u.text (b.params cfg b!"HMAC-SHA1" w)
    (signed = expected ↔ cs.filterMap Call.own? = []) ∧
    (∀ uri : Display, uri.outcome = .ok → uri.text = u.text →
      b.toForm cfg method uri r w = .ok (out, w') →
      (Message.accepted (hmacCheck Sha1.hash b.client.secret (b.token.map (·.secret)))
        ⟨method, u, none, some out⟩ = true ↔
      hmac Sha1.hash (signingKey b.client.secret (b.token.map (·.secret))) signed =
        hmac Sha1.hash (signingKey b.client.secret (b.token.map (·.secret))) expected)) ∧
    (b.toQuery cfg stringWriter .ofBytes method u.text r w = .ok (out, w') →
      ∀ v : Uri, v.Valid → v.text = out →
      (Message.accepted (hmacCheck Sha1.hash b.client.secret (b.token.map (·.secret)))
        ⟨method, v, none, none⟩ = true ↔
      hmac Sha1.hash (signingKey b.client.secret (b.token.map (·.secret))) signed =
        hmac Sha1.hash (signingKey b.client.secret (b.token.map (·.secret))) expected)) := by
  intro signed expected
  obtain ⟨h1, h2⟩ := alone_iff (w' := w') (out := out) (w := w) (cfg := cfg) (method := method)
    (check := hmacCheck Sha1.hash b.client.secret (b.token.map (·.secret)))
    (builder_signs_hmac hb) hr hstd hcs hv hn
  have hd : ∀ x, base64DecodePad base64Alphabet (base64Standard x) = some x := base64_decodePad false
  simp only [hmacCheck, hd, beq_iff_eq, Option.some.injEq] at h1 h2
  have h0 := base_without_own_iff hu hstd (.ofBytes u.text)
  rw [Display.text_ofBytes] at h0
  exact ⟨h0, h1, h2⟩

example (out : Bytes) (w' : World) := C61_alone (out := out) (w' := w') (cfg := Case.cfg) (b := Case.builder hmacSha1) (w := Case.world) rfl Case.trace
  Case.standard (weave_ok Case.ok) (Case.understandable _ _ b!"POST" (by decide)) Case.parsedUri_valid
  Case.parsedUri_normal

/-- C61, exactly, for RSA-SHA1: accepted if and only if the two base strings have the same digest. -/
theorem C61_alone_rsa {key : RsaKey} (hkey : key.Valid Nat.Prime) (hk : 46 ≤ key.k) {cfg : Cfg}
    {b : Builder (RsaSign RsaKey)}
    (hb : b.signatureMethod = rsaOwned Sha1.hash pkcs1Ops key ∨
      b.signatureMethod = rsaRef Sha1.hash pkcs1Ops key)
    {r : Request} {cs : List Call} (hr : IsTrace r cs) (hstd : Standard cs) (hcs : ∀ c ∈ cs, c.ok)
    {method : Bytes} {w w' : World}
    (hu : Understandable cfg (b.env b!"RSA-SHA1" true true) w cs method)
    {u : Uri} (hv : u.Valid) (hn : u.Normal) {out : Bytes} :
    let signed := b.base cfg b!"RSA-SHA1" method (.ofBytes u.text) cs w
    let expected := rfcBase method u.text (b.params cfg b!"RSA-SHA1" w)
    (signed = expected ↔ cs.filterMap Call.own? = []) ∧
    (∀ uri : Display, uri.outcome = .ok → uri.text = u.text →
      b.toForm cfg method uri r w = .ok (out, w') →
      (Message.accepted (rsaCheck Sha1.hash key.verify) ⟨method, u, none, some out⟩ = true ↔
        Sha1.hash expected = Sha1.hash signed)) ∧
    (b.toQuery cfg stringWriter .ofBytes method u.text r w = .ok (out, w') →
      ∀ v : Uri, v.Valid → v.text = out →
      (Message.accepted (rsaCheck Sha1.hash key.verify) ⟨method, v, none, none⟩ = true ↔
        Sha1.hash expected = Sha1.hash signed)) := by
  intro signed expected
  obtain ⟨h1, h2⟩ := alone_iff (w' := w') (out := out) (w := w) (cfg := cfg) (method := method)
    (check := rsaCheck Sha1.hash key.verify) (builder_signs_rsa hk hb) hr hstd hcs hv hn
  simp only [rsaCheck_text hkey hk] at h1 h2
  have h0 := base_without_own_iff hu hstd (.ofBytes u.text)
  rw [Display.text_ofBytes] at h0
  exact ⟨h0, h1, h2⟩

example (out : Bytes) (w' : World) := C61_alone_rsa (out := out) (w' := w') exampleKey_valid (by decide) (cfg := Case.cfg) (w := Case.world)
  (b := Case.builder (rsaRef Sha1.hash pkcs1Ops exampleKey)) (.inr rfl) Case.trace Case.standard
  (weave_ok Case.ok) (Case.understandable _ _ b!"POST" (by decide)) Case.parsedUri_valid
  Case.parsedUri_normal

/-- C61, where it holds: if the request has no parameters of its own; or if these are sent by the other
way, with the plain `to_query` or `to_form`. What is missing is the documented use, with the output of
`Builder::to_form` or `Builder::to_query` as it is. -/
theorem C61_partial {cfg : Cfg} {b : Builder Hmac} (hb : b.signatureMethod = hmacSha1)
    {r : Request} {cs : List Call} (hr : IsTrace r cs) (hstd : Standard cs) (hcs : ∀ c ∈ cs, c.ok)
    {method : Bytes} {w w' : World}
    (hu : Understandable cfg (b.env b!"HMAC-SHA1" true true) w cs method)
    {u : Uri} (hv : u.Valid) (hn : u.Normal) {out : Bytes} :
    (∀ uri : Display, uri.outcome = .ok → uri.text = u.text →
      b.toForm cfg method uri r w = .ok (out, w') →
      (cs.filterMap Call.own? = [] →
        Message.accepted (hmacCheck Sha1.hash b.client.secret (b.token.map (·.secret)))
          ⟨method, u, none, some out⟩ = true) ∧
      ∀ target v w1 w2, (Free.toQuery u.text r).run w1 = .ok (target, w2) → v.Valid →
        v.text = target →
        Message.accepted (hmacCheck Sha1.hash b.client.secret (b.token.map (·.secret)))
          ⟨method, v, none, some out⟩ = true) ∧
    (b.toQuery cfg stringWriter .ofBytes method u.text r w = .ok (out, w') →
      ∀ v : Uri, v.Valid → v.text = out →
      (cs.filterMap Call.own? = [] →
        Message.accepted (hmacCheck Sha1.hash b.client.secret (b.token.map (·.secret)))
          ⟨method, v, none, none⟩ = true) ∧
      ∀ form w1 w2, (Free.toForm r).run w1 = .ok (form, w2) →
        Message.accepted (hmacCheck Sha1.hash b.client.secret (b.token.map (·.secret)))
          ⟨method, v, none, some form⟩ = true) := by
  have hd : ∀ x, base64DecodePad base64Alphabet (base64Standard x) = some x := base64_decodePad false
  obtain ⟨e, a1, a2⟩ := C61_alone (w' := w') (out := out) hb hr hstd hcs hu hv hn
  obtain ⟨o1, o2⟩ := other_way (w' := w') (out := out)
    (check := hmacCheck Sha1.hash b.client.secret (b.token.map (·.secret)))
    (builder_signs_hmac hb) hr hstd hcs hu (fun m => by simp [hmacCheck, hd]) hv hn
  exact ⟨fun uri huri htext h => ⟨fun ho => (a1 uri huri htext h).mpr (by rw [e.mpr ho]),
      o1 uri huri htext h⟩,
    fun h v hv' ht => ⟨fun ho => (a2 h v hv' ht).mpr (by rw [e.mpr ho]), o2 h v hv' ht⟩⟩

/-- The signed form of the shared case, with the pairs in the query. -/
example : ∃ out w', (Case.builder hmacSha1).toForm Case.cfg b!"POST" (.ofBytes Case.uri) Case.request
      Case.world = .ok (out, w') ∧
    Message.accepted (hmacCheck Sha1.hash b!"client/secret" (some b!"token secret"))
      ⟨b!"POST", { Case.parsedUri with query := some b!"a=1%20%C3%A9&p=%26%3D%2B&p=~%25" }, none,
        some out⟩ = true := by
  obtain ⟨out, w', h⟩ := Case.form
  obtain ⟨_, hq⟩ := Case.ok_of_eq (x := (Free.toQuery Case.parsedUri.text Case.request).run Case.world)
    (a := b!"http://example.com/a?a=1%20%C3%A9&p=%26%3D%2B&p=~%25") (by decide +kernel)
  refine ⟨out, w', h, ((C61_partial rfl Case.trace Case.standard (weave_ok Case.ok)
    (Case.understandable _ _ _ (by decide)) Case.parsedUri_valid Case.parsedUri_normal).1 _ rfl (by decide)
    h).2 _ _ _ _ hq ?_ (by decide)⟩
  exact ⟨by decide, fun x hx => (by cases hx), .inl (by decide), fun p hp => (by cases hp), by decide,
    by decide, fun x hx => (by cases hx; decide)⟩

/-- C61, where it holds, for RSA-SHA1. -/
theorem C61_partial_rsa {key : RsaKey} (hkey : key.Valid Nat.Prime) (hk : 46 ≤ key.k) {cfg : Cfg}
    {b : Builder (RsaSign RsaKey)}
    (hb : b.signatureMethod = rsaOwned Sha1.hash pkcs1Ops key ∨
      b.signatureMethod = rsaRef Sha1.hash pkcs1Ops key)
    {r : Request} {cs : List Call} (hr : IsTrace r cs) (hstd : Standard cs) (hcs : ∀ c ∈ cs, c.ok)
    {method : Bytes} {w w' : World}
    (hu : Understandable cfg (b.env b!"RSA-SHA1" true true) w cs method)
    {u : Uri} (hv : u.Valid) (hn : u.Normal) {out : Bytes} :
    (∀ uri : Display, uri.outcome = .ok → uri.text = u.text →
      b.toForm cfg method uri r w = .ok (out, w') →
      (cs.filterMap Call.own? = [] →
        Message.accepted (rsaCheck Sha1.hash key.verify) ⟨method, u, none, some out⟩ = true) ∧
      ∀ target v w1 w2, (Free.toQuery u.text r).run w1 = .ok (target, w2) → v.Valid →
        v.text = target →
        Message.accepted (rsaCheck Sha1.hash key.verify) ⟨method, v, none, some out⟩ = true) ∧
    (b.toQuery cfg stringWriter .ofBytes method u.text r w = .ok (out, w') →
      ∀ v : Uri, v.Valid → v.text = out →
      (cs.filterMap Call.own? = [] →
        Message.accepted (rsaCheck Sha1.hash key.verify) ⟨method, v, none, none⟩ = true) ∧
      ∀ form w1 w2, (Free.toForm r).run w1 = .ok (form, w2) →
        Message.accepted (rsaCheck Sha1.hash key.verify) ⟨method, v, none, some form⟩ = true) := by
  obtain ⟨e, a1, a2⟩ := C61_alone_rsa (w' := w') (out := out) hkey hk hb hr hstd hcs hu hv hn
  obtain ⟨o1, o2⟩ := other_way (w' := w') (out := out) (check := rsaCheck Sha1.hash key.verify)
    (builder_signs_rsa hk hb) hr hstd hcs hu (fun m => (rsaCheck_text hkey hk m m).mpr rfl) hv hn
  exact ⟨fun uri huri htext h => ⟨fun ho => (a1 uri huri htext h).mpr (by rw [e.mpr ho]),
      o1 uri huri htext h⟩,
    fun h v hv' ht => ⟨fun ho => (a2 h v hv' ht).mpr (by rw [e.mpr ho]), o2 h v hv' ht⟩⟩

example (out : Bytes) (w' : World) := C61_partial_rsa (out := out) (w' := w') exampleKey_valid (by decide) (cfg := Case.cfg) (w := Case.world)
  (b := Case.builder (rsaRef Sha1.hash pkcs1Ops exampleKey)) (.inr rfl) Case.trace Case.standard
  (weave_ok Case.ok) (Case.understandable _ _ b!"POST" (by decide)) Case.parsedUri_valid
  Case.parsedUri_normal

/-- The URI of the examples. -/
def wireUri : Uri := { scheme := b!"http", host := b!"a", path := b!"/" }

theorem wireUri_ok : wireUri.Valid ∧ wireUri.Normal ∧ wireUri.text = b!"http://a/" :=
  ⟨⟨by decide, fun x hx => (by cases hx), .inl (by decide), fun p hp => (by cases hp), by decide,
      by decide, fun x hx => (by cases hx)⟩,
    ⟨by decide, by decide, by decide, fun p hp => (by cases hp), by decide, rfl, rfl⟩, by decide⟩

/-- C61 is false: the body made for `status=hi` is not accepted. -/
theorem C61_violated : ¬ C61_claim := by
  intro h
  let cfg : Cfg := ⟨true, true, .std⟩
  let b : Builder Hmac := ⟨hmacSha1, .new b!"k" b!"s", none, .new⟩
  let pairs : List Pair := [(b!"status", .ofBytes b!"hi")]
  have hok : AllOk pairs := by simp [pairs, AllOk, Display.ofBytes]
  have hbuilt : Built pairs pairs := .fromSorted (by decide +kernel)
  have hplain : Plain pairs b!"POST" :=
    ⟨by decide, fun x hx p => by
      have : x.1 = b!"status" := (by decide : ∀ x ∈ pairs, x.1 = b!"status") x hx
      rw [this]; cases p <;> decide, by decide, by decide, by decide⟩
  obtain ⟨hf, -⟩ := (C16_parameter_list_never_panics cfg hbuilt hok b.client none
    .new b!"POST" (.inl (by decide)) World.example (⟨fun _ _ => some []⟩ : RsaOps Unit) ()
    (fun _ => rfl)).1
  obtain ⟨-, ⟨⟨out, w'⟩, hres⟩⟩ := hf (.ofBytes b!"http://a/") rfl (by decide)
  have h1 := (h cfg b rfl pairs pairs hbuilt hok
    (encodingKeepsOrder_of_unreserved (by decide)) b!"POST" hplain wireUri wireUri_ok.1 wireUri_ok.2.1
    World.example w' out).1 (.ofBytes b!"http://a/") rfl (by decide) hres
  have h2 : (b.toForm cfg b!"POST" (.ofBytes b!"http://a/") (ParameterList.request cfg pairs)
      World.example).toOption.map (fun r => Message.accepted
        (hmacCheck Sha1.hash b.client.secret (b.token.map (·.secret))) ⟨b!"POST", wireUri, none, some r.1⟩) =
      some false := by decide +kernel
  rw [hres] at h2
  simp only [Except.toOption, Option.map_some, h1] at h2
  cases h2

/-! ### Concrete messages -/

/-- The request of these examples is understandable (see `rfcPairs` for `Plain` and the order). -/
def wireRun (s : Builder Hmac → M Bytes) (message : Bytes → Message) : Option Bool :=
  let b := exampleBuilder hmacSha1
  (s b World.example).toOption.map fun r => Message.accepted
    (hmacCheck Sha1.hash b.client.secret (b.token.map (·.secret))) (message r.1)

/-- C60: form and query. A server that reads the same form with one character changed does not accept it. -/
example :
    (Free.toForm (ParameterList.request ⟨true, true, .std⟩ rfcPairs) World.example).toOption.map (·.1) =
      some b!"a=%202&a=%25&a=z&q=%22%C3%A4" ∧
    wireRun (fun b => b.authorize ⟨true, true, .std⟩ b!"POST" (.ofBytes b!"http://a/")
        (ParameterList.request ⟨true, true, .std⟩ rfcPairs))
      (fun h => ⟨b!"POST", wireUri, some h, some b!"a=%202&a=%25&a=z&q=%22%C3%A4"⟩) = some true ∧
    wireRun (fun b => b.authorize ⟨true, true, .std⟩ b!"POST" (.ofBytes b!"http://a/")
        (ParameterList.request ⟨true, true, .std⟩ rfcPairs))
      (fun h => ⟨b!"POST", wireUri, some h, some b!"a=+2&a=%&&q=%22%c3%a4&a=z"⟩) = some true ∧
    wireRun (fun b => b.authorize ⟨true, true, .std⟩ b!"POST" (.ofBytes b!"http://a/")
        (ParameterList.request ⟨true, true, .std⟩ rfcPairs))
      (fun h => ⟨b!"POST", wireUri, some h, some b!"a=%2B2&a=%25&a=z&q=%22%C3%A4"⟩) = some false ∧
    wireRun (fun b => b.authorize ⟨true, true, .std⟩ b!"GET" (.ofBytes b!"http://a/")
        (ParameterList.request ⟨true, true, .std⟩ rfcPairs))
      (fun h => ⟨b!"GET", { wireUri with query := some b!"a=%202&a=%25&a=z&q=%22%C3%A4" }, some h, none⟩) =
      some true := by
  decide +kernel

/-- C61: the signed form alone, and with the request's own pairs in the query. -/
example :
    wireRun (fun b => b.toForm ⟨true, true, .std⟩ b!"POST" (.ofBytes b!"http://a/")
        (ParameterList.request ⟨true, true, .std⟩ rfcPairs))
      (fun f => ⟨b!"POST", wireUri, none, some f⟩) = some false ∧
    wireRun (fun b => b.toForm ⟨true, true, .std⟩ b!"POST" (.ofBytes b!"http://a/")
        (ParameterList.request ⟨true, true, .std⟩ rfcPairs))
      (fun f => ⟨b!"POST", { wireUri with query := some b!"a=%202&a=%25&a=z&q=%22%C3%A4" }, none, some f⟩) =
      some true := by
  decide +kernel

end OAuth
