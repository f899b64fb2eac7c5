import Verif.Properties.Wire

/-
C62: no protocol parameter more than once in a request.
-/

namespace OAuth

open Spec Derive

variable {S : Type}

/-- The names of the parameters in the header. -/
theorem params_names (cfg : Cfg) (b : Builder S) (name : Bytes) (w : World) (sig : Bytes) :
    ((b.params cfg name w ++ [(b!"oauth_signature", sig)]).map (·.1)).Nodup ∧
      ∀ n ∈ (b.params cfg name w ++ [(b!"oauth_signature", sig)]).map (·.1), n ∈ protocolNames := by
  have hsub : ∀ l : List Proto, ((l.filterMap fun p => ((b.env name true true).value w.nonce (w.time cfg) p).map
      fun v => (p.name, v)).map (·.1)).Sublist (l.map Proto.name) := by
    intro l
    induction l with
    | nil => exact .refl _
    | cons p l ih =>
      rw [List.filterMap_cons]
      cases (b.env name true true).value w.nonce (w.time cfg) p with
      | none => exact ih.cons _
      | some v => exact ih.cons_cons _
  have hsub := hsub allProto
  have hp : (b.params cfg name w).map (·.1) = (allProto.filterMap fun p =>
      ((b.env name true true).value w.nonce (w.time cfg) p).map fun v => (p.name, v)).map (·.1) := rfl
  rw [List.map_append, hp]
  have hall : (allProto.map Proto.name).Nodup ∧ (∀ n ∈ allProto.map Proto.name, n ∈ protocolNames) ∧
      b!"oauth_signature" ∉ allProto.map Proto.name := by decide +kernel
  refine ⟨?_, ?_⟩
  · rw [List.nodup_append]
    refine ⟨hall.1.sublist hsub, by simp, ?_⟩
    intro a ha c hc e
    simp only [List.map_cons, List.map_nil, List.mem_singleton] at hc
    subst hc
    subst e
    exact hall.2.2 (hsub.subset ha)
  · intro n hn
    rcases List.mem_append.mp hn with hn | hn
    · exact hall.2.1 n (hsub.subset hn)
    · simp only [List.map_cons, List.map_nil, List.mem_singleton] at hn
      subst hn
      decide +kernel

/-- Names that occur once each, all of them protocol parameters, followed by others. -/
theorem once_iff {hdr own : List Bytes} (h1 : hdr.Nodup) (h2 : ∀ n ∈ hdr, n ∈ protocolNames) :
    (protocolNames.all fun n => (hdr ++ own).count n ≤ 1) = true ↔
      (∀ n ∈ own, n ∉ hdr) ∧ ∀ n ∈ protocolNames, own.count n ≤ 1 := by
  simp only [List.all_eq_true, decide_eq_true_eq, List.count_append]
  constructor
  · intro h
    refine ⟨fun n hn hh => ?_, fun n hn => ?_⟩
    · have := h n (h2 n hh)
      have := List.count_pos_iff.mpr hn
      have := List.count_pos_iff.mpr hh
      omega
    · have := h n hn
      omega
  · rintro ⟨h3, h4⟩ n hn
    have := h4 n hn
    have := List.nodup_iff_count.mp h1 n
    by_cases hh : n ∈ hdr
    · have : own.count n = 0 := List.count_eq_zero.mpr (fun hm => h3 n hm hh)
      omega
    · have : hdr.count n = 0 := List.count_eq_zero.mpr hh
      omega

/-- C62, exactly: of the messages made of the header of `authorize` and the plain form or query, those
contain no protocol parameter more than once in which no parameter of the request is named like one in
the header or twice like another one. For every method whose signature is `f` of the base string,
percent-encoded. -/
theorem C62_iff {cfg : Cfg} {b : Builder S} {name : Bytes} {f : Bytes → Bytes}
    (hs : b.Signs name true true (fun m => encode (f m)))
    {r : Request} {cs : List Call} (hr : IsTrace r cs) (hstd : Standard cs) (hcs : ∀ c ∈ cs, c.ok)
    (hcan : ∀ c ∈ cs, c.canonical) {method : Bytes} {w w' : World} {u : Uri} (hv : u.Valid)
    (hq : u.query = none) (hf : u.fragment = none) {uri : Display} (huri : uri.outcome = .ok)
    {out : Bytes} (h : b.authorize cfg method uri r w = .ok (out, w')) {w1 w2 : World} :
    let own := (cs.filterMap Call.own?).map (·.1)
    let fine := (∀ n ∈ own, n ≠ b!"oauth_signature" ∧ ∀ v, (n, v) ∉ b.params cfg name w) ∧
      ∀ n ∈ protocolNames, own.count n ≤ 1
    (∀ form, (Free.toForm r).run w1 = .ok (form, w2) →
      (Message.protocolOnce ⟨method, u, some out, some form⟩ = true ↔ fine)) ∧
    (∀ target v, (Free.toQuery u.text r).run w1 = .ok (target, w2) → v.Valid → v.text = target →
      (Message.protocolOnce ⟨method, v, some out, none⟩ = true ↔ fine)) := by
  intro own fine
  have h2 := (parse_output cfg b name w (f (b.base cfg name method uri cs w))).1
  rw [← (signs_output hs hr hstd hcs method w w' out).1 uri huri h] at h2
  generalize f (b.base cfg name method uri cs w) = b64 at h2
  obtain ⟨n1, n2⟩ := params_names cfg b name w b64
  have hfine : ((∀ n ∈ own, n ∉ (b.params cfg name w ++ [(b!"oauth_signature", b64)]).map (·.1)) ∧
      ∀ n ∈ protocolNames, own.count n ≤ 1) ↔ fine := by
    have : ∀ n, n ∉ (b.params cfg name w ++ [(b!"oauth_signature", b64)]).map (·.1) ↔
        n ≠ b!"oauth_signature" ∧ ∀ v, (n, v) ∉ b.params cfg name w := by
      intro n
      simp only [List.map_append, List.map_cons, List.map_nil, List.mem_append, List.mem_map,
        List.mem_singleton, not_or, not_exists, not_and]
      exact ⟨fun h => ⟨h.2, fun v hv => h.1 (n, v) hv rfl⟩,
        fun h => ⟨fun x hx e => h.2 x.2 (by rw [← e]; exact hx), h.1⟩⟩
    simp only [fine, this]
  have key : ∀ m : Message, m.authorization = some out →
      urlencoded (m.uri.query.getD []) ++ urlencoded (m.body.getD []) = cs.filterMap Call.own? →
      (m.protocolOnce = true ↔ fine) := by
    intro m ha hm
    have hp := params_of_header cfg b name w ha h2
    rw [hm] at hp
    unfold Message.protocolOnce
    rw [hp]
    rw [← hfine, ← once_iff n1 n2]
    simp only [List.map_append, own]
  constructor
  · intro form hform
    obtain ⟨h3, -⟩ := plain_form_read hr hcs hcan hform
    refine key _ rfl ?_
    simp only [hq, Option.getD_some, h3]
    rfl
  · intro target v hquery hv' ht
    obtain ⟨h3, -⟩ := plain_query_read hr hcs hcan hv hq hf hquery hv' ht
    refine key _ rfl ?_
    change urlencoded (v.query.getD []) ++ urlencoded ((none : Option Bytes).getD []) = _
    rw [h3]
    simp [urlencoded, splitAll]

/-- The shared case: `a` and `p` are no protocol parameters. -/
example : ∃ out w', (Case.builder hmacSha1).authorize Case.cfg b!"GET" (.ofBytes Case.uri) Case.request
      Case.world = .ok (out, w') ∧
    Message.protocolOnce ⟨b!"GET", Case.parsedUri, some out, some b!"a=1%20%C3%A9&p=%26%3D%2B&p=~%25"⟩ =
      true := by
  obtain ⟨out, w', h⟩ := Case.header
  obtain ⟨_, hf⟩ := Case.ok_of_eq (x := (Free.toForm Case.request).run Case.world)
    (a := b!"a=1%20%C3%A9&p=%26%3D%2B&p=~%25") (by decide +kernel)
  refine ⟨out, w', h, ((C62_iff (builder_signs_hmac (b := Case.builder hmacSha1) rfl) Case.trace
    Case.standard (weave_ok Case.ok) (Case.understandable
      ((Case.builder hmacSha1).env b!"HMAC-SHA1" true true) Case.world b!"GET" (by decide)).canonical
    Case.parsedUri_valid rfl rfl rfl h).1 _ hf).mpr ?_⟩
  have hn : ∀ n ∈ (Case.calls.filterMap Call.own?).map (·.1), n ∉ protocolNames := by decide +kernel
  refine ⟨fun n hn' => ⟨fun e => hn n hn' (by rw [e]; decide +kernel), fun v hv => hn n hn' ?_⟩,
    by decide +kernel⟩
  exact (params_names Case.cfg (Case.builder hmacSha1) b!"HMAC-SHA1" Case.world []).2 n
    (List.mem_map.mpr ⟨(n, v), by simp [hv], rfl⟩)

/-- C62, the claim: what is sent contains no protocol parameter more than once. -/
def C62_claim : Prop :=
  ∀ (cfg : Cfg) (b : Builder Hmac), b.signatureMethod = hmacSha1 →
  ∀ (supplied current : List Pair), Built supplied current → AllOk supplied →
    (∀ x ∈ supplied, ∀ b ∈ x.1, unreserved b = true) →
  ∀ (method : Bytes) (u : Uri), u.Valid → u.Normal →
  ∀ (w w' : World) (out form : Bytes),
    b.authorize cfg method (.ofBytes u.text) (ParameterList.request cfg current) w = .ok (out, w') →
    (Free.toForm (ParameterList.request cfg current)).run w = .ok (form, w) →
    Message.protocolOnce ⟨method, u, some out, some form⟩ = true

/-- C62, where it holds: if no parameter of the request is named like a protocol parameter; and for the
output of `Builder::to_form` and `Builder::to_query`, whatever the request, because that contains nothing
else. What is missing: nothing rejects a parameter named like a protocol parameter. -/
theorem C62_partial {cfg : Cfg} {b : Builder S} {name : Bytes} {f : Bytes → Bytes}
    (hs : b.Signs name true true (fun m => encode (f m)))
    {r : Request} {cs : List Call} (hr : IsTrace r cs) (hstd : Standard cs) (hcs : ∀ c ∈ cs, c.ok)
    {method : Bytes} {w w' : World} {u : Uri} (hv : u.Valid) (hq : u.query = none)
    (hf : u.fragment = none) :
    (∀ (uri : Display) (out : Bytes), uri.outcome = .ok → (∀ c ∈ cs, c.canonical) →
      (∀ c ∈ cs, c.isRequest = true → c.key ∉ protocolNames) →
      b.authorize cfg method uri r w = .ok (out, w') →
      (∀ form w1 w2, (Free.toForm r).run w1 = .ok (form, w2) →
        Message.protocolOnce ⟨method, u, some out, some form⟩ = true) ∧
      (∀ target v w1 w2, (Free.toQuery u.text r).run w1 = .ok (target, w2) → v.Valid →
        v.text = target → Message.protocolOnce ⟨method, v, some out, none⟩ = true)) ∧
    (∀ (uri : Display) (out : Bytes), uri.outcome = .ok → b.toForm cfg method uri r w = .ok (out, w') →
      Message.protocolOnce ⟨method, u, none, some out⟩ = true) ∧
    (∀ out : Bytes, b.toQuery cfg stringWriter .ofBytes method u.text r w = .ok (out, w') →
      ∀ v : Uri, v.Valid → v.text = out → Message.protocolOnce ⟨method, v, none, none⟩ = true) := by
  refine ⟨?_, ?_⟩
  · intro uri out huri hcan hkeys h
    have hown : ∀ n ∈ (cs.filterMap Call.own?).map (·.1), n ∉ protocolNames := by
      intro n hn
      obtain ⟨p, hp, rfl⟩ := List.mem_map.mp hn
      obtain ⟨c, hc, hcp⟩ := List.mem_filterMap.mp hp
      obtain ⟨h1, h2⟩ := own_key hcp
      rw [h1]
      exact hkeys c hc h2
    have fine : (∀ n ∈ (cs.filterMap Call.own?).map (·.1), n ≠ b!"oauth_signature" ∧
        ∀ v, (n, v) ∉ b.params cfg name w) ∧
        ∀ n ∈ protocolNames, ((cs.filterMap Call.own?).map (·.1)).count n ≤ 1 := by
      refine ⟨fun n hn => ⟨fun e => ?_, fun v hv => ?_⟩, fun n hn => ?_⟩
      · subst e
        exact hown _ hn (by decide +kernel)
      · exact hown _ hn ((params_names cfg b name w []).2 n
          (List.mem_map.mpr ⟨(n, v), by simp [hv], rfl⟩))
      · rw [List.count_eq_zero.mpr (fun hm => hown n hm hn)]
        exact Nat.zero_le _
    refine ⟨fun form w1 w2 hform => ?_, fun target v w1 w2 hquery hv' ht => ?_⟩
    · exact ((C62_iff hs hr hstd hcs hcan hv hq hf huri h).1 form hform).mpr fine
    · exact ((C62_iff hs hr hstd hcs hcan hv hq hf huri h).2 target v hquery hv' ht).mpr fine
  · have key : ∀ (m : Message) (d : Bytes), m.authorization = none →
        urlencoded (m.uri.query.getD []) ++ urlencoded (m.body.getD []) =
          b.params cfg name w ++ [(b!"oauth_signature", d)] → m.protocolOnce = true := by
      intro m d ha hm
      obtain ⟨n1, n2⟩ := params_names cfg b name w d
      unfold Message.protocolOnce Message.params
      rw [ha]
      simp only [hm]
      have := (once_iff (own := []) n1 n2).mpr ⟨by simp, by simp⟩
      rwa [List.append_nil] at this
    refine ⟨fun uri out huri h => ?_, fun out h v hv' ht => ?_⟩
    · obtain ⟨-, h2, -⟩ := signs_output hs hr hstd hcs method w w' out
      obtain ⟨h4, -⟩ := signed_form_read cfg b name w (f (b.base cfg name method uri cs w))
      rw [← h2 uri huri h] at h4
      refine key _ _ rfl (Eq.trans ?_ h4)
      simp [hq, urlencoded, splitAll]
    · obtain ⟨-, -, h3⟩ := signs_output hs hr hstd hcs method w w' out
      obtain ⟨h4, h5⟩ := signed_form_read cfg b name w (f (b.base cfg name method (.ofBytes u.text) cs w))
      have hv2 := text_with_query hv hq hf hv' h5 (ht.trans (h3 _ h))
      refine key _ _ rfl (Eq.trans ?_ h4)
      rw [hv2]
      simp [urlencoded, splitAll]

/-- The signed form and the signed URI of the shared case. -/
example (w' : World) := (C62_partial (cfg := Case.cfg) (method := b!"POST") (w := Case.world) (w' := w')
  (builder_signs_hmac (b := Case.builder hmacSha1) rfl) Case.trace Case.standard (weave_ok Case.ok)
  Case.parsedUri_valid rfl rfl).2

/-- C62: the methods that the two theorems are about. -/
theorem C62_methods :
    (∀ b : Builder Hmac, b.signatureMethod = hmacSha1 →
      ∃ f : Bytes → Bytes, b.Signs b!"HMAC-SHA1" true true (fun m => encode (f m))) ∧
    (∀ (key : RsaKey), 46 ≤ key.k → ∀ b : Builder (RsaSign RsaKey),
      b.signatureMethod = rsaOwned Sha1.hash pkcs1Ops key ∨
        b.signatureMethod = rsaRef Sha1.hash pkcs1Ops key →
      ∃ f : Bytes → Bytes, b.Signs b!"RSA-SHA1" true true (fun m => encode (f m))) :=
  ⟨fun _ hb => ⟨_, builder_signs_hmac hb⟩, fun _ hk _ hb => ⟨_, builder_signs_rsa hk hb⟩⟩

example := C62_methods.2 exampleKey (by decide) (Case.builder (rsaRef Sha1.hash pkcs1Ops exampleKey)) (.inr rfl)

/-- C62 for structs with `#[derive(Request)]`, exactly: the message contains no protocol parameter more
than once if no field that is sent is named like a parameter of the header. The macro rejects two fields
with the same name, so there is no other case. -/
theorem C62_derived {τ : Type} {cfg : Cfg} {Y : Syn τ} (hY : Lawful Y)
    {lookup : CrateLookup} {isIdent : Bytes → Bool} {attrs : List (Attribute τ)}
    {fs : List (SynField τ)} {i : Import} {body : List Stmt}
    (hx : expand cfg Y lookup isIdent ⟨attrs, some fs⟩ = .ok (.impl i body))
    {V : Type} {sc : Scope V} {self : Bytes → V}
    (hident : ∀ f ∈ fs, ∀ n, NameOf f.ident n → ∀ b ∈ n, unreserved b = true)
    (hsent : ∀ f ∈ fs, ∀ g, Describes Y f g → ∀ c, SentAs sc g (self g.ident) c → c.ok)
    (henc : ∀ f ∈ fs, ∀ g, Describes Y f g → ∀ k v,
      SentAs sc g (self g.ident) (.parameterEncoded k v) → ∃ d, v.text = encode d)
    {b : Builder S} {name : Bytes} {f : Bytes → Bytes}
    (hs : b.Signs name true true (fun m => encode (f m)))
    {method : Bytes} {w w' : World} {u : Uri} (hv : u.Valid)
    (hq : u.query = none) (hf : u.fragment = none) {uri : Display} (huri : uri.outcome = .ok)
    {out : Bytes} (h : b.authorize cfg method uri (Derive.request sc self body) w = .ok (out, w'))
    {w1 w2 : World} :
    let fine := ∀ f ∈ fs, ∀ g, Describes Y f g → (∃ c, SentAs sc g (self g.ident) c) →
      parameterName g ≠ b!"oauth_signature" ∧ ∀ v, (parameterName g, v) ∉ b.params cfg name w
    (∀ form, (Free.toForm (Derive.request sc self body)).run w1 = .ok (form, w2) →
      (Message.protocolOnce ⟨method, u, some out, some form⟩ = true ↔ fine)) ∧
    (∀ target v, (Free.toQuery u.text (Derive.request sc self body)).run w1 = .ok (target, w2) →
      v.Valid → v.text = target →
      (Message.protocolOnce ⟨method, v, some out, none⟩ = true ↔ fine)) := by
  intro fine
  obtain ⟨cs, htr, -, h1, -, h2⟩ := C22_fields cfg hY lookup isIdent attrs fs i body hx sc self
  obtain ⟨cs', -, htr', -, hstd, -, -⟩ :=
    C21_as_assert_sorted cfg hY lookup isIdent attrs fs i body hx sc self
  obtain rfl := isTrace_unique htr htr'
  obtain ⟨hn, hkeys⟩ := (C23_partial cfg hY lookup isIdent attrs fs hident).1 i body hx V sc self cs htr
  have hcs : ∀ c ∈ cs, c.ok := by
    intro c hc
    cases hreq : c.isRequest with
    | false =>
      cases c with
      | oauth p => intro v hv; cases hv
      | _ => cases hreq
    | true =>
      obtain ⟨f, hf', g, hg, hs⟩ := h2 c hc hreq
      exact hsent f hf' g hg c hs
  have hcan : ∀ c ∈ cs, c.canonical := by
    intro c hc
    cases c with
    | oauth p => trivial
    | parameter k v => exact hkeys _ hc rfl
    | parameterEncoded k v =>
      obtain ⟨f, hf', g, hg, hs⟩ := h2 _ hc rfl
      exact ⟨hkeys _ hc rfl, henc f hf' g hg k v hs⟩
  have hown : ∀ l : List Call, (∀ c ∈ l, c.canonical) →
      (l.filterMap Call.own?).map (·.1) = (l.filter Call.isRequest).map Call.key := by
    intro l hl
    induction l with
    | nil => rfl
    | cons c l ih =>
      have ih := ih (fun c hc => hl c (by simp [hc]))
      have hc := hl c (by simp)
      cases c with
      | oauth p => simpa [List.filterMap_cons, Call.own?, Call.isRequest] using ih
      | parameter k v =>
        rw [List.filter_cons_of_pos (by rfl), List.filterMap_cons_some (by rfl), List.map_cons,
          List.map_cons, ih]
        rfl
      | parameterEncoded k v =>
        obtain ⟨-, d, hd⟩ := hc
        have e : Call.own? (.parameterEncoded k v) = some (k, d) := by
          simp [Call.own?, hd, decode_encode]
        rw [List.filter_cons_of_pos (by rfl), List.filterMap_cons_some e, List.map_cons,
          List.map_cons, ih]
        rfl
  have hfine : ((∀ n ∈ (cs.filterMap Call.own?).map (·.1), n ≠ b!"oauth_signature" ∧
        ∀ v, (n, v) ∉ b.params cfg name w) ∧
      ∀ n ∈ protocolNames, ((cs.filterMap Call.own?).map (·.1)).count n ≤ 1) ↔ fine := by
    rw [hown cs hcan]
    constructor
    · rintro ⟨h3, -⟩ f hf g hg ⟨c, hc⟩
      have := h1 f hf g hg c hc
      have hmem : c ∈ cs.filter (fun c => c.isRequest && c.key == parameterName g) := by
        rw [this]; simp
      obtain ⟨h4, h5⟩ := List.mem_filter.mp hmem
      simp only [Bool.and_eq_true, beq_iff_eq] at h5
      exact h3 _ (List.mem_map.mpr ⟨c, List.mem_filter.mpr ⟨h4, h5.1⟩, h5.2⟩)
    · intro h3
      refine ⟨fun n hn' => ?_, fun n _ => List.nodup_iff_count.mp hn n⟩
      obtain ⟨c, hc, rfl⟩ := List.mem_map.mp hn'
      obtain ⟨hc, hreq⟩ := List.mem_filter.mp hc
      obtain ⟨f, hf', g, hg, hs⟩ := h2 c hc hreq
      have hk : c.key = parameterName g := by
        obtain ⟨-, u, -, -, rfl⟩ := hs
        split <;> rfl
      rw [hk]
      exact h3 f hf' g hg ⟨c, hs⟩
  obtain ⟨a1, a2⟩ := C62_iff hs htr hstd hcs hcan hv hq hf huri h (w1 := w1) (w2 := w2)
  exact ⟨fun form hform => (a1 form hform).trans hfine,
    fun target v ht hv' e => (a2 target v ht hv' e).trans hfine⟩

/-- The struct `rfcFields`. -/
example {out : Bytes} {w' : World} (h : (Case.builder hmacSha1).authorize Case.cfg b!"POST"
    (.ofBytes Case.uri) (Derive.request exampleScope rfcSelf rfcBody) Case.world = .ok (out, w')) :=
  C62_derived (w1 := Case.world) (w2 := Case.world) tokSyn_lawful rfcFields_expand rfcFields_plain.ident
    rfcFields_plain.ok rfcFields_plain.encoded (builder_signs_hmac (b := Case.builder hmacSha1) rfl)
    Case.parsedUri_valid rfl rfl rfl h

/-- C62 is false: a parameter list may contain `oauth_nonce`. -/
theorem C62_violated : ¬ C62_claim := by
  intro h
  let cfg : Cfg := ⟨true, true, .std⟩
  let b : Builder Hmac := ⟨hmacSha1, .new b!"k" b!"s", none, .new⟩
  let pairs : List Pair := [(b!"oauth_nonce", .ofBytes b!"hi")]
  have hok : AllOk pairs := by simp [pairs, AllOk, Display.ofBytes]
  have hbuilt : Built pairs pairs := .fromSorted (by decide +kernel)
  obtain ⟨hf, -⟩ := (C16_parameter_list_never_panics cfg hbuilt hok b.client none
    .new b!"POST" (.inl (by decide)) World.example (⟨fun _ _ => some []⟩ : RsaOps Unit) ()
    (fun _ => rfl)).1
  obtain ⟨⟨⟨out, w'⟩, hres⟩, -⟩ := hf (.ofBytes b!"http://a/") rfl (by decide)
  have hform := C01_to_form_any_request (isTrace_parameterList cfg pairs) (weave_ok hok) World.example
  have h1 := h cfg b rfl pairs pairs hbuilt hok (by decide) b!"POST" wireUri wireUri_ok.1
    wireUri_ok.2.1 World.example w' out _ hres hform
  have h2 := ((C62_iff (b := b) (builder_signs_hmac rfl) (isTrace_parameterList cfg pairs) (standard_weave pairs)
    (weave_ok hok) (by
      intro c hc
      rcases weave_no_encoded allProto pairs c hc with ⟨p, rfl⟩ | ⟨kv, hkv, rfl⟩
      · trivial
      · exact (by decide : ∀ kv ∈ pairs, ∀ b ∈ kv.1, unreserved b = true) kv hkv)
    wireUri_ok.1 rfl rfl rfl hres).1 _ hform).mp h1
  have h3 := h2.1 b!"oauth_nonce" (by decide +kernel)
  refine h3.2 World.example.nonce ?_
  decide +kernel

/-- C62 for the struct `rfcFields`, and for one with a field `oauth_nonce`. -/
example :
    ((exampleBuilder hmacSha1).authorize ⟨true, true, .std⟩ b!"POST" (.ofBytes b!"http://a/")
        (Derive.request exampleScope rfcSelf rfcBody) World.example).toOption.map (fun r =>
      ((Free.toForm (Derive.request exampleScope rfcSelf rfcBody)).run World.example).toOption.map
        fun f => Message.protocolOnce ⟨b!"POST", wireUri, some r.1, some f.1⟩) = some (some true) ∧
    (let body := weaveStmts allProto (kept (sortByName
        ([⟨[], b!"oauth_nonce", .other⟩].map (understood tokSyn))))
     (((exampleBuilder hmacSha1).authorize ⟨true, true, .std⟩ b!"POST" (.ofBytes b!"http://a/")
        (Derive.request exampleScope rfcSelf body) World.example).toOption.map fun r =>
      ((Free.toForm (Derive.request exampleScope rfcSelf body)).run World.example).toOption.map
        fun f => Message.protocolOnce ⟨b!"POST", wireUri, some r.1, some f.1⟩) = some (some false)) := by
  decide +kernel

/-- C62: a request with `oauth_callback`, which the header does not contain, and one with `oauth_nonce`. -/
example :
    let b : Builder Hmac := ⟨hmacSha1, .new b!"k" b!"s", none, .new⟩
    (b.authorize ⟨true, true, .std⟩ b!"POST" (.ofBytes b!"http://a/")
        (ParameterList.request ⟨true, true, .std⟩ [(b!"oauth_callback", .ofBytes b!"x")])
        World.example).toOption.map (fun r => Message.protocolOnce
          ⟨b!"POST", wireUri, some r.1, some b!"oauth_callback=x"⟩) = some true ∧
    (b.authorize ⟨true, true, .std⟩ b!"POST" (.ofBytes b!"http://a/")
        (ParameterList.request ⟨true, true, .std⟩ [(b!"oauth_nonce", .ofBytes b!"x")])
        World.example).toOption.map (fun r => Message.protocolOnce
          ⟨b!"POST", wireUri, some r.1, some b!"oauth_nonce=x"⟩) = some false := by
  decide +kernel

end OAuth
