import Verif.Properties.Exact
import Verif.Properties.Wire
import Verif.Spec.Plaintext

/-
C73: whole HTTP requests signed with PLAINTEXT and a server that follows RFC 5849.
-/

namespace OAuth

open Spec

/-- The check that the client `b` expects of the server. -/
abbrev Builder.plaintextCheck {S : Type} (b : Builder S) : Bytes → Bytes → Bool :=
  Spec.plaintextCheck b.client.secret (b.token.map (·.secret))

/-- C73 as one expects it of requests in an `Authorization` header: the message is accepted. -/
def C73_claim : Prop :=
  ∀ (cfg : Cfg) (b : Builder Bytes), b.signatureMethod = plaintext →
  ∀ (pairs : List Pair) (method : Bytes), AllOk pairs → Plain pairs method →
  ∀ u : Uri, u.Valid → u.Normal →
  ∀ (w w1 w2 w' : World) (out form : Bytes),
    b.authorize cfg method (.ofBytes u.text) (ParameterList.request cfg pairs) w = .ok (out, w') →
    (Free.toForm (ParameterList.request cfg pairs)).run w1 = .ok (form, w2) →
    Message.accepted b.plaintextCheck ⟨method, u, some out, some form⟩ = true

/-- C73 for headers, exactly: whatever else is in the message, as long as it has no `oauth_signature` of
its own, it is accepted if and only if both secrets are made of unreserved characters. -/
theorem C73_header_iff {cfg : Cfg} {b : Builder Bytes} (hb : b.signatureMethod = plaintext)
    {r : Request} {cs : List Call} (hr : IsTrace r cs) (hstd : Standard cs) (hcs : ∀ c ∈ cs, c.ok)
    {method : Bytes} {uri : Display} (huri : uri.outcome = .ok) {w w' : World} {out : Bytes}
    (h : b.authorize cfg method uri r w = .ok (out, w')) {m : Message} (hm : m.authorization = some out)
    (hown : ∀ x ∈ urlencoded (m.uri.query.getD []) ++ urlencoded (m.body.getD []),
      x.1 ≠ b!"oauth_signature") :
    m.accepted b.plaintextCheck = true ↔
      (∀ x ∈ b.client.secret, unreserved x = true) ∧
      ∀ t, b.token = some t → ∀ x ∈ t.secret, unreserved x = true := by
  have h1 := (C27_header_partial hb hr hstd hcs method huri h).1
  rw [← C27_header_iff hb hr hstd hcs method huri h, h1,
    accepted_eq _ cfg b b!"PLAINTEXT" w hown (params_of_header cfg b _ w hm h1) (.refl _)]
  simp [plaintextCheck, signingKey]

/-- C73 under the condition it needs: header and plain form, or header and plain query. Missing from
`C73_claim`: secrets with characters that are encoded. -/
theorem C73_partial {cfg : Cfg} {b : Builder Bytes} (hb : b.signatureMethod = plaintext)
    {r : Request} {cs : List Call} (hr : IsTrace r cs) (hstd : Standard cs) (hcs : ∀ c ∈ cs, c.ok)
    (hcan : ∀ c ∈ cs, c.canonical) (hsig : ∀ x ∈ cs.filterMap Call.own?, x.1 ≠ b!"oauth_signature")
    {method : Bytes} {u : Uri} (hu : u.Valid) (hn : u.Normal) {w w1 w2 w' : World} {out : Bytes}
    (h : b.authorize cfg method (.ofBytes u.text) r w = .ok (out, w'))
    (hc : ∀ x ∈ b.client.secret, unreserved x = true)
    (ht : ∀ t, b.token = some t → ∀ x ∈ t.secret, unreserved x = true) :
    (∀ form, (Free.toForm r).run w1 = .ok (form, w2) →
      Message.accepted b.plaintextCheck ⟨method, u, some out, some form⟩ = true) ∧
    (∀ target v, (Free.toQuery u.text r).run w1 = .ok (target, w2) → v.Valid → v.text = target →
      Message.accepted b.plaintextCheck ⟨method, v, some out, none⟩ = true) := by
  refine ⟨fun form hf => ?_, fun target v hq hv ht' => ?_⟩
  · refine (C73_header_iff hb hr hstd hcs rfl h rfl ?_).mpr ⟨hc, ht⟩
    rw [hn.query]
    change ∀ x ∈ urlencoded form, _
    rw [(plain_form_read hr hcs hcan hf).1]
    exact hsig
  · refine (C73_header_iff hb hr hstd hcs rfl h rfl ?_).mpr ⟨hc, ht⟩
    change ∀ x ∈ urlencoded (v.query.getD []) ++ urlencoded [], _
    rw [(plain_query_read hr hcs hcan hu hn.query hn.fragment hq hv ht').1]
    intro x hx
    rcases List.mem_append.mp hx with hx | hx
    · exact hsig x hx
    · simp [urlencoded, splitAll] at hx

theorem mem_splitAll_of_mem {sep : UInt8} {s : Bytes} {b : UInt8} (h : b ∈ s) :
    b = sep ∨ ∃ p ∈ splitAll sep s, b ∈ p := by
  induction s with
  | nil => cases h
  | cons c s ih =>
    by_cases hb : b = sep
    · exact .inl hb
    right
    rw [splitAll]
    split
    · next e =>
      rcases List.mem_cons.mp h with rfl | h
      · exact absurd e hb
      · obtain ⟨p, hp, hbp⟩ := (ih h).resolve_left hb
        exact ⟨p, by simp [hp], hbp⟩
    · rcases List.mem_cons.mp h with rfl | h
      · split
        · exact ⟨[b], by simp, by simp⟩
        · next p ps _ => exact ⟨b :: p, by simp, by simp⟩
      · obtain ⟨p, hp, hbp⟩ := (ih h).resolve_left hb
        split
        · next e => rw [e] at hp; cases hp
        · next q ps e =>
          rw [e] at hp
          rcases List.mem_cons.mp hp with rfl | hp
          · exact ⟨c :: p, by simp, by simp [hbp]⟩
          · exact ⟨p, by simp [hp], hbp⟩

/-- What a server finds in a form with a piece `oauth_signature=` and encoded text. -/
theorem mem_urlencoded {form s : Bytes} (h : b!"oauth_signature=" ++ encode s ∈ splitAll 0x26 form) :
    (b!"oauth_signature", s) ∈ urlencoded form := by
  refine List.mem_map.mpr ⟨_, List.mem_filter.mpr ⟨h, rfl⟩, ?_⟩
  have e : splitFirst 0x3D (b!"oauth_signature=" ++ encode s) = some (b!"oauth_signature", encode s) :=
    splitFirst_append (k := b!"oauth_signature") (by decide) (encode s)
  simp only [e, Option.getD_some]
  rw [plusToSpace_of_not_mem (not_mem_encode _ (by decide)), percentDecode_of_decode (decode_encode s)]
  rfl

/-- A message with the client secret alone as a signature is rejected. -/
theorem rejected_of_mem {m : Message} {cs : Bytes} {ts : Option Bytes}
    (h : (b!"oauth_signature", cs) ∈ urlencoded (m.uri.query.getD []) ++ urlencoded (m.body.getD [])) :
    m.accepted (plaintextCheck cs ts) = false := by
  rw [Bool.eq_false_iff]
  intro hacc
  unfold Message.accepted at hacc
  split at hacc
  · cases hacc
  · next ps hps =>
    have hmem : (b!"oauth_signature", cs) ∈ ps := by
      unfold Message.params at hps
      split at hps
      · cases hps; exact h
      · obtain ⟨q, -, rfl⟩ := Option.map_eq_some_iff.mp hps
        exact List.mem_append.mpr (.inr h)
    split at hacc
    · cases hacc
    · next sig hs =>
      have hin : (b!"oauth_signature", cs) ∈ ps.filter (fun p => p.1 == b!"oauth_signature") :=
        List.mem_filter.mpr ⟨hmem, by simp⟩
      unfold single at hs
      split at hs
      · next p e =>
        rw [e, List.mem_singleton] at hin
        subst hin
        cases hs
        have := congrArg List.length (beq_iff_eq.mp hacc)
        have l := encode_length_le cs
        simp only [List.length_append, List.length_cons] at this
        omega
      · cases hs

/-- C73 for forms: a form signed with PLAINTEXT is rejected, whatever the secrets, the request and the
rest of the message that it is the body of. -/
theorem C73_form_rejected {cfg : Cfg} {b : Builder Bytes} (hb : b.signatureMethod = plaintext)
    {r : Request} {cs : List Call} (hr : IsTrace r cs) (hstd : Standard cs) (hcs : ∀ c ∈ cs, c.ok)
    {method : Bytes} {uri : Display} (huri : uri.outcome = .ok) {w w' : World} {out : Bytes}
    (h : b.toForm cfg method uri r w = .ok (out, w')) {m : Message} (hm : m.body = some out) :
    m.accepted b.plaintextCheck = false := by
  obtain ⟨-, h2⟩ := (C27_form_violated hb hr hstd hcs method).1 uri huri h
  refine rejected_of_mem (List.mem_append.mpr (.inr ?_))
  rw [hm]
  exact mem_urlencoded (by rw [Option.getD_some, h2]; simp)

/-- C73 for queries: a URI signed with PLAINTEXT is rejected, whatever the rest of the message. -/
theorem C73_query_rejected {cfg : Cfg} {b : Builder Bytes} (hb : b.signatureMethod = plaintext)
    {r : Request} {cs : List Call} (hr : IsTrace r cs) (hstd : Standard cs) (hcs : ∀ c ∈ cs, c.ok)
    {method : Bytes} {u : Uri} (hu : u.Valid) (hn : u.Normal) {w w' : World} {out : Bytes}
    (h : b.toQuery cfg stringWriter .ofBytes method u.text r w = .ok (out, w')) {m : Message}
    (hv : m.uri.Valid) (hm : m.uri.text = out) : m.accepted b.plaintextCheck = false := by
  obtain ⟨form, e, -, h2⟩ := (C27_form_violated hb hr hstd hcs method).2 u.text h
  have hch : ∀ x ∈ form, formChar x = true := by
    intro x hx
    have henc : ∀ s : Bytes, x ∈ encode s → formChar x = true := fun s hs => by
      unfold formChar; rw [encode_alphabet _ x hs]; rfl
    rcases mem_splitAll_of_mem (sep := 0x26) hx with rfl | ⟨p, hp, hxp⟩
    · decide
    rw [h2] at hp
    simp only [List.mem_append, List.mem_map, List.mem_cons, List.not_mem_nil, or_false] at hp
    rcases hp with ⟨q, hq, rfl⟩ | rfl | rfl
    · obtain ⟨y, -, hy⟩ := List.mem_filterMap.mp hq
      obtain ⟨v, -, rfl⟩ := Option.map_eq_some_iff.mp hy
      rcases List.mem_append.mp hxp with hxp | hxp
      · rcases List.mem_append.mp hxp with hxp | hxp
        · unfold formChar
          rw [encodedChar_of_unreserved x (proto_name_unreserved y x hxp)]; rfl
        · rw [List.mem_singleton] at hxp; subst hxp; decide
      · exact henc _ hxp
    · rcases List.mem_append.mp hxp with hxp | hxp
      · have : ∀ x ∈ b!"oauth_signature=", formChar x = true := by decide
        exact this x hxp
      · exact henc _ hxp
    · exact henc _ hxp
  refine rejected_of_mem (List.mem_append.mpr (.inl ?_))
  rw [text_with_query hu hn.query hn.fragment hv hch (hm.trans e)]
  exact mem_urlencoded (by rw [Option.getD_some, h2]; simp)

/-- C73 is false for headers: with client secret `%` the server gets `%&` and expects `%25&`. -/
theorem C73_violated : ¬ C73_claim := by
  intro h
  let cfg : Cfg := ⟨true, true, .std⟩
  let b : Builder Bytes := ⟨plaintext, .new b!"k" b!"%", none, .new⟩
  have hok : AllOk [] := by simp [AllOk]
  obtain ⟨hf, -⟩ := (C16_parameter_list_never_panics cfg (Built.new .merge []) hok b.client none
    .new b!"POST" (.inl (by decide)) World.example (⟨fun _ _ => some []⟩ : RsaOps Unit) ()
    (fun _ => rfl)).2.1
  obtain ⟨⟨⟨out, w'⟩, hres⟩, -⟩ := hf (.ofBytes wireUri.text) rfl (by decide)
  rw [show ParameterList.new .merge [] = [] by decide +kernel] at hres
  have hform := C01_to_form_any_request (isTrace_parameterList cfg []) (weave_ok hok) World.example
  have h1 := h cfg b rfl [] b!"POST" hok ⟨by simp, by simp, by simp, by decide, by decide⟩ _
    wireUri_ok.1 wireUri_ok.2.1 World.example _ _ w' out _ hres hform
  have h2 := ((C73_header_iff (b := b) rfl (isTrace_parameterList cfg []) (standard_weave [])
    (weave_ok hok) rfl hres rfl (by
      change ∀ x ∈ urlencoded [] ++ urlencoded (join b!"&" ((weave allProto []).filterMap
        Call.formItem?)), x.1 ≠ b!"oauth_signature"
      decide +kernel)).mp h1).1
  exact absurd h2 (by decide)

/-! ### Concrete messages -/

/-- A client whose secrets are unreserved, and one whose secrets are not. -/
def plaintextBuilder (cs ts : Bytes) : Builder Bytes :=
  ⟨plaintext, .new b!"key" cs, some (.new b!"tok" ts), .new⟩

def plaintextRun (b : Builder Bytes) (s : Builder Bytes → M Bytes) (message : Bytes → Message) :
    Option Bool :=
  (s b World.example).toOption.map fun r => Message.accepted b.plaintextCheck (message r.1)

/-- A header and a plain form; the same with a secret that is encoded; a server that expects another
secret. -/
example :
    plaintextRun (plaintextBuilder b!"abc" b!"d~f") (fun b => b.authorize ⟨true, true, .std⟩ b!"POST"
        (.ofBytes b!"http://a/") (ParameterList.request ⟨true, true, .std⟩ rfcPairs))
      (fun h => ⟨b!"POST", wireUri, some h, some b!"a=%202&a=%25&a=z&q=%22%C3%A4"⟩) = some true ∧
    plaintextRun (plaintextBuilder b!"abc" b!"d/f") (fun b => b.authorize ⟨true, true, .std⟩ b!"POST"
        (.ofBytes b!"http://a/") (ParameterList.request ⟨true, true, .std⟩ rfcPairs))
      (fun h => ⟨b!"POST", wireUri, some h, some b!"a=%202&a=%25&a=z&q=%22%C3%A4"⟩) = some false := by
  decide +kernel

/-- A form and a query. A server that is sent the `&` encoded accepts. -/
example :
    plaintextRun (plaintextBuilder b!"abc" b!"d~f") (fun b => b.toForm ⟨true, true, .std⟩ b!"POST"
        (.ofBytes b!"http://a/") (ParameterList.request ⟨true, true, .std⟩ rfcPairs))
      (fun f => ⟨b!"POST", wireUri, none, some f⟩) = some false ∧
    Message.accepted (plaintextBuilder b!"abc" b!"d~f").plaintextCheck
      ⟨b!"POST", wireUri, none, some b!"oauth_signature=abc%26d~f"⟩ = true ∧
    plaintextRun (plaintextBuilder b!"abc" b!"d~f") (fun b => b.toQuery ⟨true, true, .std⟩ stringWriter
        .ofBytes b!"GET" b!"http://a/" (ParameterList.request ⟨true, true, .std⟩ rfcPairs))
      (fun t => ⟨b!"GET", { wireUri with query := some (t.drop 10) }, none, none⟩) = some false := by
  decide +kernel

/-- The theorems, of these runs. -/
example {w w' : World} {out : Bytes} {m : Message}
    (h : (plaintextBuilder b!"abc" b!"d~f").toForm ⟨true, true, .std⟩ b!"POST" (.ofBytes b!"http://a/")
      (ParameterList.request ⟨true, true, .std⟩ rfcPairs) w = .ok (out, w')) (hm : m.body = some out) :
    m.accepted (plaintextBuilder b!"abc" b!"d~f").plaintextCheck = false :=
  C73_form_rejected rfl (isTrace_parameterList _ _) (standard_weave _)
    (weave_ok (by unfold AllOk; decide)) rfl h hm
example {w w' : World} {out : Bytes} {m : Message}
    (h : (plaintextBuilder b!"abc" b!"d~f").toQuery ⟨true, true, .std⟩ stringWriter .ofBytes b!"GET"
      wireUri.text (ParameterList.request ⟨true, true, .std⟩ rfcPairs) w = .ok (out, w'))
    (hv : m.uri.Valid) (hm : m.uri.text = out) :
    m.accepted (plaintextBuilder b!"abc" b!"d~f").plaintextCheck = false :=
  C73_query_rejected rfl (isTrace_parameterList _ _) (standard_weave _)
    (weave_ok (by unfold AllOk; decide)) wireUri_ok.1 wireUri_ok.2.1 h hv hm
example {w w1 w2 w' : World} {out form : Bytes}
    (h : (plaintextBuilder b!"abc" b!"d~f").authorize ⟨true, true, .std⟩ b!"POST" (.ofBytes wireUri.text)
      Case.request w = .ok (out, w')) (hf : (Free.toForm Case.request).run w1 = .ok (form, w2)) :
    Message.accepted (plaintextBuilder b!"abc" b!"d~f").plaintextCheck
      ⟨b!"POST", wireUri, some out, some form⟩ = true :=
  (C73_partial rfl Case.trace Case.standard (weave_ok Case.ok)
    (Case.understandable ⟨b!"k", none, .new, b!"PLAINTEXT", true, true⟩ w b!"POST" (by simp)).canonical
    (by decide +kernel)
    wireUri_ok.1 wireUri_ok.2.1 h (by decide)
    (fun t ht => by cases ht; decide)).1 form hf

end OAuth
