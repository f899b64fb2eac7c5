import Verif.Proofs.Client
import Verif.Properties.Panics
import Verif.Properties.Serde
import Verif.Properties.ServerAccepts

/-
C43 and C49: the example client and the example server together.
-/

namespace OAuth

open Spec
open Server (Lib HttpRequest Response OAuthParams Parameter Received)

/-- Client and server on one machine: the server reads the clock after the client. -/
def serve (L : Lib) (scfg : Cfg) : Client.Http := fun req => do
  let t ← readClock
  (Server.service L scfg (if 0 ≤ t then some (t / 1000000000).toNat else none) req : Except Panic Response)

/-- The world after a request was signed and answered. -/
def World.answered (w : World) : World := { w with rngPos := w.rngPos + 9, clockPos := w.clockPos + 2 }

/-- A request signed in a world arrives in time: neither clock reading is before the epoch (the client
could take that), it takes at most 30 seconds, and the year is at most 584 554 049 253. If the parser
library refuses empty quoted strings, not all of nine random bytes are zero. -/
structure InTime (L : Lib) (cfg : Cfg) (w : World) : Prop where
  clock : cfg.clock ≠ .none
  server : 0 ≤ w.clock (w.clockPos + 1)
  delay : (w.clock (w.clockPos + 1) / 1000000000).toNat ≤ w.time cfg + 30
  small : w.time cfg + 30 < 2 ^ 64
  nonce : L.emptyOk = true ∨ w.nonce ≠ []

/-- The example's own builders: no nonce, timestamp or version is set. -/
structure Ordinary (b : Builder Hmac) : Prop where
  method : b.signatureMethod = hmacSha1
  nonce : b.options.nonce = none
  timestamp : b.options.timestamp = none
  version : b.options.version = false

theorem authorize_ordinary {cfg : Cfg} (hc : cfg.clock ≠ .none) {b : Builder Hmac} (hb : Ordinary b)
    {current : List Pair} (hok : AllOk current)
    (ha : Ascending (shown Display.text current)) {r : Request}
    (hr : IsTrace r (weave allProto current)) (method : Bytes) {uri : Display} (huri : uri.outcome = .ok)
    (hq : (0x3F : UInt8) ∉ uri.text) (w : World) :
    ∃ out, b.authorize cfg method uri r w = .ok (out, w.step) ∧ out.all Client.headerByte = true := by
  have hs : b.Signs b!"HMAC-SHA1" true true (fun m => encode (base64Standard
      (hmac Sha1.hash (signingKey b.client.secret (b.token.map (·.secret))) m))) := by
    rw [Builder.Signs, hb.method]
    exact signs_hmac _ (fun m => by rw [sha1_length]; decide) _ _
  have hruns := runs_of (cfg := cfg) (e := b.env b!"HMAC-SHA1" true true) (uri := uri) hq huri (.inl hc)
    (weave_keys_sorted ha) w
  have h := authorize_signs hs hr (weave_ok hok) method huri hruns
  rw [Client.foldl_advance_standard rfl rfl hb.nonce hb.timestamp (standard_weave current),
    standard_sent cfg _ w (standard_weave current)] at h
  exact ⟨_, h, Client.headerText_bytes _ fun p hp => (params_spec cfg b w p hp).2⟩

theorem ordinary_params {b : Builder Hmac} (hb : Ordinary b) (cfg : Cfg) (w : World) :
    b.params cfg b!"HMAC-SHA1" w =
      (b.options.callback.map fun v => (b!"oauth_callback", v)).toList ++
      [(b!"oauth_consumer_key", b.client.identifier), (b!"oauth_nonce", w.nonce),
        (b!"oauth_signature_method", b!"HMAC-SHA1"), (b!"oauth_timestamp", decimal (w.time cfg))] ++
      (b.token.map fun t => (b!"oauth_token", t.identifier)).toList ++
      (b.options.verifier.map fun v => (b!"oauth_verifier", v)).toList := by
  rw [Builder.params, C09_protocol_params]
  simp only [Builder.env, if_true, hb.nonce, hb.timestamp, hb.version, Bool.false_eq_true, if_false,
    Option.getD_none, Option.map_none, List.append_nil, Option.map_map, Function.comp_def,
    List.append_assoc, List.cons_append, List.nil_append]

theorem decimal_ne_nil (n : Nat) : decimal n ≠ [] := by
  intro h
  have := readDecimal_decimal n
  rw [h] at this
  cases this

theorem base64UrlNoPad_ascii (d : Bytes) : ∀ x ∈ base64UrlNoPad d, x.toNat < 0x80 := by
  intro x hx
  have h64 : ∀ n : Fin 64, (base64Symbol true n.val).toNat < 0x80 := by decide +kernel
  simp only [base64UrlNoPad, base64Encode_eq, List.mem_append, List.mem_map, Bool.false_eq_true,
    if_false, List.not_mem_nil, or_false] at hx
  obtain ⟨n, hn, rfl⟩ := hx
  exact h64 ⟨n, base64Sixes_lt d n hn⟩

theorem agreed_ordinary {L : Lib} {cfg : Cfg} {w : World} (ht : InTime L cfg w) {b : Builder Hmac}
    (hb : Ordinary b) (hclient : b.client = Server.CLIENT)
    (htoken : b.token = none ∨ b.token = some Server.REQUEST ∨ b.token = some Server.TOKEN)
    (hcb : b.options.callback = none ∨ b.options.callback = some b!"oob")
    (hv : b.options.verifier = none ∨ b.options.verifier = some Server.VERIFIER) :
    Agreed L cfg b w (w.clock (w.clockPos + 1) / 1000000000).toNat b.client b.token b.options.verifier := by
  have hlit : ∀ s : Bytes, s.all (fun b => decide (b.toNat < 0x80)) = true → IsText s :=
    fun s h => IsText.ascii (s := s) fun b hb => of_decide_eq_true (List.all_eq_true.mp h b hb)
  have htime : b.sentTime cfg w = w.time cfg := by
    simp [Builder.sentTime, hb.timestamp]
  refine ⟨rfl, rfl, rfl, ?_, ?_, ?_, by rw [htime]; exact ht.delay, by rw [htime]; exact ht.small⟩
  · rw [hclient]; decide +kernel
  · intro t h
    rcases htoken with h' | h' | h' <;> rw [h'] at h <;> cases h <;> decide +kernel
  · rw [ordinary_params hb, hclient]
    have h1 : ∀ v, b.options.callback = some v → IsText v ∧ (v = [] → L.emptyOk = true) := by
      intro v hv'
      rcases hcb with h | h <;> rw [h] at hv' <;> cases hv'
      exact ⟨hlit _ (by decide +kernel), fun h => (by cases h)⟩
    have h2 : ∀ t, b.token = some t → IsText t.identifier ∧
        (t.identifier = [] → L.emptyOk = true) := by
      intro v hv'
      rcases htoken with h | h | h <;> rw [h] at hv' <;> cases hv'
      · exact ⟨hlit _ (by decide +kernel), fun h => (by cases h)⟩
      · exact ⟨hlit _ (by decide +kernel), fun h => (by cases h)⟩
    have h3 : ∀ v, b.options.verifier = some v → IsText v ∧ (v = [] → L.emptyOk = true) := by
      intro v hv'
      rcases hv with h | h <;> rw [h] at hv' <;> cases hv'
      exact ⟨hlit _ (by decide +kernel), fun h => (by cases h)⟩
    intro p hp
    simp only [List.mem_append, Option.mem_toList, Option.map_eq_some_iff, List.mem_cons,
      List.not_mem_nil, or_false] at hp
    rcases hp with ((⟨v, hv', rfl⟩ | rfl | rfl | rfl | rfl) | ⟨v, hv', rfl⟩) | ⟨v, hv', rfl⟩
    · exact h1 v hv'
    · exact ⟨hlit _ (by decide +kernel), fun h => (by cases h)⟩
    · exact ⟨.ascii (base64UrlNoPad_ascii _), fun h => ht.nonce.resolve_right (fun hn => hn h)⟩
    · exact ⟨hlit _ (by decide +kernel), fun h => (by cases h)⟩
    · refine ⟨.ascii fun x hx => ?_, fun h => absurd h (decimal_ne_nil _)⟩
      have := decimalAux_digits _ _ x hx
      omega
    · exact h2 v hv'
    · exact h3 v hv'

/-- A request signed by one of the example's builders and delivered unchanged is accepted. -/
theorem accepts_ordinary {L : Lib} {cfg : Cfg} (scfg : Cfg) {w : World} (ht : InTime L cfg w)
    {b : Builder Hmac} (hb : Ordinary b) (hclient : b.client = Server.CLIENT)
    (htoken : b.token = none ∨ b.token = some Server.REQUEST ∨ b.token = some Server.TOKEN)
    (hcb : b.options.callback = none ∨ b.options.callback = some b!"oob")
    (hv : b.options.verifier = none ∨ b.options.verifier = some Server.VERIFIER)
    {supplied current : List Pair} (hbuilt : Built supplied current) (hok : AllOk supplied)
    {method : Bytes} (hp : Plain supplied method) {r : Request} (hr : IsTrace r (weave allProto current))
    {uri : Display} (huri : uri.outcome = .ok) (hq : (0x3F : UInt8) ∉ uri.text) :
    ∃ out, b.authorize cfg method uri r w = .ok (out, w.step) ∧ out.all Client.headerByte = true ∧
      ∀ req, Arrives L req method uri.text out (shown Display.text supplied) → ∀ f, ∃ sig o,
        Server.verifyAndThen L scfg (some (w.clock (w.clockPos + 1) / 1000000000).toNat) req
            b.client b.token b.options.verifier f =
          .ok (f (sortPairs (b.params cfg b!"HMAC-SHA1" w ++ [(b!"oauth_signature", sig)] ++
            shown Display.text supplied)) o) ∧ o.callback = b.options.callback := by
  obtain ⟨hperm, hasc⟩ := C19_always_sorted hbuilt
  have hok' : AllOk current := fun x hx => hok x (hperm.mem_iff.mp hx)
  obtain ⟨out, h1, h2⟩ := authorize_ordinary ht.clock hb hok' hasc hr method huri hq w
  refine ⟨out, h1, h2, fun req harr f => ?_⟩
  obtain ⟨sig, o, h3, h4, -⟩ := C43_server_accepts (scfg := scfg) hb.method hbuilt hok hp hr huri h1 harr
    (agreed_ordinary ht hb hclient htoken hcb hv) f
  exact ⟨sig, o, h3, h4⟩

theorem serve_ok {L : Lib} {scfg : Cfg} {req : HttpRequest} {w : World} {res : Response}
    (h0 : 0 ≤ w.clock w.clockPos)
    (h : Server.service L scfg (some (w.clock w.clockPos / 1000000000).toNat) req = .ok res) :
    serve L scfg req w = .ok (res, { w with clockPos := w.clockPos + 1 }) := by
  refine M.bind_ok.mpr ⟨_, _, rfl, M.lift_ok.mpr ⟨?_, rfl⟩⟩
  rw [if_pos h0, h]

theorem call_ok {http : Client.Http} {method uri authorization body path : Bytes}
    {contentType query : Option Bytes} (h1 : Client.parseUri uri = some (path, query))
    (h2 : authorization.all Client.headerByte = true) :
    Client.call http method uri authorization contentType body =
      http { method, path, query, authorization := [authorization], contentType, body := some body } := by
  simp only [Client.call, h1, h2, if_true]

/-- What the server reads of a form made by the client. -/
theorem formParse_form {pairs : List Pair}
    (hkeys : ∀ p ∈ pairs, ∀ b ∈ p.1, unreserved b = true)
    (hvalid : ∀ p ∈ pairs, IsText p.2.text) :
    Server.pairsOf (join b!"&" (pairs.map fun p => p.1 ++ b!"=" ++ encode p.2.text)) =
      shown Display.text pairs := by
  have h := parseForm_formOf (pairs.map fun p => (p.1, p.2.text)) (by
    intro p hp
    obtain ⟨q, hq, rfl⟩ := List.mem_map.mp hp
    exact hkeys q hq)
  simp only [formOf, List.map_map, Function.comp_def] at h
  rw [← Server.formParse_eq, Server.formParse_of_parseForm h fun hc => Client.formChar_not_plus _ (Client.form_chars hkeys _ hc) rfl]
  simp only [List.map_map, Function.comp_def, shown]
  refine List.map_congr_left fun p hp => ?_
  rw [Utf8.lossy_text (hvalid p hp), Utf8.lossy_text (.ascii fun b hb => ?_)]
  have : ∀ b : UInt8, unreserved b = true → b.toNat < 0x80 := by apply forall_byte; decide +kernel
  exact this b (hkeys p hp b hb)

/-- C43: the example client's requests are accepted by the example server, which echoes all parameters. -/
theorem C43_echo {L : Lib} {cfg : Cfg} (scfg : Cfg) {w : World} (ht : InTime L cfg w)
    {supplied current : List Pair} (hbuilt : Built supplied current) (hok : AllOk supplied)
    {method : Bytes} (hm : method = b!"GET" ∨ method = b!"POST") (hp : Plain supplied method)
    (hvalid : ∀ p ∈ supplied, IsText p.2.text)
    {r : Request} (hr : IsTrace r (weave allProto current)) :
    ∃ sig, Client.send cfg method (Client.server ++ b!"/echo") r ⟨Client.CLIENT, Server.TOKEN⟩
        (serve L scfg) w =
      .ok (⟨200, Server.serializePairs (sortPairs ([(b!"oauth_consumer_key", b!"client"),
        (b!"oauth_nonce", w.nonce), (b!"oauth_signature_method", b!"HMAC-SHA1"),
        (b!"oauth_timestamp", decimal (w.time cfg)), (b!"oauth_token", b!"token"),
        (b!"oauth_signature", sig)] ++ shown Display.text supplied))⟩, w.answered) := by
  obtain ⟨hperm, hasc⟩ := C19_always_sorted hbuilt
  have hok' : AllOk current := fun x hx => hok x (hperm.mem_iff.mp hx)
  have hkeys' : ∀ p ∈ current, ∀ b ∈ p.1, unreserved b = true :=
    fun x hx => hp.keys x (hperm.mem_iff.mp hx)
  have hvalid' : ∀ p ∈ current, IsText p.2.text := fun x hx => hvalid x (hperm.mem_iff.mp hx)
  let b : Builder Hmac := (Builder.new Client.CLIENT hmacSha1).setToken (some Server.TOKEN)
  have hb : Ordinary b := ⟨rfl, rfl, rfl, rfl⟩
  have htext : (Display.ofBytes (Client.server ++ b!"/echo")).text = Client.server ++ b!"/echo" := by
    simp [Display.ofBytes, Display.text]
  obtain ⟨out, h1, h2, h3⟩ := accepts_ordinary scfg ht hb rfl (.inr (.inr rfl)) (.inl rfl) (.inl rfl)
    hbuilt hok hp (isTrace_ref hr) (uri := .ofBytes (Client.server ++ b!"/echo")) rfl
    (by rw [htext]; decide +kernel)
  have hparams := ordinary_params hb cfg w
  have hformw : ∀ w, Free.toForm (.ref r) w =
      .ok (join b!"&" (current.map fun p => p.1 ++ b!"=" ++ encode p.2.text), w) := by
    intro w
    have := C01_to_form_any_request (isTrace_ref hr) (weave_ok hok') w
    rw [formItems_weave] at this
    exact this
  have hform := formParse_form hkeys' hvalid'
  have hchars := Client.form_chars hkeys'
  have hperm' : (shown Display.text current).Perm (shown Display.text supplied) := hperm.map _
  generalize hdata : join b!"&" (current.map fun p => p.1 ++ b!"=" ++ encode p.2.text) = data at *
  have hecho : ∀ req : HttpRequest, req.method = method → req.path = b!"/echo" →
      Arrives L req method (Client.server ++ b!"/echo") out (shown Display.text supplied) →
      ∃ sig, serve L scfg req w.step = .ok (⟨200, Server.serializePairs (sortPairs
        ([(b!"oauth_consumer_key", b!"client"),
        (b!"oauth_nonce", w.nonce), (b!"oauth_signature_method", b!"HMAC-SHA1"),
        (b!"oauth_timestamp", decimal (w.time cfg)), (b!"oauth_token", b!"token"),
        (b!"oauth_signature", sig)] ++ shown Display.text supplied))⟩, w.answered) := by
    intro req e1 e2 harr
    obtain ⟨sig, o, h4, -⟩ := h3 req (htext ▸ harr) fun params _ => ⟨200, Server.serializePairs params⟩
    refine ⟨sig, serve_ok (w := w.step) ht.server ?_⟩
    rw [Server.service, if_pos ⟨by rw [e1]; exact hm, e2⟩, Server.echo]
    rw [hparams] at h4
    exact h4
  unfold Client.send
  rcases hm with rfl | rfl
  · -- GET
    let uri' := if data = [] then Client.server ++ b!"/echo" else Client.server ++ b!"/echo" ++ b!"?" ++ data
    let query := if data = [] then none else some data
    have hu : Client.parseUri uri' = some (b!"/echo", query) := by
      have hplain := Client.parsePath_plain (p := b!"/echo") (by decide +kernel)
      simp only [uri', query]
      split
      · rw [Client.parseUri_server, hplain.1]
      · rw [List.append_assoc, List.append_assoc, Client.parseUri_server, ← List.append_assoc, hplain.2 _ hchars]
    obtain ⟨sig, h5⟩ := hecho
      { method := b!"GET", path := b!"/echo", query, authorization := [out], contentType := none,
        body := some [] } rfl rfl ⟨rfl, rfl, ⟨[], rfl⟩, [], rfl, by
          have he : Server.pairsOf [] = [] := rfl
          simp only [query, he, List.nil_append]
          split
          · next hd => subst hd; rw [he] at hform; rw [Option.getD_none, he, hform]; exact hperm'
          · rw [Option.getD_some, hform]; exact hperm'⟩
    refine ⟨sig, M.bind_ok.mpr ⟨out, w.step, h1, ?_⟩⟩
    rw [if_neg (by decide)]
    refine M.bind_ok.mpr ⟨uri', w.step,
      C13_to_query_of_to_form (isTrace_ref hr) _ _ _ _ (hformw w.step), ?_⟩
    rw [call_ok hu h2]
    exact h5
  · -- POST
    obtain ⟨sig, h5⟩ := hecho
      { method := b!"POST", path := b!"/echo", query := none, authorization := [out],
        contentType := some Server.formType, body := some data } rfl rfl
      ⟨rfl, rfl, ⟨[], rfl⟩, data, rfl, by
        have he : Server.pairsOf [] = [] := rfl
        rw [Option.getD_none, he, List.append_nil, hform]; exact hperm'⟩
    refine ⟨sig, M.bind_ok.mpr ⟨out, w.step, h1, ?_⟩⟩
    rw [if_pos rfl]
    refine M.bind_ok.mpr ⟨data, w.step, hformw w.step, ?_⟩
    rw [call_ok (by rw [Client.parseUri_server]; exact (Client.parsePath_plain (by decide +kernel)).1) h2]
    exact h5

/-! ### C49 -/

theorem valid_serialized (ps : List Parameter) : IsText (Server.serializePairs ps) :=
  .ascii (Server.serializePairs_ascii ps)

theorem plain_nil {method : Bytes} (hm : method = b!"GET" ∨ method = b!"POST") : Plain [] method := by
  rcases hm with rfl | rfl <;> exact ⟨by simp, by simp, by simp, by decide +kernel, by decide +kernel⟩

theorem isTrace_unit_weave : IsTrace (.ref .unit) (weave allProto []) := isTrace_ref isTrace_unit

/-- Credentials sent by the server are read by the client. -/
theorem credentialsFromBytes_ok (c : Credentials Bytes) (more : List Parameter)
    (h1 : IsText c.identifier) (h2 : IsText c.secret)
    (hmore : ∀ p ∈ more, (IsText p.1 ∧ IsText p.2) ∧ p.1 ≠ b!"oauth_token" ∧
      p.1 ≠ b!"oauth_token_secret") (w : World) :
    Client.credentialsFromBytes (Server.serializePairs (Server.credentialPairs c ++ more)) w =
      .ok (c, w) := by
  have hc : Server.credentialPairs c =
      [(b!"oauth_token", c.identifier), (b!"oauth_token_secret", c.secret)] := rfl
  have hr := C39_round_trip (f := (⟨.ok, fun _ => .ok ()⟩ : Serde.Format Bytes Bytes Empty)) .ok
    (fun x v h => (by cases h; rfl)) c (Server.credentialPairs c) rfl [] more
    (fun e he => ⟨(hmore e he).2.1, (hmore e he).2.2, rfl⟩)
  have hl : ((Server.credentialPairs c ++ more).map fun p => (Utf8.lossy p.1, Utf8.lossy p.2)) =
      Server.credentialPairs c ++ more := by
    refine (List.map_congr_left fun p hp => ?_).trans (List.map_id _)
    have : IsText p.1 ∧ IsText p.2 := by
      rcases List.mem_append.mp hp with hp | hp
      · rw [hc] at hp
        simp only [List.mem_cons, List.not_mem_nil, or_false] at hp
        rcases hp with rfl | rfl
        · exact ⟨IsText.ascii (s := b!"oauth_token") (by decide +kernel), h1⟩
        · exact ⟨IsText.ascii (s := b!"oauth_token_secret") (by decide +kernel), h2⟩
      · exact (hmore p hp).1
    rw [Utf8.lossy_text this.1, Utf8.lossy_text this.2]; rfl
  unfold Client.credentialsFromBytes
  rw [Server.formParse_serializePairs, hl]
  rw [List.nil_append] at hr
  rw [hr]
  rfl

/-- One of the two steps that get credentials. -/
theorem step_ok {L : Lib} {cfg : Cfg} (scfg : Cfg) {w : World} (ht : InTime L cfg w)
    {b : Builder Hmac} (hb : Ordinary b) (hclient : b.client = Server.CLIENT)
    (htoken : b.token = none ∨ b.token = some Server.REQUEST ∨ b.token = some Server.TOKEN)
    (hcb : b.options.callback = none ∨ b.options.callback = some b!"oob")
    (hv : b.options.verifier = none ∨ b.options.verifier = some Server.VERIFIER)
    {path : Bytes} (hpath : Client.plainPath path = true)
    {f : List Parameter → OAuthParams → Response}
    (hservice : ∀ now req, req.method = b!"POST" → req.path = path →
      Server.service L scfg now req =
        Server.verifyAndThen L scfg now req b.client b.token b.options.verifier f)
    {res : Response} (hf : ∀ ps o, o.callback = b.options.callback → f ps o = res) :
    ∃ out, b.post cfg (Client.displayUri path) (.ref .unit) w = .ok (out, w.step) ∧
      Client.sendRequest (serve L scfg) path out w.step = .ok (res.body, w.answered) := by
  have htext : (Client.displayUri path).text = Client.server ++ path := by
    simp [Client.displayUri, Display.text, Client.server]
  have hq : (0x3F : UInt8) ∉ path := by
    intro h
    have := List.all_eq_true.mp hpath _ h
    revert this; decide
  have hp : Plain [] b!"POST" := plain_nil (.inr rfl)
  obtain ⟨out, h1, h2, h3⟩ := accepts_ordinary scfg ht hb hclient htoken hcb hv .default
    (fun _ h => (by cases h)) hp isTrace_unit_weave (uri := Client.displayUri path) rfl
    (by
      rw [htext, List.mem_append, not_or]
      exact ⟨by decide +kernel, hq⟩)
  let req : HttpRequest :=
    { method := b!"POST", path, query := none, authorization := [out], contentType := none,
      body := some [] }
  obtain ⟨sig, o, h4, h5⟩ := h3 req ⟨rfl, htext, ⟨[], rfl⟩, [], rfl, .refl _⟩ f
  refine ⟨out, h1, M.bind_ok.mpr ⟨res, w.answered, ?_, M.pure_ok.mpr ⟨rfl, rfl⟩⟩⟩
  rw [call_ok (by rw [Client.parseUri_server]; exact (Client.parsePath_plain hpath).1) h2]
  refine serve_ok (w := w.step) ht.server ?_
  rw [hservice _ _ rfl rfl, ← hf _ o h5]
  exact h4

/-- C49: the first step gives the client temporary credentials. -/
theorem C49_temporary_credentials {L : Lib} {cfg : Cfg} (scfg : Cfg) {w : World} (ht : InTime L cfg w) :
    Client.temporaryCredentials cfg Client.CLIENT b!"oob" (serve L scfg) w =
      .ok (⟨b!"request", b!"request_secret"⟩, w.answered) := by
  have hf : ∀ (ps : List Parameter) (o : OAuthParams), o.callback = some b!"oob" →
      (match o.callback with
      | some callback =>
        if callback = b!"oob" then
          (⟨200, Server.serializePairs (Server.credentialPairs Server.REQUEST ++
            [(b!"oauth_callback_confirmed", b!"true")])⟩ : Response)
        else .ofStatus 400
      | none => .ofStatus 400) = ⟨200, Server.serializePairs (Server.credentialPairs Server.REQUEST ++
            [(b!"oauth_callback_confirmed", b!"true")])⟩ := by
    intro ps o h
    rw [h]
    simp
  obtain ⟨out, h1, h2⟩ := step_ok scfg ht
    (b := (Builder.new Client.CLIENT hmacSha1).setCallback (some b!"oob")) ⟨rfl, rfl, rfl, rfl⟩ rfl
    (.inl rfl) (.inr rfl) (.inl rfl) (path := b!"/request_temp_credentials") (by decide +kernel)
    (fun now req e1 e2 => by
      rw [Server.service, e1, e2]
      rw [if_neg (by decide +kernel), if_pos ⟨rfl, rfl⟩]
      rfl) hf
  refine M.bind_ok.mpr ⟨_, _, h1, M.bind_ok.mpr ⟨_, _, h2, ?_⟩⟩
  refine credentialsFromBytes_ok Server.REQUEST _ (.ascii (by decide +kernel))
    (.ascii (by decide +kernel)) ?_ _
  intro p hp
  rw [List.mem_singleton] at hp
  subst hp
  exact ⟨⟨.ascii (by decide +kernel), .ascii (by decide +kernel)⟩, by decide, by decide⟩

/-- C49: the second gives it token credentials. -/
theorem C49_token_credentials {L : Lib} {cfg : Cfg} (scfg : Cfg) {w : World} (ht : InTime L cfg w) :
    Client.tokenCredentials cfg Client.CLIENT ⟨b!"request", b!"request_secret"⟩ b!"verifier"
      (serve L scfg) w = .ok (⟨b!"token", b!"token_secret"⟩, w.answered) := by
  obtain ⟨out, h1, h2⟩ := step_ok scfg ht
    (b := ((Builder.new Client.CLIENT hmacSha1).setToken (some Server.REQUEST)).setVerifier
      (some b!"verifier")) ⟨rfl, rfl, rfl, rfl⟩ rfl
    (.inr (.inl rfl)) (.inl rfl) (.inr rfl) (path := b!"/request_token") (by decide +kernel)
    (fun now req e1 e2 => by
      rw [Server.service, e1, e2]
      rw [if_neg (by decide +kernel), if_neg (by decide +kernel), if_pos ⟨rfl, rfl⟩]
      rfl) (fun _ _ _ => rfl)
  refine M.bind_ok.mpr ⟨_, _, h1, M.bind_ok.mpr ⟨_, _, h2, ?_⟩⟩
  have := credentialsFromBytes_ok Server.TOKEN [] (.ascii (by decide +kernel))
    (.ascii (by decide +kernel)) (fun p hp => (by cases hp)) w.answered
  rw [List.append_nil] at this
  exact this

/-- What the client prints for a request: the parameters the server verified. -/
def echoed (cfg : Cfg) (w : World) (sig : Bytes) (own : List (Bytes × Bytes)) : Bytes :=
  Server.serializePairs (sortPairs ([(b!"oauth_consumer_key", b!"client"), (b!"oauth_nonce", w.nonce),
    (b!"oauth_signature_method", b!"HMAC-SHA1"), (b!"oauth_timestamp", decimal (w.time cfg)),
    (b!"oauth_token", b!"token"), (b!"oauth_signature", sig)] ++ own))

/-- C43 for a struct of strings that derives `Request`. -/
theorem C43_derived {L : Lib} {cfg : Cfg} (scfg : Cfg) {w : World} (ht : InTime L cfg w)
    {method : Bytes} (hm : method = b!"GET" ∨ method = b!"POST")
    {fields : List (Bytes × Bytes)} (hn : (fields.map (·.1)).Nodup)
    (hkeys : ∀ f ∈ fields, ∀ b ∈ f.1, unreserved b = true)
    (hproto : ∀ f ∈ fields, (∀ p : Proto, f.1 ≠ p.name) ∧ f.1 ≠ b!"oauth_signature")
    (hvalid : ∀ f ∈ fields, IsText f.2) :
    ∃ sig, Client.send cfg method (Client.server ++ b!"/echo") (Client.strRequest cfg fields)
        ⟨Client.CLIENT, Server.TOKEN⟩ (serve L scfg) w =
      .ok (⟨200, echoed cfg w sig fields⟩, w.answered) := by
  obtain ⟨pairs, h1, h2, h3, h4⟩ := Client.isTrace_strRequest cfg fields hn
  have hmem : ∀ p ∈ pairs, (p.1, p.2.text) ∈ fields :=
    fun p hp => h2.mem_iff.mp (List.mem_map.mpr ⟨p, hp, rfl⟩)
  have hbuilt : Built pairs pairs := .fromSorted (by
    rw [ParameterList.fromSorted, if_pos ((isSortedBy_iff _).mpr h4)])
  obtain ⟨m1, m2⟩ : (∀ b ∈ method, unreserved b = true) ∧ upper method = method := by
    rcases hm with rfl | rfl <;> exact ⟨by decide +kernel, by decide +kernel⟩
  obtain ⟨sig, h⟩ := C43_echo scfg ht hbuilt h3 hm
    ⟨fun x hx => hkeys _ (hmem x hx), fun x hx => (hproto _ (hmem x hx)).1,
      fun x hx => (hproto _ (hmem x hx)).2, m1, m2⟩ (fun x hx => hvalid _ (hmem x hx)) h1
  refine ⟨sig, ?_⟩
  rw [h, echoed, Server.sortPairs_perm (h2.append_left _)]

/-- C49: the example client gets through, whatever the random bytes and at whatever time, as long as no
request takes longer than 30 seconds: it never panics, and prints what it sent. -/
theorem C49_main {L : Lib} {cfg : Cfg} (scfg : Cfg) {w : World}
    (h1 : InTime L cfg w) (h2 : InTime L cfg w.answered) (h3 : InTime L cfg w.answered.answered)
    (h4 : InTime L cfg w.answered.answered.answered) :
    ∃ sig sig', Client.main cfg (serve L scfg) w =
      .ok ((echoed cfg w.answered.answered sig [(b!"foo", b!"GET")],
        echoed cfg w.answered.answered.answered sig' [(b!"bar", b!"POST"), (b!"baz", b!"ＰＯＳＴ")]),
        w.answered.answered.answered.answered) := by
  obtain ⟨sig, e3⟩ := C43_derived scfg h3 (.inl rfl) (fields := [(b!"foo", b!"GET")]) (by decide)
    (by decide +kernel) (by
      intro f hf
      rw [List.mem_singleton] at hf
      subst hf
      exact ⟨fun p => (by cases p <;> decide), by decide⟩) (by
      intro f hf
      rw [List.mem_singleton] at hf
      subst hf
      exact .ascii (by decide +kernel))
  obtain ⟨sig', e4⟩ := C43_derived scfg h4 (.inr rfl)
    (fields := [(b!"bar", b!"POST"), (b!"baz", b!"ＰＯＳＴ")]) (by decide)
    (by decide +kernel) (by
      intro f hf
      simp only [List.mem_cons, List.not_mem_nil, or_false] at hf
      rcases hf with rfl | rfl <;> exact ⟨fun p => (by cases p <;> decide), by decide⟩) (by
      intro f hf
      simp only [List.mem_cons, List.not_mem_nil, or_false] at hf
      rcases hf with rfl | rfl
      · exact .ascii (by decide +kernel)
      · exact (by decide +kernel))
  have hstr : ∀ ps w, Client.toString ⟨200, Server.serializePairs ps⟩ w =
      .ok (Server.serializePairs ps, w) := by
    intro ps w
    simp only [Client.toString, (Utf8.valid_iff _).mpr (valid_serialized ps), if_true]
    rfl
  refine ⟨sig, sig', ?_⟩
  refine M.bind_ok.mpr ⟨_, _, C49_temporary_credentials scfg h1, ?_⟩
  refine M.bind_ok.mpr ⟨_, _, C49_token_credentials scfg h2, ?_⟩
  refine M.bind_ok.mpr ⟨_, _, e3, ?_⟩
  refine M.bind_ok.mpr ⟨_, _, e4, ?_⟩
  refine M.bind_ok.mpr ⟨_, _, hstr _ _, ?_⟩
  refine M.bind_ok.mpr ⟨_, _, hstr _ _, ?_⟩
  exact M.pure_ok.mpr ⟨rfl, rfl⟩

/-- What is printed can be read back. -/
theorem C49_printed (cfg : Cfg) (w : World) (sig : Bytes) (own : List (Bytes × Bytes))
    (hsig : IsText sig) (hown : ∀ p ∈ own, IsText p.1 ∧ IsText p.2) :
    (Server.pairsOf (echoed cfg w sig own)).Perm
      ([(b!"oauth_consumer_key", b!"client"), (b!"oauth_nonce", w.nonce),
        (b!"oauth_signature_method", b!"HMAC-SHA1"), (b!"oauth_timestamp", decimal (w.time cfg)),
        (b!"oauth_token", b!"token"), (b!"oauth_signature", sig)] ++ own) := by
  have hlit : ∀ s : Bytes, s.all (fun b => decide (b.toNat < 0x80)) = true → Utf8.lossy s = s :=
    fun s h => Utf8.lossy_text (IsText.ascii (s := s) fun b hb => of_decide_eq_true (List.all_eq_true.mp h b hb))
  rw [echoed, ← Server.formParse_eq, Server.formParse_serializePairs]
  refine ((sortPairs_spec _).1.map _).trans (.of_eq ?_)
  rw [List.map_append]
  congr 1
  · have hn : Utf8.lossy w.nonce = w.nonce := Utf8.lossy_text (.ascii (base64UrlNoPad_ascii _))
    have ht : Utf8.lossy (decimal (w.time cfg)) = decimal (w.time cfg) :=
      Utf8.lossy_text (.ascii fun x hx => (by
        have := decimalAux_digits _ _ x hx
        omega))
    simp only [List.map_cons, List.map_nil, hn, ht, Utf8.lossy_text hsig]
    simp only [hlit _ (show (b!"oauth_consumer_key").all _ = true by decide +kernel),
      hlit _ (show (b!"client").all _ = true by decide +kernel),
      hlit _ (show (b!"oauth_nonce").all _ = true by decide +kernel),
      hlit _ (show (b!"oauth_signature_method").all _ = true by decide +kernel),
      hlit _ (show (b!"HMAC-SHA1").all _ = true by decide +kernel),
      hlit _ (show (b!"oauth_timestamp").all _ = true by decide +kernel),
      hlit _ (show (b!"oauth_token").all _ = true by decide +kernel),
      hlit _ (show (b!"token").all _ = true by decide +kernel),
      hlit _ (show (b!"oauth_signature").all _ = true by decide +kernel)]
  · refine (List.map_congr_left fun p hp => ?_).trans (List.map_id _)
    rw [Utf8.lossy_text (hown p hp).1, Utf8.lossy_text (hown p hp).2]; rfl

/-- A world where each clock reading is ten seconds after the one before, in November 2023. -/
def World.ticking : World :=
  { rng := fun i => UInt8.ofNat (i + 1), clock := fun i => (1700000000 + 10 * i) * 1000000000 }

theorem ticking_inTime (n : Nat) (h : n < 4) : InTime (Server.exampleLib false) Case.cfg
    { World.ticking with rngPos := World.ticking.rngPos + 9 * n, clockPos := World.ticking.clockPos + 2 * n } := by
  have h' : n = 0 ∨ n = 1 ∨ n = 2 ∨ n = 3 := by omega
  rcases h' with rfl | rfl | rfl | rfl <;>
    exact ⟨by decide, by decide +kernel, by decide +kernel, by decide +kernel, .inr (by decide +kernel)⟩

/-- C43: the shared case is echoed. -/
example := C43_echo Case.cfg (ticking_inTime 0 (by decide)) Case.built Case.ok (.inl rfl)
  (Case.plain b!"GET" (by decide)) (by decide +kernel) Case.trace

/-- C43: a struct with two fields. -/
example := C43_derived Case.cfg (ticking_inTime 1 (by decide)) (method := b!"POST") (.inr rfl)
  (fields := [(b!"q", b!"1 é"), (b!"b", b!"&")]) (by decide) (by decide)
  (fun f hf => ⟨fun p => (by decide : ∀ f ∈ [(b!"q", b!"1 é"), (b!"b", b!"&")], ∀ p ∈ allProto, f.1 ≠ p.name)
    f hf p (by cases p <;> decide),
    (by decide : ∀ f ∈ [(b!"q", b!"1 é"), (b!"b", b!"&")], f.1 ≠ b!"oauth_signature") f hf⟩)
  (by decide +kernel)

/-- C49: the three requests of the example client. -/
example := C49_temporary_credentials Case.cfg (ticking_inTime 0 (by decide))
example := C49_token_credentials Case.cfg (ticking_inTime 1 (by decide))
example : ∃ sig sig', (Client.main Case.cfg (serve (Server.exampleLib false) Case.cfg) World.ticking).toOption.map
    (·.1) =
    some (echoed Case.cfg World.ticking.answered.answered sig [(b!"foo", b!"GET")],
      echoed Case.cfg World.ticking.answered.answered.answered sig'
        [(b!"bar", b!"POST"), (b!"baz", b!"ＰＯＳＴ")]) := by
  obtain ⟨sig, sig', h⟩ := C49_main (L := Server.exampleLib false) Case.cfg (ticking_inTime 0 (by decide))
    (ticking_inTime 1 (by decide)) (ticking_inTime 2 (by decide)) (ticking_inTime 3 (by decide))
  refine ⟨sig, sig', ?_⟩
  have e : ({ World.ticking with rngPos := World.ticking.rngPos + 9 * 0,
                                 clockPos := World.ticking.clockPos + 2 * 0 } : World) = World.ticking := rfl
  rw [e] at h
  rw [h]; rfl

/-- The model run: the first credentials. -/
example : (Client.temporaryCredentials ⟨true, true, .std⟩ Client.CLIENT b!"oob"
    (serve (Server.exampleLib false) ⟨true, true, .std⟩) World.ticking).toOption.map (·.1) =
    some ⟨b!"request", b!"request_secret"⟩ := by decide +kernel

/-- The limit is exact: a request that takes 31 seconds is refused, and the client panics on the empty
body of the response. -/
def World.slow : World :=
  { rng := fun i => UInt8.ofNat (i + 1), clock := fun i => (1700000000 + 31 * i) * 1000000000 }

theorem C49_late_panics : (Client.main ⟨true, true, .std⟩
    (serve (Server.exampleLib false) ⟨true, true, .std⟩) World.slow).toOption.isNone = true := by
  have h : (Client.temporaryCredentials ⟨true, true, .std⟩ Client.CLIENT b!"oob"
      (serve (Server.exampleLib false) ⟨true, true, .std⟩) World.slow).toOption.isNone = true := by decide +kernel
  unfold Client.main
  simp only [bind, StateT.bind, Except.bind]
  cases ht : Client.temporaryCredentials ⟨true, true, .std⟩ Client.CLIENT b!"oob"
      (serve (Server.exampleLib false) ⟨true, true, .std⟩) World.slow with
  | error e => rfl
  | ok a => rw [ht] at h; cases h

end OAuth
