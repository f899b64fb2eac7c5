import Verif.Properties.Signature

/-
C06, C46 on the level of bytes: what the digest of a signature method is fed.
-/

namespace OAuth

open Spec

variable {S : Type}

/-- A signing algorithm made of the methods of `UpdateSign`, and the trait's provided methods. -/
abbrev updateSign {U : Type} (o : UpdateOps U) (name : Bytes) (fin : U → Except Panic Display) :
    Sign U where
  name _ := name
  requestMethod := o.requestMethod
  uri := o.uri
  parameter := o.parameter
  delimiter := o.delimiter
  «end» := fin

/-- A call that returns has added its piece of the base string, and nothing else, to the digest. -/
theorem update_run {U : Type} {o : UpdateOps U} (ho : o.Lawful) (name : Bytes)
    (fin : U → Except Panic Display) (c : SignCall) {s s' : U}
    (h : c.run (updateSign o name fin) s = .ok s') :
    s' = o.upd s (c.render name) := by
  have hck : ∀ {x : Outcome} {u u' : U}, x.check u = .ok u' → u' = u := by
    intro x u u' e
    cases x <;> simp [Outcome.check] at e
    exact e.symm
  have hof : ∀ b : Bytes, (Display.ofBytes b).outcome = .ok := fun _ => rfl
  cases c <;>
    simp only [SignCall.run, UpdateOps.parameter_eq ho, UpdateOps.requestMethod_eq ho,
      UpdateOps.uri_eq ho, UpdateOps.delimiter_eq, hof, Display.text_ofBytes] at h <;>
    first
      | exact hck h
      | (cases h; rfl)

theorem update_runSign {U : Type} {o : UpdateOps U} (ho : o.Lawful) (name : Bytes)
    (fin : U → Except Panic Display) (L : List SignCall) {s s' : U}
    (h : runSign (updateSign o name fin) L s = .ok s') :
    s' = o.upd s (L.map (SignCall.render name)).flatten := by
  induction L generalizing s with
  | nil => cases h; simp [ho.nil]
  | cons c L ih =>
    simp only [runSign, bind, Except.bind] at h
    split at h
    · cases h
    · next s1 h1 =>
      rw [ih h, update_run ho name fin c h1, ho.append]
      simp

/-- C06, the bytes: with HMAC-SHA1 (over any hash function) or RSA-SHA1, whatever the request, the
message given to the digest when the signature is computed is `METHOD&encoded URI&` and the emitted
parameters joined by `%26`, from the first byte on; the signature is what the method computes of this
message. -/
theorem C06_digest_bytes (cfg : Cfg) (H : Bytes → Bytes) {r : Request} {cs : List Call}
    (hr : IsTrace r cs) (method : Bytes) (uri : Display) (w : World) :
    (∀ b : Builder Hmac, b.signatureMethod = hmacMethod H →
      ∃ run : List (Call × Bytes × Nat), run.map (·.1) = cs ∧
      ∀ out w', b.authorize cfg method uri r w = .ok (out, w') →
        ∃ (key : Hmac) (sig : Display), b.signatureMethod.signWith b.client.secret
            (b.token.map (·.secret)) = .ok key ∧
          (hmacSign H).end ⟨key.derKey, key.msg ++ baseString method uri.text (run.filterMap fun x =>
            x.1.signed? (b.env b!"HMAC-SHA1" true true) x.2.1 x.2.2)⟩ = .ok sig ∧
          key.msg = [] ∧
          out = b!"OAuth " ++ ((run.filterMap fun x =>
              x.1.sent? (b.env b!"HMAC-SHA1" true true) x.2.1 x.2.2).map headerItem).flatten ++
            b!"oauth_signature=\"" ++ sig.text ++ b!"\"") ∧
    (∀ (K : Type) (ops : RsaOps K) (k : K) (b : Builder (RsaSign K)),
      b.signatureMethod = rsaRef H ops k ∨ b.signatureMethod = rsaOwned H ops k →
      ∃ run : List (Call × Bytes × Nat), run.map (·.1) = cs ∧
      ∀ out w', b.authorize cfg method uri r w = .ok (out, w') →
        ∃ sig, ops.sign k (H (baseString method uri.text (run.filterMap fun x =>
            x.1.signed? (b.env b!"RSA-SHA1" true true) x.2.1 x.2.2))) = some sig ∧
          out = b!"OAuth " ++ ((run.filterMap fun x =>
              x.1.sent? (b.env b!"RSA-SHA1" true true) x.2.1 x.2.2).map headerItem).flatten ++
            b!"oauth_signature=\"" ++ (base64PercentEncodeDisplay sig).text ++ b!"\"") := by
  constructor
  · intro b hb
    have hc : ConstSign b.signatureMethod.sign b!"HMAC-SHA1" true true := by
      rw [hb]; exact constSign_hmac H
    obtain ⟨run, L, h1, h2, h3, -, -⟩ := C06_base_string cfg b hc unreserved_hmacName hr method uri w
    refine ⟨run, h1, fun out w' h => ?_⟩
    obtain ⟨s0, s, sig, e0, e1, e2, rfl⟩ := h3 out w' h
    rw [hb] at e1 e2
    have e3 := update_runSign hmacUpdate_lawful _ _ L e1
    rw [h2] at e3
    have e4 : s0.msg = [] := by
      rw [hb] at e0
      simp only [hmacMethod, bind, Except.bind] at e0
      split at e0
      · cases e0
      · cases e0
        unfold SigningKey.intoHmac Hmac.newFromSlice
        split <;> rfl
    refine ⟨s0, sig, e0, ?_, e4, rfl⟩
    rw [e3] at e2
    exact e2
  · intro K ops k b hb
    have hc : ConstSign b.signatureMethod.sign b!"RSA-SHA1" true true := by
      rcases hb with hb | hb <;> rw [hb]
      · exact constSign_rsaRef H ops
      · exact constSign_rsaOwned H ops
    obtain ⟨run, L, h1, h2, h3, -, -⟩ := C06_base_string cfg b hc unreserved_rsaName hr method uri w
    refine ⟨run, h1, fun out w' h => ?_⟩
    obtain ⟨s0, s, sig, e0, e1, e2, rfl⟩ := h3 out w' h
    have e00 : s0 = ⟨[], k⟩ := by
      rcases hb with hb | hb <;> rw [hb] at e0 <;> cases e0 <;> rfl
    subst e00
    have e3 : s = ⟨baseString method uri.text (run.filterMap fun x =>
            x.1.signed? (b.env b!"RSA-SHA1" true true) x.2.1 x.2.2), k⟩ := by
      rcases hb with hb | hb <;> rw [hb] at e1
      · have := update_runSign (rsaUpdate_lawful K) _ _ L e1
        rw [h2] at this; exact this
      · have := update_runSign (rsaUpdate_lawful K) _ _ L e1
        rw [h2] at this; exact this
    subst e3
    have e4 : (match ops.sign k (H (baseString method uri.text (run.filterMap fun x =>
            x.1.signed? (b.env b!"RSA-SHA1" true true) x.2.1 x.2.2))) with
        | some sig => .ok (base64PercentEncodeDisplay sig)
        | none => .error .rsa) = (Except.ok sig : Except Panic Display) := by
      rcases hb with hb | hb <;> rw [hb] at e2 <;> exact e2
    split at e4
    · next g hg => cases e4; exact ⟨g, hg, rfl⟩
    · cases e4

/-- A key operation and hash that leave the message as it is, so that the signature of RSA-SHA1 shows
what was signed. -/
def transparent : SignatureMethod (RsaSign Unit) := rsaRef id ⟨fun _ m => some m⟩ ()

/-- C06 on a concrete request: the text signed, read off the header. -/
example : ((Builder.mk transparent (.new b!"k" b!"s") none
      ⟨none, none, some b!"n", some ⟨12, by decide, by decide⟩, false⟩).authorize ⟨true, true, .std⟩ b!"GET"
      (.ofBytes b!"http://a/") (AssertSorted.request ⟨true, true, .std⟩ [(b!"a", .ofBytes b!"1 2"),
        (b!"p", .ofBytes b!"")]) World.example).toOption.bind (fun r =>
        (parseHeader r.1).bind fun ps => ps.getLast?.bind fun p => base64DecodePad base64Alphabet p.2) =
    some b!"GET&http%3A%2F%2Fa%2F&a%3D1%25202%26oauth_consumer_key%3Dk%26oauth_nonce%3Dn%26oauth_signature_method%3DRSA-SHA1%26oauth_timestamp%3D12%26p%3D" := by
  decide +kernel

/-- C46 for what `authorize` returns: if the headers of two calls with the transparent signature method
carry the same signature, then the two calls had the same method, URI text and sequence of (key, value)
pairs, in whatever else they differ. -/
theorem C46_authorize {cfg cfg' : Cfg} {b b' : Builder (RsaSign Unit)}
    (hb : b.signatureMethod = transparent) (hb' : b'.signatureMethod = transparent)
    {r r' : Request} {cs cs' : List Call} (hr : IsTrace r cs) (hr' : IsTrace r' cs')
    (hstd : Standard cs) (hstd' : Standard cs') (hok : ∀ c ∈ cs, c.ok) (hok' : ∀ c ∈ cs', c.ok)
    (hcs : ∀ c ∈ cs, c.safe) (hcs' : ∀ c ∈ cs', c.safe) {method method' : Bytes}
    (hm : (0x26 : UInt8) ∉ method) (hm' : (0x26 : UInt8) ∉ method') {uri uri' : Display}
    (hu : uri.outcome = .ok) (hu' : uri'.outcome = .ok) {w w1 w' w1' : World} {out out' : Bytes}
    (h : b.authorize cfg method uri r w = .ok (out, w1))
    (h' : b'.authorize cfg' method' uri' r' w' = .ok (out', w1'))
    {ps ps' : List (Bytes × Bytes)} {sig : Bytes}
    (hp : parseHeader out = some (ps ++ [(b!"oauth_signature", sig)]))
    (hp' : parseHeader out' = some (ps' ++ [(b!"oauth_signature", sig)])) :
    method = method' ∧ uri.text = uri'.text ∧
      cs.filterMap (Call.effective (b.env b!"RSA-SHA1" true true) w.nonce (w.time cfg)) =
        cs'.filterMap (Call.effective (b'.env b!"RSA-SHA1" true true) w'.nonce (w'.time cfg')) := by
  have hs : ∀ {b : Builder (RsaSign Unit)}, b.signatureMethod = transparent →
      b.Signs b!"RSA-SHA1" true true (fun m => encode (base64Standard m)) := by
    intro b hb
    rw [Builder.Signs, hb]
    exact signs_rsaRef id _ () id (fun _ => rfl) _ _
  have e1 := (signs_output (hs hb) hr hstd hok method w w1 out).1 uri hu h
  have e2 := (signs_output (hs hb') hr' hstd' hok' method' w' w1' out').1 uri' hu' h'
  rw [e1, (parse_output cfg b _ w _).1] at hp
  rw [e2, (parse_output cfg' b' _ w' _).1] at hp'
  simp only [Option.some.injEq] at hp hp'
  have g1 := (List.append_inj' hp rfl).2
  have g2 := (List.append_inj' hp' rfl).2
  simp only [List.cons.injEq, Prod.mk.injEq, true_and, and_true] at g1 g2
  simp only [base64Standard] at g1 g2
  have : b.base cfg b!"RSA-SHA1" method uri cs w =
      b'.base cfg' b!"RSA-SHA1" method' uri' cs' w' := by
    have g5 : base64Standard (b.base cfg b!"RSA-SHA1" method uri cs w) =
        base64Standard (b'.base cfg' b!"RSA-SHA1" method' uri' cs' w') := by
      simp only [base64Standard, g1, g2]
    have g6 := congrArg (base64DecodePad base64Alphabet) g5
    have hd : ∀ x, base64DecodePad base64Alphabet (base64Standard x) = some x :=
      base64_decodePad false
    rw [hd, hd] at g6
    exact Option.some.inj g6
  exact C46_base_string_binds hm hm' hcs hcs' this

/-- Two calls that carry the same signature: the shared case in a debug build, and the same pairs in other
fragments in a build without checks. -/
example : ∃ out out' w1 w1' ps sig,
    (Case.pinned transparent).authorize Case.cfg b!"GET" (.ofBytes Case.uri) Case.request Case.world =
      .ok (out, w1) ∧
    (Case.pinned transparent).authorize ⟨false, false, .none⟩ b!"GET" ⟨[b!"http:", b!"//example.com/a"], .ok⟩
      (ParameterList.request Case.cfg (Case.pairs.map fun p => (p.1, .ofBytes p.2.text))) World.example =
        .ok (out', w1') ∧
    parseHeader out = some (ps ++ [(b!"oauth_signature", sig)]) ∧
    parseHeader out' = some (ps ++ [(b!"oauth_signature", sig)]) := by
  obtain ⟨out, w1, h⟩ : ∃ out w', (Case.pinned transparent).authorize Case.cfg b!"GET" (.ofBytes Case.uri)
    Case.request Case.world = .ok (out, w') := Case.ok_of_isSome (by decide +kernel)
  have hs : ((Case.pinned transparent).authorize Case.cfg b!"GET" (.ofBytes Case.uri) Case.request
      Case.world).toOption.map (·.1) =
    ((Case.pinned transparent).authorize ⟨false, false, .none⟩ b!"GET" ⟨[b!"http:", b!"//example.com/a"], .ok⟩
      (ParameterList.request Case.cfg (Case.pairs.map fun p => (p.1, .ofBytes p.2.text)))
      World.example).toOption.map (·.1) := by decide +kernel
  rw [h] at hs
  obtain ⟨w1', h'⟩ := Case.ok_of_eq hs.symm
  have hsig : (Case.pinned transparent).Signs b!"RSA-SHA1" true true (fun m => encode (base64Standard m)) :=
    signs_rsaRef id _ () id (fun _ => rfl) _ _
  have e := (signs_output hsig Case.trace Case.standard (weave_ok Case.ok) _ _ _ _).1 _ rfl h
  have hp := (parse_output Case.cfg (Case.pinned transparent) b!"RSA-SHA1" Case.world (base64Standard
    ((Case.pinned transparent).base Case.cfg b!"RSA-SHA1" b!"GET" (.ofBytes Case.uri) Case.calls
      Case.world))).1
  rw [← e] at hp
  exact ⟨out, out, w1, w1', _, _, h, h', hp, hp⟩

end OAuth
