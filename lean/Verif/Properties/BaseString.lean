import Verif.Proofs.Cases
import Verif.Proofs.Signing

/-
C06, C10: what is signed and what is sent.
-/

namespace OAuth

open Spec

variable {S : Type}

/-- C06 and C10, for every implementor of `Request` and every signing algorithm (with a fixed name made
of unreserved characters): there is one assignment `run` of a nonce and a time to each call, and one
sequence `L` of calls on the signing algorithm, such that
* the text of `L` is `METHOD&encoded URI&` and the emitted parameters (request and protocol alike) in
  call order, joined by `%26`, and
* whenever `authorize`, `to_form` or `to_query` returns, the signing algorithm was fed exactly `L`, its
  signature is the last thing in the output, and what precedes it are the protocol parameters sent,
  with the nonces and times of the same `run`. -/
theorem C06_base_string (cfg : Cfg) (b : Builder S) {name : Bytes} {un ut : Bool}
    (hsg : ConstSign b.signatureMethod.sign name un ut) (hname : ∀ x ∈ name, unreserved x = true)
    {r : Request} {cs : List Call} (hr : IsTrace r cs) (method : Bytes) (uri : Display)
    (w : World) :
    ∃ (run : List (Call × Bytes × Nat)) (L : List SignCall),
      run.map (·.1) = cs ∧
      (L.map (SignCall.render name)).flatten = baseString method uri.text
        (run.filterMap fun x => x.1.signed? (b.env name un ut) x.2.1 x.2.2) ∧
      (∀ out w', b.authorize cfg method uri r w = .ok (out, w') →
        ∃ s0 s sig, b.signatureMethod.signWith b.client.secret (b.token.map (·.secret)) = .ok s0 ∧
          runSign b.signatureMethod.sign L s0 = .ok s ∧ b.signatureMethod.sign.end s = .ok sig ∧
          out = b!"OAuth " ++ ((run.filterMap fun x =>
              x.1.sent? (b.env name un ut) x.2.1 x.2.2).map headerItem).flatten ++
            b!"oauth_signature=\"" ++ sig.text ++ b!"\"") ∧
      (∀ out w', b.toForm cfg method uri r w = .ok (out, w') →
        ∃ s0 s sig, b.signatureMethod.signWith b.client.secret (b.token.map (·.secret)) = .ok s0 ∧
          runSign b.signatureMethod.sign L s0 = .ok s ∧ b.signatureMethod.sign.end s = .ok sig ∧
          out = join b!"&" ((run.filterMap (fun x =>
              x.1.sent? (b.env name un ut) x.2.1 x.2.2) ++
            [(b!"oauth_signature", sig.text)]).map formItem)) ∧
      (∀ u, uri = .ofBytes u →
        ∀ out w', b.toQuery cfg stringWriter .ofBytes method u r w = .ok (out, w') →
        ∃ s0 s sig, b.signatureMethod.signWith b.client.secret (b.token.map (·.secret)) = .ok s0 ∧
          runSign b.signatureMethod.sign L s0 = .ok s ∧ b.signatureMethod.sign.end s = .ok sig ∧
          out = u ++ b!"?" ++ join b!"&" ((run.filterMap (fun x =>
              x.1.sent? (b.env name un ut) x.2.1 x.2.2) ++
            [(b!"oauth_signature", sig.text)]).map formItem)) := by
  refine ⟨annotate cfg (b.env name un ut) w cs, allSignCalls cfg (b.env name un ut) w method uri cs,
    annotate_fst _ _ _ _, allSignCalls_render (e := b.env name un ut) hname w method uri cs,
    ?_, ?_, ?_⟩
  · intro out w' h
    rw [authorize_runWith, runWith_ok_iff hsg hr] at h
    obtain ⟨-, -, s0, s, sig, h0, h1, h2, -, rfl⟩ := h
    refine ⟨s0, s, sig, h0, h1, h2, ?_⟩
    rw [sendAll_header, Data.finish, itemsFrom_sent cfg _ hname]
  · intro out w' h
    rw [toForm_runWith, runWith_ok_iff hsg hr] at h
    obtain ⟨-, -, s0, s, sig, h0, h1, h2, -, rfl⟩ := h
    refine ⟨s0, s, sig, h0, h1, h2, ?_⟩
    rw [(sendAll_finish_form _ _ _).1, itemsFrom_sent cfg _ hname]
    rfl
  · rintro u rfl out w' h
    rw [toQuery_runWith, runWith_ok_iff hsg hr] at h
    obtain ⟨-, -, s0, s, sig, h0, h1, h2, -, rfl⟩ := h
    refine ⟨s0, s, sig, h0, h1, h2, ?_⟩
    rw [(sendAll_finish_form _ _ _).2, itemsFrom_sent cfg _ hname]

/-- A concrete case: HMAC-SHA1 and a request with reserved characters, for which all three return. -/
example : ConstSign (Case.builder hmacSha1).signatureMethod.sign b!"HMAC-SHA1" true true ∧
    (∀ x ∈ b!"HMAC-SHA1", unreserved x = true) ∧ IsTrace Case.request Case.calls ∧
    (∃ out w', (Case.builder hmacSha1).authorize Case.cfg b!"GET" (.ofBytes Case.uri) Case.request
      Case.world = .ok (out, w')) ∧
    (∃ out w', (Case.builder hmacSha1).toForm Case.cfg b!"POST" (.ofBytes Case.uri) Case.request
      Case.world = .ok (out, w')) ∧
    (∃ out w', (Case.builder hmacSha1).toQuery Case.cfg stringWriter .ofBytes b!"GET" Case.uri Case.request
      Case.world = .ok (out, w')) :=
  ⟨constSign_hmac _, by decide, Case.trace, Case.header, Case.form, Case.query⟩

end OAuth
