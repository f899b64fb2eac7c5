import Verif.Properties.ServerBinds

/-
C90: the signature and the bytes of a request.
-/

namespace OAuth

open Spec
open Server (Lib Parameter HttpRequest Response OAuthParams Received ReceivedBytes HasReplacement)

/-- C90: the server and the client take for text what is the encoding of one, -/
theorem C90_text (s : Bytes) : Utf8.valid s = true ↔ IsText s := Utf8.valid_iff s

/-- and replace in anything else what Unicode recommends to replace. -/
theorem C90_substituted (s t : Bytes) : Utf8.lossy s = t ↔ Substituted s t := Utf8.lossy_iff s t

/-- The examples of the standard library, and of Unicode (table 3-8 and those before it). -/
example : Utf8.valid b!"💖 é ＰＯＳＴ" = true ∧ Utf8.valid [0x00, 0x9F, 0x92, 0x96] = false ∧
    Utf8.lossy (b!"Hello " ++ [0xF0, 0x90, 0x80] ++ b!"World") = b!"Hello \uFFFDWorld" ∧
    Utf8.lossy [0xC0, 0xAF, 0xE0, 0x80, 0xBF, 0xF0, 0x81, 0x82, 0x41] =
      b!"\uFFFD\uFFFD\uFFFD\uFFFD\uFFFD\uFFFD\uFFFD\uFFFDA" ∧
    Utf8.lossy [0xED, 0xA0, 0x80, 0xED, 0xBF, 0xBF, 0xED, 0xAF, 0x41] =
      b!"\uFFFD\uFFFD\uFFFD\uFFFD\uFFFD\uFFFD\uFFFD\uFFFDA" ∧
    Utf8.lossy [0xF4, 0x91, 0x92, 0x93, 0xFF, 0x41, 0x80, 0xBF, 0x42] =
      b!"\uFFFD\uFFFD\uFFFD\uFFFD\uFFFDA\uFFFD\uFFFDB" ∧
    Utf8.lossy [0xE1, 0x80, 0xE2, 0xF0, 0x91, 0x92, 0xF1, 0xBF, 0x41] =
      b!"\uFFFD\uFFFD\uFFFD\uFFFDA" := by decide +kernel

/-- A pair of bytes as the server reads it. -/
def asText (p : Bytes × Bytes) : Parameter := (Utf8.lossy p.1, Utf8.lossy p.2)

theorem headerParams_map {emptyOk : Bool} {dec f : Bytes → Bytes} {hs : List Bytes}
    {ps : List (Bytes × Bytes)} (h : HeaderParams emptyOk dec hs ps) :
    HeaderParams emptyOk (fun s => f (dec s)) hs (ps.map fun p => (f p.1, f p.2)) := by
  induction h with
  | none => exact .none
  | skip h _ ih => exact .skip h ih
  | empty => exact .empty
  | params h =>
    rw [List.map_map]
    exact .params h

theorem headerParams_unmap {emptyOk : Bool} {dec f : Bytes → Bytes} {hs : List Bytes}
    {ps : List (Bytes × Bytes)} (h : HeaderParams emptyOk (fun s => f (dec s)) hs ps) :
    ∃ rs, HeaderParams emptyOk dec hs rs ∧ ps = rs.map fun p => (f p.1, f p.2) := by
  induction h with
  | none => exact ⟨_, .none, rfl⟩
  | skip h _ ih =>
    obtain ⟨rs, h1, h2⟩ := ih
    exact ⟨rs, .skip h h1, h2⟩
  | empty => exact ⟨_, .empty, rfl⟩
  | params h => exact ⟨_, .params h, by rw [List.map_map]; rfl⟩

/-- C90: the parameters the server works with are the bytes of the request with everything that is not
UTF-8 replaced by U+FFFD. -/
theorem C90_received (L : Lib) (req : HttpRequest) (ps : List Parameter) :
    Received L req ps ↔ ∃ rs, ReceivedBytes L req rs ∧ ps = rs.map asText := by
  constructor
  · rintro ⟨form, header, h1, h2, rfl⟩
    obtain ⟨rs, h3, rfl⟩ := headerParams_unmap (dec := Spec.percentDecode) (f := Utf8.lossy) h2
    refine ⟨_, ⟨form, rs, h1, h3, rfl⟩, ?_⟩
    simp only [List.map_append]
    rfl
  · rintro ⟨rs, ⟨form, header, h1, h2, rfl⟩, rfl⟩
    refine ⟨form, _, h1, headerParams_map (f := Utf8.lossy) h2, ?_⟩
    simp only [List.map_append]
    rfl

theorem lossy_signature (s : Bytes) : Utf8.lossy s = b!"oauth_signature" ↔ s = b!"oauth_signature" := by
  constructor
  · intro h
    rw [← Utf8.lossy_eq (s := s) (by rw [h]; decide), h]
  · rintro rfl
    exact Utf8.lossy_text (by decide)

theorem unsigned_asText (rs : List (Bytes × Bytes)) :
    unsigned (rs.map asText) = (unsigned rs).map asText := by
  simp only [unsigned, List.filter_map]
  congr 1
  refine List.filter_congr fun p _ => ?_
  rw [Bool.eq_iff_iff, Function.comp_apply, bne_iff_ne, bne_iff_ne]
  exact not_congr (lossy_signature p.1)

theorem asText_eq {p : Bytes × Bytes} (h1 : ¬ HasReplacement (asText p).1)
    (h2 : ¬ HasReplacement (asText p).2) : asText p = p :=
  Prod.ext (Utf8.lossy_eq h1) (Utf8.lossy_eq h2)

/-- No name or value has a U+FFFD. -/
def NoReplacement (ps : List Parameter) : Prop :=
  ∀ p ∈ ps, ¬ HasReplacement p.1 ∧ ¬ HasReplacement p.2

theorem map_asText_eq {rs : List (Bytes × Bytes)} (h : NoReplacement (rs.map asText)) :
    rs.map asText = rs := by
  refine (List.map_congr_left fun p hp => ?_).trans (List.map_id _)
  have := h _ (List.mem_map_of_mem hp)
  exact asText_eq this.1 this.2

/-- C90, exactly: the text that is signed tells apart methods, paths and parameters (other than
signatures), but parameters only as texts. -/
theorem C90_iff (req req' : HttpRequest) (rs rs' : List (Bytes × Bytes)) :
    serverBase req (rs.map asText) = serverBase req' (rs'.map asText) ↔
      upper req.method = upper req'.method ∧ req.path = req'.path ∧
      ((unsigned rs).map asText).Perm ((unsigned rs').map asText) := by
  simp only [serverBase, unsigned_asText]
  constructor
  · intro h
    have h' := congrArg parseBase h
    simp only [parseBase_rawOrder, Option.some.injEq, Prod.mk.injEq] at h'
    obtain ⟨h1, h2, h3⟩ := h'
    refine ⟨encode_injective h1, List.append_cancel_left h2, ?_⟩
    exact (sortPairs_spec _).1.symm.trans (h3.symm ▸ (sortPairs_spec _).1)
  · rintro ⟨h1, h2, h3⟩
    simp only [rawOrderBase]
    rw [h1, h2, Server.sortPairs_perm h3]

/-- C90, the claim: requests that the server computes the same text for have the same parameters, byte
for byte. -/
def C90_claim : Prop :=
  ∀ (L : Lib) (req req' : HttpRequest) (rs rs' : List (Bytes × Bytes)),
    ReceivedBytes L req rs → ReceivedBytes L req' rs' →
    serverBase req (rs.map asText) = serverBase req' (rs'.map asText) →
    (unsigned rs).Perm (unsigned rs')

/-- C90, what holds of it: they have if one of the two shows no U+FFFD. -/
theorem C90_partial {req req' : HttpRequest} {rs rs' : List (Bytes × Bytes)}
    (h : serverBase req (rs.map asText) = serverBase req' (rs'.map asText))
    (hno : NoReplacement ((unsigned rs).map asText)) :
    (unsigned rs).Perm (unsigned rs') := by
  obtain ⟨-, -, h⟩ := (C90_iff _ _ _ _).mp h
  have hno' : NoReplacement ((unsigned rs').map asText) := fun p hp => hno p (h.mem_iff.mpr hp)
  rwa [map_asText_eq hno, map_asText_eq hno'] at h

/-- C90: in particular, what the server accepts is what a client signed byte for byte, if the client
signs no U+FFFD (compare C53). -/
theorem C90_accepted_was_signed {L : Lib} {cfg : Cfg} {now : Nat} {req : HttpRequest}
    {client : Credentials Bytes} {token : Option (Credentials Bytes)} {verifier : Option Bytes}
    {f : List Parameter → OAuthParams → Response} {resp : Response} {rs : List (Bytes × Bytes)}
    (hrec : ReceivedBytes L req rs) (hm : (b!"oauth_signature_method", b!"PLAINTEXT") ∉ rs)
    {history : List ClientRun} (hsafe : ∀ r ∈ history, r.Safe)
    (hno : ∀ r ∈ history, NoReplacement r.pairs)
    (hforge : ∀ sig, (b!"oauth_signature", sig) ∈ rs.map asText →
      L.base64Decode sig =
        some (hmac Sha1.hash (sharedKey client token) (serverBase req (rs.map asText))) →
      serverBase req (rs.map asText) ∈ history.map ClientRun.base)
    (h : Server.verifyAndThen L cfg (some now) req client token verifier f = .ok resp)
    (h400 : resp.status ≠ 400) (h401 : resp.status ≠ 401) :
    ∃ r ∈ history, SameRequest req rs r := by
  have hm' : (b!"oauth_signature_method", b!"PLAINTEXT") ∉ rs.map asText := by
    intro hmem
    obtain ⟨p, hp, he⟩ := List.mem_map.mp hmem
    have := asText_eq (p := p) (by rw [he]; unfold HasReplacement; decide)
      (by rw [he]; unfold HasReplacement; decide)
    rw [he] at this
    exact hm (this ▸ hp)
  obtain ⟨r, hr, h1, h2, h3⟩ := C53_accepted_was_signed ((C90_received _ _ _).mpr ⟨rs, hrec, rfl⟩) hm' hsafe
    hforge h h400 h401
  refine ⟨r, hr, h1, h2, ?_⟩
  rw [unsigned_asText] at h3
  rwa [map_asText_eq fun p hp => hno r hr p (h3.mem_iff.mp hp)] at h3

/-- A request with a U+FFFD in its query, signed by the example's client. -/
def signedReplacement : HttpRequest where
  method := b!"GET"
  path := b!"/echo"
  query := some b!"a=%EF%BF%BD"
  authorization := [b!"OAuth oauth_consumer_key=\"client\",oauth_nonce=\"n\",oauth_signature_method=\"HMAC-SHA1\",oauth_timestamp=\"1700000000\",oauth_token=\"token\",oauth_signature=\"SZIHlVh9CN2VfX8%2BOMuQZnuKMDs%3D\""]
  contentType := none
  body := some []

/-- Somebody puts another byte in its place, and keeps the signature. -/
def alteredReplacement : HttpRequest := { signedReplacement with query := some b!"a=%FF" }

/-- The pairs of the header. -/
def replacementHeader : List (Bytes × Bytes) :=
  [(b!"oauth_consumer_key", b!"client"), (b!"oauth_nonce", b!"n"),
   (b!"oauth_signature_method", b!"HMAC-SHA1"), (b!"oauth_timestamp", b!"1700000000"),
   (b!"oauth_token", b!"token"), (b!"oauth_signature", b!"SZIHlVh9CN2VfX8+OMuQZnuKMDs=")]

theorem replacement_received (q : Bytes) : ReceivedBytes (Server.exampleLib true)
    { signedReplacement with query := some q } (replacementHeader ++ urlencoded q) := by
  have h : (Server.collectAuthParams (Server.exampleLib true) signedReplacement.authorization).toOption =
      some (some replacementHeader) := by decide +kernel
  cases hc : Server.collectAuthParams (Server.exampleLib true) signedReplacement.authorization with
  | error e => rw [hc] at h; cases h
  | ok r =>
    rw [hc] at h
    cases h
    obtain ⟨rs, h1, h2⟩ := headerParams_unmap (dec := Spec.percentDecode) (f := Utf8.lossy)
      ((Server.collectAuthParams_iff _ _ _).mp hc)
    have hno : NoReplacement (rs.map asText) := by
      rw [show rs.map asText = replacementHeader from h2.symm]
      unfold NoReplacement HasReplacement
      decide +kernel
    have e : replacementHeader = rs := h2.trans (map_asText_eq hno)
    exact ⟨[], rs, rfl, h1, by rw [e]; rfl⟩

/-- C90 is false: a byte that is not UTF-8 has the signature of U+FFFD, -/
theorem C90_violated : ¬ C90_claim := by
  intro h
  have := h _ _ _ _ _ (replacement_received b!"a=%EF%BF%BD") (replacement_received b!"a=%FF")
    (by decide +kernel)
  revert this
  decide +kernel

/-- and both requests get the same answer of the server. -/
theorem C90_altered_accepted :
    (Server.service (Server.exampleLib true) ⟨true, true, .std⟩ (some 1700000000)
      signedReplacement).toOption.map (·.status) = some 200 ∧
    (Server.service (Server.exampleLib true) ⟨true, true, .std⟩ (some 1700000000)
      alteredReplacement).toOption = (Server.service (Server.exampleLib true) ⟨true, true, .std⟩
      (some 1700000000) signedReplacement).toOption := by
  decide +kernel

/-- The hypotheses of `C90_partial` are met by a request without U+FFFD, -/
example : (unsigned (replacementHeader ++ urlencoded b!"a=%C3%A9")).Perm
    (unsigned (urlencoded b!"a=%c3%a9" ++ replacementHeader)) :=
  C90_partial (req := signedReplacement) (req' := signedReplacement) (by decide +kernel)
    (by unfold NoReplacement HasReplacement; decide +kernel)

/-- and those of `C90_accepted_was_signed` by the request that was signed once. -/
example (f : List Parameter → OAuthParams → Response) (resp : Response)
    (h : Server.verifyAndThen (Server.exampleLib true) ⟨true, true, .std⟩ (some 1700000000) signedOnce
      Server.CLIENT (some Server.TOKEN) none f = .ok resp) (h400 : resp.status ≠ 400)
    (h401 : resp.status ≠ 401) :
    ∃ r ∈ [onceRun], SameRequest signedOnce signedOnceParams r := by
  obtain ⟨rs, h1, h2⟩ := (C90_received _ _ _).mp signedOnce_received
  have hno : NoReplacement (rs.map asText) := by
    rw [← h2]
    unfold NoReplacement HasReplacement
    decide +kernel
  rw [map_asText_eq hno] at h2
  subst h2
  refine C90_accepted_was_signed h1 (by decide) (by simpa using onceRun_safe) ?_ ?_ h h400 h401
  · intro r hr
    rw [List.mem_singleton] at hr
    subst hr
    unfold NoReplacement HasReplacement
    decide +kernel
  · intro _ _ _
    decide +kernel

end OAuth
