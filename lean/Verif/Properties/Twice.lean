import Verif.Properties.RfcDerived

/-
C02 from the public interface on: the values in the signature base string.
-/

namespace OAuth

open Spec Derive

/-- A user-defined signature method: the signature is the signature base string itself. -/
def echo : SignatureMethod Bytes where
  sign :=
    { name := fun _ => b!"ECHO"
      requestMethod := fun s m => .ok (s ++ m ++ b!"&")
      uri := fun s u => if u.outcome = .ok then .ok (s ++ u.text ++ b!"&") else .error .fmtUnwrap
      parameter := fun s k v =>
        if v.outcome = .ok then .ok (s ++ k ++ b!"%3D" ++ v.text) else .error .fmtUnwrap
      delimiter := fun s => .ok (s ++ b!"%26")
      «end» := fun s => .ok (.ofBytes s) }
  signWith _ _ := .ok []

theorem signs_echo (cs : Bytes) (ts : Option Bytes) : Signs echo cs ts b!"ECHO" true true id where
  const := ⟨fun _ => rfl, fun _ => rfl, fun _ => rfl⟩
  safe := by decide
  run := ⟨fun s t => s ++ t, [], {
      nil := fun s => List.append_nil s
      append := fun s a b => List.append_assoc s a b
      call := fun c s hc => by
        have hof : ∀ b : Bytes, (Display.ofBytes b).outcome = .ok := fun _ => rfl
        cases c <;> simp only [SignCall.outcome] at hc <;>
          simp [SignCall.run, SignCall.render, echo, hc, Display.text_ofBytes] }, rfl,
    fun m => ⟨.ofBytes m, rfl, rfl, Display.text_ofBytes m⟩⟩

/-- The calls of a parameter list: the protocol parameters and the pairs. -/
theorem weave_perm : ∀ (ps : List Proto) (l : List Pair),
    (weave ps l).Perm (ps.map .oauth ++ l.map fun kv => .parameter kv.1 kv.2)
  | ps, [] => by simp [weave]
  | ps, (k, v) :: rest => by
    have ih := weave_perm (ps.dropWhile (fun p => cmpBytes p.name k == .lt)) rest
    have e : ps.map Call.oauth = (ps.takeWhile (fun p => cmpBytes p.name k == .lt)).map Call.oauth ++
        (ps.dropWhile (fun p => cmpBytes p.name k == .lt)).map Call.oauth := by
      rw [← List.map_append, List.takeWhile_append_dropWhile]
    rw [weave, e, List.append_assoc]
    refine List.Perm.append_left _ ?_
    refine (List.Perm.cons _ ih).trans ?_
    rw [List.map_cons]
    exact List.perm_middle.symm

/-- C02: in the base string that a signature method is fed for a parameter list, there is every value
supplied, and every protocol parameter that is sent, percent-encoded twice, under its name; and nothing
else. (`echo` puts the base string into the header.) -/
theorem C02_parameter_list {cfg : Cfg} {b : Builder Bytes} (hb : b.signatureMethod = echo)
    {supplied current : List Pair} (hbuilt : Built supplied current) (hok : AllOk supplied)
    {method : Bytes} {uri : Display} (huri : uri.outcome = .ok) {w w' : World} {out : Bytes}
    (h : b.authorize cfg method uri (ParameterList.request cfg current) w = .ok (out, w')) :
    ∃ ps : List (Bytes × Bytes),
      ps.Perm ((b.params cfg b!"ECHO" w).map (fun p => (p.1, encode (encode p.2))) ++
        supplied.map fun kv => (kv.1, encode (encode kv.2.text))) ∧
      out = headerText ((b.params cfg b!"ECHO" w).map fun p => (p.1, encode p.2))
        (method ++ b!"&" ++ encode uri.text ++ b!"&" ++
          join b!"%26" (ps.map fun p => p.1 ++ b!"%3D" ++ p.2)) := by
  have hok' : AllOk current := fun x hx => hok x ((C19_always_sorted hbuilt).1.mem_iff.mp hx)
  have hs : b.Signs b!"ECHO" true true id := by
    rw [Builder.Signs, hb]
    exact signs_echo _ _
  have hout := (signs_output hs (isTrace_parameterList cfg current) (standard_weave current)
    (weave_ok hok') method w w' out).1 uri huri h
  refine ⟨_, ?_, hout⟩
  refine ((weave_perm allProto current).filterMap _).trans ?_
  rw [List.filterMap_append]
  refine List.Perm.append ?_ ?_
  · apply List.Perm.of_eq
    unfold Builder.params Env.protocolParams
    rw [List.filterMap_map, List.map_filterMap]
    congr 1
    funext p
    simp only [Function.comp_def, Call.signed?]
    cases (b.env b!"ECHO" true true).value w.nonce (w.time cfg) p <;> rfl
  · rw [List.filterMap_map]
    have : (current.filterMap (Call.signed? (b.env b!"ECHO" true true) w.nonce (w.time cfg) ∘
        fun kv => .parameter kv.1 kv.2)) =
        current.map fun kv => (kv.1, encode (encode kv.2.text)) := by
      rw [← List.filterMap_eq_map]
      rfl
    rw [this]
    exact (C19_always_sorted hbuilt).1.map _

/-- The shared case. -/
example : ∃ out w', (Case.builder echo).authorize Case.cfg b!"GET" (.ofBytes Case.uri) Case.request
      Case.world = .ok (out, w') ∧
    ∃ ps : List (Bytes × Bytes), (b!"p", b!"%2526%253D%252B") ∈ ps ∧
      ∃ sent, out = headerText sent (b!"GET&" ++ encode Case.uri ++ b!"&" ++
        join b!"%26" (ps.map fun p => p.1 ++ b!"%3D" ++ p.2)) := by
  obtain ⟨out, w', h⟩ : ∃ out w', (Case.builder echo).authorize Case.cfg b!"GET" (.ofBytes Case.uri)
    Case.request Case.world = .ok (out, w') := Case.ok_of_isSome (by decide +kernel)
  obtain ⟨ps, h1, h2⟩ := C02_parameter_list rfl Case.built Case.ok rfl h
  exact ⟨out, w', h, ps, h1.mem_iff.mpr (by decide +kernel), _, h2⟩

/-- C02 for a derived request: of a field that is sent, the text is in the base string, percent-encoded
twice; once, if it is marked `encoded`, because then the text is an encoding already. -/
theorem C02_derived {τ : Type} {cfg : Cfg} {Y : Syn τ} (hY : Lawful Y)
    {lookup : CrateLookup} {isIdent : Bytes → Bool} {attrs : List (Attribute τ)}
    {fs : List (SynField τ)} {i : Import} {body : List Stmt}
    (hx : expand cfg Y lookup isIdent ⟨attrs, some fs⟩ = .ok (.impl i body))
    {V : Type} {sc : Scope V} {self : Bytes → V}
    (hsent : ∀ f ∈ fs, ∀ g, Describes Y f g → ∀ c, SentAs sc g (self g.ident) c → c.ok)
    {b : Builder Bytes} (hb : b.signatureMethod = echo) {method : Bytes} {uri : Display}
    (huri : uri.outcome = .ok) {w w' : World} {out : Bytes}
    (h : b.authorize cfg method uri (Derive.request sc self body) w = .ok (out, w')) :
    ∃ ps : List (Bytes × Bytes),
      out = headerText ((b.params cfg b!"ECHO" w).map fun p => (p.1, encode p.2))
        (method ++ b!"&" ++ encode uri.text ++ b!"&" ++
          join b!"%26" (ps.map fun p => p.1 ++ b!"%3D" ++ p.2)) ∧
      ∀ n v, (n, v) ∈ ps ↔
        (∃ t, (n, t) ∈ b.params cfg b!"ECHO" w ∧ v = encode (encode t)) ∨
        ∃ f ∈ fs, ∃ g, Describes Y f g ∧ ∃ d : Display,
          (SentAs sc g (self g.ident) (.parameter n d) ∧ v = encode (encode d.text)) ∨
          (SentAs sc g (self g.ident) (.parameterEncoded n d) ∧ v = encode d.text) := by
  obtain ⟨cs, htr, -, h1, -, h2⟩ := C22_fields cfg hY lookup isIdent attrs fs i body hx sc self
  obtain ⟨cs', -, htr', -, hstd, -, -⟩ :=
    C21_as_assert_sorted cfg hY lookup isIdent attrs fs i body hx sc self
  obtain rfl := isTrace_unique htr htr'
  have hcs : ∀ c ∈ cs, c.ok := by
    intro c hc
    cases hreq : c.isRequest with
    | false =>
      cases c with
      | oauth p => intro v hv; cases hv
      | _ => cases hreq
    | true =>
      obtain ⟨f, hf', g, hg, hs⟩ := h2 c hc hreq
      exact hsent f hf' g hg c hs
  have hs : b.Signs b!"ECHO" true true id := by
    rw [Builder.Signs, hb]
    exact signs_echo _ _
  have hout := (signs_output hs htr hstd hcs method w w' out).1 uri huri h
  have hmem : ∀ f ∈ fs, ∀ g, Describes Y f g → ∀ c, SentAs sc g (self g.ident) c → c ∈ cs := by
    intro f hf g hg c hc
    have hm : c ∈ cs.filter (fun c => c.isRequest && c.key == parameterName g) := by
      rw [h1 f hf g hg c hc]; simp
    exact (List.mem_filter.mp hm).1
  refine ⟨_, hout, fun n v => ?_⟩
  rw [List.mem_filterMap]
  constructor
  · rintro ⟨c, hc, hv⟩
    cases c with
    | oauth p =>
      obtain ⟨t, ht, e⟩ := Option.map_eq_some_iff.mp hv
      cases e
      refine .inl ⟨t, List.mem_filterMap.mpr ⟨p, (by cases p <;> decide : p ∈ allProto), ?_⟩, rfl⟩
      rw [ht]; rfl
    | parameter k d =>
      cases hv
      obtain ⟨f, hf, g, hg, hs⟩ := h2 _ hc rfl
      exact .inr ⟨f, hf, g, hg, d, .inl ⟨hs, rfl⟩⟩
    | parameterEncoded k d =>
      cases hv
      obtain ⟨f, hf, g, hg, hs⟩ := h2 _ hc rfl
      exact .inr ⟨f, hf, g, hg, d, .inr ⟨hs, rfl⟩⟩
  · rintro (⟨t, ht, rfl⟩ | ⟨f, hf, g, hg, d, ⟨hs, rfl⟩ | ⟨hs, rfl⟩⟩)
    · obtain ⟨p, -, hp⟩ := List.mem_filterMap.mp ht
      obtain ⟨t', ht', e⟩ := Option.map_eq_some_iff.mp hp
      cases e
      refine ⟨.oauth p, ?_, ?_⟩
      · have : p ∈ cs.filterMap Call.proto? := by rw [hstd]; exact (by cases p <;> decide : p ∈ allProto)
        obtain ⟨c, hc, hcp⟩ := List.mem_filterMap.mp this
        cases c <;> cases hcp
        exact hc
      · simp only [Call.signed?, ht', Option.map_some]
    · exact ⟨_, hmem f hf g hg _ hs, rfl⟩
    · exact ⟨_, hmem f hf g hg _ hs, rfl⟩

/-- The base string of two pairs, from the header. -/
example : ((⟨echo, .new b!"k" b!"s", none, .new⟩ : Builder Bytes).setNonce (some b!"n")
      |>.setTimestamp (some ⟨1, by decide, by decide⟩) |>.authorize ⟨true, true, .std⟩ b!"GET" (.ofBytes b!"http://a/")
      (ParameterList.request ⟨true, true, .std⟩ [(b!"a", .ofBytes b!"1 2"), (b!"q", .ofBytes b!"%")])
      World.example).toOption.map (·.1) =
    some (b!"OAuth oauth_consumer_key=\"k\",oauth_nonce=\"n\",oauth_signature_method=\"ECHO\"," ++
      b!"oauth_timestamp=\"1\",oauth_signature=\"GET&http%3A%2F%2Fa%2F&a%3D1%25202%26" ++
      b!"oauth_consumer_key%3Dk%26oauth_nonce%3Dn%26oauth_signature_method%3DECHO%26" ++
      b!"oauth_timestamp%3D1%26q%3D%2525\"") := by
  decide +kernel

end OAuth
