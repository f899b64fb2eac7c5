import Verif.Spec.Writer
import Verif.Proofs.Writers
import Verif.Properties.Signature

/-
C36: writing to a caller-supplied buffer.
-/

namespace OAuth

open Spec

variable {S : Type}

theorem writes_iff {W : Type} (wr : Writer W) (d d' : W) (cs : List Bytes) :
    Writes wr d cs d' ↔ wr.writeAll d cs = some d' := by
  constructor
  · intro h
    induction h with
    | done d => rfl
    | step h _ ih => simp only [Writer.writeAll, h, ih]
  · intro h
    induction cs generalizing d with
    | nil => simp only [Writer.writeAll, Option.some.injEq] at h; subst h; exact .done d
    | cons c cs ih =>
      simp only [Writer.writeAll] at h
      split at h
      · cases h
      · next d1 h1 => exact .step h1 (ih d1 h)

/-- The calls `F` on every writer and buffer behave like the call `ref` that returns a string: they issue
the same writes, whose concatenation is that string; they succeed exactly if all writes do; in every
other case they panic, and never with another message than the string version's or that of the failed
write. -/
def WritesAllOrPanics (ref : Except Panic (Bytes × World))
    (F : ∀ W, Writer W → W → Except Panic (W × World)) : Prop :=
  (∀ s w', ref = .ok (s, w') → ∃ writes : List Bytes, writes.flatten = s ∧
    ∀ W (wr : Writer W) (buf : W),
      (∀ buf' w'', F W wr buf = .ok (buf', w'') ↔ Writes wr buf writes buf' ∧ w'' = w') ∧
      ((¬ ∃ buf', Writes wr buf writes buf') → F W wr buf = .error .fmtUnwrap)) ∧
  (∀ p, ref = .error p → ∀ W (wr : Writer W) (buf : W),
    F W wr buf = .error p ∨ F W wr buf = .error .fmtUnwrap)

theorem scripted_writesAllOrPanics {F : ∀ W, Writer W → W → Except Panic (W × World)}
    {ref : Except Panic (Bytes × World)}
    (hF : Scripted (R := fun W => W × World) (fun _ w d => (d, w)) F)
    (href : ref = F Bytes stringWriter []) : WritesAllOrPanics ref F := by
  obtain ⟨⟨chunks, out⟩, hs⟩ := hF
  subst href
  simp only [Script.on] at hs
  constructor
  · intro s w' h
    rw [hs, stringWriter_writeAll] at h
    cases out with
    | error p => simp [Except.map] at h
    | ok w1 =>
      simp only [Except.map, Except.ok.injEq, Prod.mk.injEq, List.nil_append] at h
      obtain ⟨h1, rfl⟩ := h
      refine ⟨chunks, h1, fun W wr buf => ?_⟩
      simp only [hs, writes_iff]
      constructor
      · intro buf' w''
        cases wr.writeAll buf chunks with
        | none => simp [Except.map]
        | some d => simp [Except.map, eq_comm]
      · intro hn
        cases h : wr.writeAll buf chunks with
        | none => rfl
        | some d => exact absurd ⟨d, h⟩ hn
  · intro p h W wr buf
    rw [hs, stringWriter_writeAll] at h
    cases out with
    | ok w1 => simp [Except.map] at h
    | error q =>
      simp only [Except.map, Except.error.injEq] at h
      subst h
      rw [hs]
      cases wr.writeAll buf chunks with
      | none => exact .inr rfl
      | some d => exact .inl rfl

section
variable {cfg : Cfg} {sg : Sign S} {r : Request} {cs : List Call}

theorem scripted_from (hr : IsTrace r cs) (w : World)
    {start : ∀ W, Writer W → W → Except Panic (Authorizer S W)}
    (hs : Scripted Authorizer.fill start) :
    Scripted (R := fun W => W × World) (fun _ w d => (d, w))
      (fun W wr d => runFrom cfg wr sg (start W wr d) r w) := by
  refine Scripted.congr (Scripted.bind
    (G := fun W wr a => r.serialize (Authorizer.serializer cfg wr sg) a w) hs
    fun a => scripted_run cfg sg hr a w) ?_
  intro W wr d
  unfold runFrom
  cases start W wr d <;> rfl

end

/-- C36 for `authorize_with_buf` and `into_authorization_with_buf`. -/
theorem C36_header (cfg : Cfg) (b : Builder S) {r : Request} {cs : List Call} (hr : IsTrace r cs)
    (method : Bytes) (uri : Display) (w : World) :
    WritesAllOrPanics (b.authorize cfg method uri r w)
      (fun _ wr buf => b.authorizeWithBuf cfg wr buf method uri r w) ∧
    WritesAllOrPanics (b.authorize cfg method uri r w)
      (fun _ wr buf => b.intoAuthorizationWithBuf cfg wr buf method uri r w) := by
  have h := scripted_writesAllOrPanics (ref := b.authorize cfg method uri r w)
    (scripted_from (cfg := cfg) (sg := b.signatureMethod.sign) hr w
      (start := fun W wr buf => Authorizer.authorizationWithBuf cfg wr b.signatureMethod buf method uri
        (Builder.asRefStr b.client) (b.token.map Builder.asRefStr) b.options)
      (.bind (.write _) fun _ => .lift _ fun s =>
        .pure (fill := Authorizer.fill) (Authorizer.new_ (.authorization ()) s _ _ _))) rfl
  exact ⟨h, h⟩

/-- The shared case: an instance of "succeed" for the premise on the string version, `Case.header`. -/
example := (C36_header Case.cfg (Case.builder hmacSha1) Case.trace b!"GET" (.ofBytes Case.uri) Case.world).1.1
  _ _ Case.header.choose_spec.choose_spec

/-- C36 for `to_form_with_buf` and `into_form_with_buf`. -/
theorem C36_form (cfg : Cfg) (b : Builder S) {r : Request} {cs : List Call} (hr : IsTrace r cs)
    (method : Bytes) (uri : Display) (w : World) :
    WritesAllOrPanics (b.toForm cfg method uri r w)
      (fun _ wr buf => b.toFormWithBuf cfg wr buf method uri r w) ∧
    WritesAllOrPanics (b.toForm cfg method uri r w)
      (fun _ wr buf => b.intoFormWithBuf cfg wr buf method uri r w) := by
  have h := scripted_writesAllOrPanics (ref := b.toForm cfg method uri r w)
    (scripted_from (cfg := cfg) (sg := b.signatureMethod.sign) hr w
      (start := fun W _ buf => Authorizer.formWithBuf cfg b.signatureMethod buf method uri
        (Builder.asRefStr b.client) (b.token.map Builder.asRefStr) b.options)
      (.lift _ fun s => .pure (fill := Authorizer.fill)
        (Authorizer.new_ (.urlencode ⟨(), .none⟩) s _ _ _))) rfl
  exact ⟨h, h⟩

/-- The shared case. -/
example := (C36_form Case.cfg (Case.builder hmacSha1) Case.trace b!"POST" (.ofBytes Case.uri) Case.world).1.1
  _ _ Case.form.choose_spec.choose_spec

/-- C36 for `to_query` and `into_query`, whose URI is any writer that can be displayed: what is appended
to the URI is what the string version appends to a URI displayed alike. -/
theorem C36_query (cfg : Cfg) (b : Builder S) {r : Request} {cs : List Call} (hr : IsTrace r cs)
    (method : Bytes) (shown : Display) (w : World) :
    WritesAllOrPanics (b.toQuery cfg stringWriter (fun _ => shown) method [] r w)
      (fun _ wr uri => b.toQuery cfg wr (fun _ => shown) method uri r w) ∧
    (∀ {W : Type} (wr : Writer W) (display : W → Display) (uri : W), display uri = shown →
      b.toQuery cfg wr display method uri r w = b.toQuery cfg wr (fun _ => shown) method uri r w ∧
      b.intoQuery cfg wr display method uri r w = b.toQuery cfg wr (fun _ => shown) method uri r w) ∧
    (∀ uri out w', b.toQuery cfg stringWriter (fun _ => shown) method [] r w = .ok (out, w') →
      b.toQuery cfg stringWriter (fun _ => shown) method uri r w = .ok (uri ++ out, w')) := by
  have h := scripted_writesAllOrPanics
    (ref := b.toQuery cfg stringWriter (fun _ => shown) method [] r w)
    (scripted_from (cfg := cfg) (sg := b.signatureMethod.sign) hr w
      (start := fun W _ uri => Authorizer.query cfg (fun _ => shown) b.signatureMethod method uri
        (Builder.asRefStr b.client) (b.token.map Builder.asRefStr) b.options)
      (.lift _ fun s => .pure (fill := Authorizer.fill)
        (Authorizer.new_ (.urlencode ⟨(), .question⟩) s _ _ _))) rfl
  refine ⟨h, ?_, ?_⟩
  · rintro W wr display uri rfl
    exact ⟨rfl, rfl⟩
  · intro uri out w' ho
    obtain ⟨writes, hw, hF⟩ := h.1 out w' ho
    refine ((hF Bytes stringWriter uri).1 (uri ++ out) w').mpr ⟨?_, rfl⟩
    rw [writes_iff, stringWriter_writeAll, hw]

/-- The shared case. -/
example : ∃ out w', (Case.builder hmacSha1).toQuery Case.cfg stringWriter (fun _ => .ofBytes Case.uri) b!"GET"
      [] Case.request Case.world = .ok (out, w') ∧
    (Case.builder hmacSha1).toQuery Case.cfg stringWriter (fun _ => .ofBytes Case.uri) b!"GET" Case.uri
      Case.request Case.world = .ok (Case.uri ++ out, w') := by
  obtain ⟨out, w', h⟩ : ∃ out w', (Case.builder hmacSha1).toQuery Case.cfg stringWriter
    (fun _ => .ofBytes Case.uri) b!"GET" [] Case.request Case.world = .ok (out, w') :=
    Case.ok_of_isSome (by decide +kernel)
  exact ⟨out, w', h, (C36_query Case.cfg (Case.builder hmacSha1) Case.trace b!"GET" _ Case.world).2.2
    _ _ _ h⟩

/-- C36 for the public `Urlencoder` on a buffer (`form_with_buf`) against the free function `to_form`. -/
theorem C36_urlencoder {r : Request} {cs : List Call} (hr : IsTrace r cs) (w : World) :
    WritesAllOrPanics (Free.toForm r w)
      (fun _ wr buf => r.serialize (Urlencoder.serializer wr) (Urlencoder.formWithBuf buf) w) := by
  have step : ∀ (c : Call) (n : Append) (w : World),
      Scripted (R := fun W => Urlencoder W × World) (fun W (x : Append × World) d => (Urlencoder.fill W x.1 d, x.2))
        (fun W wr d => c.run (Urlencoder.serializer wr) (Urlencoder.fill W n d) w) := by
    intro c n w
    cases c with
    | parameter k v =>
      refine Scripted.congr (Scripted.map (g := fun W x => (x, w)) (scripted_encoderParameter n k v)
        (fun a => (a, w)) fun _ _ _ => rfl) ?_
      intro W wr d
      show (liftM _ : M _) w = _
      rw [liftM_apply]; rfl
    | parameterEncoded k v =>
      refine Scripted.congr (Scripted.map (g := fun W x => (x, w))
        (scripted_encoderParameterEncoded n k v) (fun a => (a, w)) fun _ _ _ => rfl) ?_
      intro W wr d
      show (liftM _ : M _) w = _
      rw [liftM_apply]; rfl
    | oauth p =>
      cases p <;>
      exact Scripted.pure (fill := fun W (x : Append × World) d => (Urlencoder.fill W x.1 d, x.2))
        (n, w)
  have run : ∀ (cs : List Call) (n : Append) (w : World),
      Scripted (R := fun W => W × World) (fun _ w d => (d, w)) (fun W wr d =>
        (runCalls (Urlencoder.serializer wr) cs (Urlencoder.fill W n d) >>=
          (Urlencoder.serializer wr).end) w) := by
    intro cs
    induction cs with
    | nil => intro n w; exact .pure (fill := fun _ w d => (d, w)) w
    | cons c cs ih =>
      intro n w
      refine Scripted.congr (Scripted.bind
        (G := fun W wr x => (runCalls (Urlencoder.serializer wr) cs x.1 >>=
          (Urlencoder.serializer wr).end) x.2) (step c n w) fun x => ih x.1 x.2) ?_
      intro W wr d
      simp only [runCalls, bind_assoc]
      rfl
  refine scripted_writesAllOrPanics (Scripted.congr (run cs .none w) ?_) rfl
  intro W wr d
  rw [hr]
  rfl

/-- A buffer of limited size, as the ones of `arrayvec` or `heapless`: it refuses what does not fit. -/
def boundedWriter (cap : Nat) : Writer Bytes :=
  ⟨fun w s => if w.length + s.length ≤ cap then some (w ++ s) else none⟩

/-- A concrete request: it fits into 200 bytes, and panics with 100. -/
example :
    let b := Builder.new (.new b!"k" b!"s") plaintext |>.setNonce (some b!"n")
    let go := fun n => b.authorizeWithBuf ⟨true, true, .std⟩ (boundedWriter n) [] b!"GET"
      (.ofBytes b!"http://a/") (requestOf (weave allProto examplePairs)) World.example
    ((go 200).toOption.map (·.1) = (b.authorize ⟨true, true, .std⟩ b!"GET"
      (.ofBytes b!"http://a/") (requestOf (weave allProto examplePairs)) World.example).toOption.map (·.1) ∧
    (go 200).toOption.isSome = true ∧ (go 100).toOption.isNone = true) ∧
    IsTrace (requestOf (weave allProto examplePairs)) (weave allProto examplePairs) := by
  refine ⟨?_, isTrace_requestOf _⟩
  decide +kernel

end OAuth
