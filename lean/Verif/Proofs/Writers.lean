import Verif.Proofs.Worlds

/-
Authorizing into any writer: the writes issued do not depend on the writer, and a failed write ends the
call.
-/

namespace OAuth

open Spec

/-- Writes to issue one by one, and the result once they have all succeeded. -/
structure Script (α : Type) where
  chunks : List Bytes
  out : Except Panic α

/-- Carrying out a script on a writer. -/
def Script.on {α W : Type} (s : Script α) (wr : Writer W) (d : W) : Except Panic (α × W) :=
  match wr.writeAll d s.chunks with
  | none => .error .fmtUnwrap
  | some d' => s.out.map fun a => (a, d')

theorem writeAll_append {W : Type} (wr : Writer W) (d : W) (xs ys : List Bytes) :
    wr.writeAll d (xs ++ ys) = (wr.writeAll d xs).bind fun d' => wr.writeAll d' ys := by
  induction xs generalizing d with
  | nil => rfl
  | cons x xs ih =>
    simp only [List.cons_append, Writer.writeAll]
    cases wr.writeStr d x with
    | none => rfl
    | some d' => exact ih d'

/-- A computation that uses the writer as a script does. The result consists of a part that does not
depend on the writer and of the writer's state, put together by `fill`. -/
def Scripted {α : Type} {R : Type → Type} (fill : ∀ W, α → W → R W)
    (F : ∀ W, Writer W → W → Except Panic (R W)) : Prop :=
  ∃ s : Script α, ∀ W wr d, F W wr d = (s.on wr d).map fun x => fill W x.1 x.2

section
variable {α β : Type} {R Q : Type → Type} {fill : ∀ W, α → W → R W} {fill' : ∀ W, β → W → Q W}

theorem Scripted.pure (a : α) : Scripted fill (fun W _ d => .ok (fill W a d)) :=
  ⟨⟨[], .ok a⟩, fun _ _ _ => rfl⟩

theorem Scripted.error (p : Panic) : Scripted fill (fun _ _ _ => .error p) :=
  ⟨⟨[], .error p⟩, fun _ _ _ => rfl⟩

theorem Scripted.write (v : Display) :
    Scripted (R := fun W => W) (fun _ (_ : Unit) d => d) (fun _ wr d => wr.writeUnwrap d v) := by
  refine ⟨⟨v.chunks, v.outcome.check ()⟩, fun W wr d => ?_⟩
  simp only [Writer.writeUnwrap, Script.on, Outcome.check]
  cases wr.writeAll d v.chunks with
  | none => rfl
  | some d' => cases v.outcome <;> rfl

theorem Scripted.bind {F : ∀ W, Writer W → W → Except Panic (R W)}
    {G : ∀ W, Writer W → R W → Except Panic (Q W)} (hF : Scripted fill F)
    (hG : ∀ a, Scripted fill' (fun W wr d => G W wr (fill W a d))) :
    Scripted fill' (fun W wr d => F W wr d >>= G W wr) := by
  obtain ⟨s, hs⟩ := hF
  cases ho : s.out with
  | error p =>
    refine ⟨⟨s.chunks, .error p⟩, fun W wr d => ?_⟩
    simp only [hs, Script.on, ho]
    cases wr.writeAll d s.chunks <;> rfl
  | ok a =>
    obtain ⟨t, ht⟩ := hG a
    refine ⟨⟨s.chunks ++ t.chunks, t.out⟩, fun W wr d => ?_⟩
    simp only [hs, Script.on, ho, writeAll_append]
    cases wr.writeAll d s.chunks with
    | none => rfl
    | some d' => exact ht W wr d'

/-- A step that does not touch the writer. -/
theorem Scripted.lift {γ : Type} (x : Except Panic γ)
    {G : ∀ W, Writer W → W → γ → Except Panic (Q W)}
    (hG : ∀ c, Scripted fill' (fun W wr d => G W wr d c)) :
    Scripted fill' (fun W wr d => x >>= G W wr d) := by
  cases x with
  | error p => exact .error p
  | ok c => exact hG c

theorem Scripted.congr {F G : ∀ W, Writer W → W → Except Panic (R W)} (h : Scripted fill F)
    (he : ∀ W wr d, G W wr d = F W wr d) : Scripted fill G := by
  obtain ⟨s, hs⟩ := h
  exact ⟨s, fun W wr d => (he W wr d).trans (hs W wr d)⟩

theorem Scripted.map {F : ∀ W, Writer W → W → Except Panic (R W)} {g : ∀ W, R W → Q W}
    (hF : Scripted fill F) (k : α → β) (hk : ∀ W a d, g W (fill W a d) = fill' W (k a) d) :
    Scripted fill' (fun W wr d => g W <$> F W wr d) := by
  obtain ⟨s, hs⟩ := hF
  refine ⟨⟨s.chunks, s.out.map k⟩, fun W wr d => ?_⟩
  simp only [hs, Script.on]
  cases wr.writeAll d s.chunks with
  | none => rfl
  | some d' => cases s.out with
    | error p => rfl
    | ok a => simp [Except.map, Functor.map, hk]

end

/-! ### The operations of the serializers -/

variable {S : Type}

/-- The writer's state put into an encoder. -/
def Urlencoder.fill (W : Type) (n : Append) (d : W) : Urlencoder W := ⟨d, n⟩

/-- The writer's state put into the data of an authorizer. -/
def Data.fill (W : Type) : Data Unit → W → Data W
  | .authorization _, d => .authorization d
  | .urlencode e, d => .urlencode ⟨d, e.nextAppend⟩

/-- The writer's state put into an authorizer. -/
def Authorizer.fill (W : Type) (a : Authorizer S Unit) (d : W) : Authorizer S W where
  consumerKey := a.consumerKey
  token := a.token
  options := a.options
  data := a.data.fill W d
  sign := a.sign
  appendDelimToSign := a.appendDelimToSign
  prevKey := a.prevKey

theorem scripted_appendDelim (n : Append) :
    Scripted Urlencoder.fill (fun W wr d => (Urlencoder.fill W n d).appendDelim wr) := by
  cases n with
  | none => exact .pure (fill := Urlencoder.fill) .ampersand
  | question =>
    exact .bind (.write (.ofBytes b!"?")) fun _ => .pure (fill := Urlencoder.fill) .ampersand
  | ampersand =>
    exact .bind (.write (.ofBytes b!"&")) fun _ => .pure (fill := Urlencoder.fill) .ampersand

theorem scripted_encoderParameter (n : Append) (k : Bytes) (v : Display) :
    Scripted Urlencoder.fill (fun W wr d => (Urlencoder.fill W n d).parameter wr k v) :=
  .bind (scripted_appendDelim n) fun m =>
    .bind (.write _) fun _ => .pure (fill := Urlencoder.fill) m

theorem scripted_encoderParameterEncoded (n : Append) (k : Bytes) (v : Display) :
    Scripted Urlencoder.fill (fun W wr d => (Urlencoder.fill W n d).parameterEncoded wr k v) :=
  .bind (scripted_appendDelim n) fun m =>
    .bind (.write _) fun _ => .pure (fill := Urlencoder.fill) m

theorem scripted_appendData (data : Data Unit) (k : Bytes) (v : Display) :
    Scripted Data.fill (fun W wr d => Authorizer.appendData wr (data.fill W d) k v) := by
  cases data with
  | authorization u =>
    exact Scripted.map (g := fun _ => Data.authorization) (.write _) (fun _ => .authorization ())
      fun _ _ _ => rfl
  | urlencode e =>
    exact Scripted.map (g := fun _ => Data.urlencode)
      (scripted_encoderParameterEncoded e.nextAppend k v) (fun n => .urlencode ⟨(), n⟩)
      fun _ _ _ => rfl

theorem checkOrder_fill (cfg : Cfg) (a : Authorizer S Unit) (k : Bytes) (W : Type) (d : W) :
    (a.fill W d).checkDictionaryOrder cfg k =
      (a.checkDictionaryOrder cfg k).map fun a => a.fill W d := by
  simp only [Authorizer.checkDictionaryOrder, Authorizer.fill]
  split
  · by_cases h : bytesLe a.prevKey k = true
    · simp only [h, if_true]; rfl
    · simp only [h]; rfl
  · rfl

theorem scripted_checkOrder (cfg : Cfg) (a : Authorizer S Unit) (k : Bytes) :
    Scripted Authorizer.fill (fun W _ d => (a.fill W d).checkDictionaryOrder cfg k) := by
  refine Scripted.congr (F := fun W _ d => (a.checkDictionaryOrder cfg k).map fun a => a.fill W d) ?_
    (fun W _ d => checkOrder_fill cfg a k W d)
  cases a.checkDictionaryOrder cfg k with
  | error p => exact .error p
  | ok a' => exact .pure a'

theorem scripted_signDelimiter (sg : Sign S) (a : Authorizer S Unit) :
    Scripted Authorizer.fill (fun W _ d => (a.fill W d).signDelimiter sg) := by
  unfold Authorizer.signDelimiter
  cases h : a.appendDelimToSign with
  | false =>
    refine Scripted.congr (.pure (fill := Authorizer.fill) { a with appendDelimToSign := true }) ?_
    intro W wr d
    simp only [Authorizer.fill, h]
    rfl
  | true =>
    refine Scripted.congr (F := fun W _ d => sg.delimiter a.sign >>= fun s =>
      .ok (Authorizer.fill W { a with sign := s } d)) (.lift _ fun s => .pure _) ?_
    intro W wr d
    simp only [Authorizer.fill, h]
    rfl

theorem scripted_append (cfg : Cfg) (sg : Sign S) (a : Authorizer S Unit) (k : Bytes) (v : Display) :
    Scripted Authorizer.fill (fun W wr d => (a.fill W d).appendToHeaderEncoded cfg wr sg k v) :=
  .bind (scripted_checkOrder cfg a k) fun a =>
    Scripted.bind (G := fun W _ data => Authorizer.signDelimiter sg
        ({ consumerKey := a.consumerKey, token := a.token, options := a.options, data := data,
           sign := a.sign, appendDelimToSign := a.appendDelimToSign, prevKey := a.prevKey } :
          Authorizer S W))
      (scripted_appendData a.data k v) fun data =>
      scripted_signDelimiter sg { a with data := data }

theorem scripted_feed (a : Authorizer S Unit) (feed : S → Except Panic S) :
    Scripted Authorizer.fill (fun W _ d => do
      let s ← feed (a.fill W d).sign
      .ok { a.fill W d with sign := s }) :=
  .lift (feed a.sign) fun s => .pure (fill := Authorizer.fill) { a with sign := s }

theorem scripted_appendInner (cfg : Cfg) (sg : Sign S) (a : Authorizer S Unit) (k : Bytes)
    (v : Display) (feed : S → Except Panic S) :
    Scripted Authorizer.fill (fun W wr d => (a.fill W d).appendInner cfg wr sg k v feed) :=
  .bind (scripted_append cfg sg a k v) fun a => scripted_feed a feed

theorem scripted_parameter (cfg : Cfg) (sg : Sign S) (a : Authorizer S Unit) (k : Bytes)
    (v : Display) :
    Scripted Authorizer.fill (fun W _ d => (a.fill W d).parameter cfg sg k v) :=
  .bind (scripted_checkOrder cfg a k) fun a =>
    .bind (scripted_signDelimiter sg a) fun a => scripted_feed a (sg.parameter · k _)

theorem scripted_parameterEncoded (cfg : Cfg) (sg : Sign S) (a : Authorizer S Unit) (k : Bytes)
    (v : Display) :
    Scripted Authorizer.fill (fun W _ d => (a.fill W d).parameterEncoded cfg sg k v) :=
  .bind (scripted_checkOrder cfg a k) fun a =>
    .bind (scripted_signDelimiter sg a) fun a => scripted_feed a (sg.parameter · k _)

/-- States with the world. -/
abbrev fillM {W : Type} (x : Authorizer S Unit × World) (d : W) : Authorizer S W × World :=
  (x.1.fill W d, x.2)

/-- A step that does not look at the world. -/
theorem Scripted.liftWorld {F : ∀ W, Writer W → W → Except Panic (Authorizer S W)}
    (h : Scripted Authorizer.fill F) (w : World) :
    Scripted (fun _ => fillM) (fun W wr d => (liftM (F W wr d) : M (Authorizer S W)) w) := by
  refine Scripted.congr (Scripted.map (g := fun W x => (x, w)) h (fun a => (a, w)) fun _ _ _ => rfl) ?_
  intro W wr d
  rw [liftM_apply]; rfl

theorem scripted_nonce (cfg : Cfg) (sg : Sign S) (a : Authorizer S Unit) (w : World) :
    Scripted (fun _ => fillM)
      (fun W wr d => Call.run (Authorizer.serializer cfg wr sg) (.oauth .nonce) (a.fill W d) w) := by
  simp only [Call.run, Authorizer.serializer, Authorizer.nonce]
  show Scripted (fun _ => fillM) (fun W wr d => (if sg.useNonce a.sign = true then _ else _ : M _) w)
  cases hu : sg.useNonce a.sign with
  | false => exact .pure (fill := fun _ => fillM) (a, w)
  | true =>
    simp only [if_true]
    cases hn : a.options.nonce with
    | some n =>
      refine Scripted.congr ((scripted_appendInner cfg sg a b!"oauth_nonce" (percentEncodeStr n)
        (sg.nonce · (doublePercentEncode cfg (.ofBytes n)))).liftWorld w) fun W wr d => ?_
      simp only [Authorizer.fill, hn]
    | none =>
      cases hg : Authorizer.genNonce ((List.range 9).map fun i => w.rng (w.rngPos + i)) with
      | error p =>
        refine Scripted.congr (.error p) fun W wr d => ?_
        simp only [Authorizer.fill, hn, bind, StateT.bind, Except.bind, fillBytes, hg]
        rfl
      | ok n =>
        refine Scripted.congr ((scripted_appendInner cfg sg a b!"oauth_nonce" (.ofBytes n)
          (sg.nonce · (.ofBytes n))).liftWorld { w with rngPos := w.rngPos + 9 }) fun W wr d => ?_
        simp only [Authorizer.fill, hn, bind, StateT.bind, Except.bind, fillBytes, hg]
        rfl

theorem scripted_timestamp (cfg : Cfg) (sg : Sign S) (a : Authorizer S Unit) (w : World) :
    Scripted (fun _ => fillM)
      (fun W wr d => Call.run (Authorizer.serializer cfg wr sg) (.oauth .timestamp) (a.fill W d) w) := by
  simp only [Call.run, Authorizer.serializer, Authorizer.timestamp]
  show Scripted (fun _ => fillM) (fun W wr d => (if sg.useTimestamp a.sign = true then _ else _ : M _) w)
  cases hu : sg.useTimestamp a.sign with
  | false => exact .pure (fill := fun _ => fillM) (a, w)
  | true =>
    simp only [if_true]
    have key : ∀ (x : M Nat), Scripted (fun _ => fillM) (fun W wr d => (do
        let t ← x
        liftM ((a.fill W d).appendInner cfg wr sg b!"oauth_timestamp" (.ofBytes (decimal t))
          (sg.timestamp · t)) : M (Authorizer S W)) w) := by
      intro x
      cases hx : x w with
      | error p =>
        refine Scripted.congr (.error p) fun W wr d => ?_
        simp only [bind, StateT.bind, Except.bind, hx]
      | ok tw =>
        obtain ⟨t, w'⟩ := tw
        refine Scripted.congr ((scripted_appendInner cfg sg a b!"oauth_timestamp"
          (.ofBytes (decimal t)) (sg.timestamp · t)).liftWorld w') fun W wr d => ?_
        simp only [bind, StateT.bind, Except.bind, hx]
    cases hn : a.options.timestamp with
    | some t =>
      refine Scripted.congr (key (pure t.val)) fun W wr d => ?_
      simp only [Authorizer.fill, hn]
    | none =>
      refine Scripted.congr (key (Authorizer.getCurrentTimestamp cfg)) fun W wr d => ?_
      simp only [Authorizer.fill, hn]

theorem scripted_call (cfg : Cfg) (sg : Sign S) (c : Call) (a : Authorizer S Unit) (w : World) :
    Scripted (fun _ => fillM)
      (fun W wr d => c.run (Authorizer.serializer cfg wr sg) (a.fill W d) w) := by
  cases c with
  | parameter k v => exact (scripted_parameter cfg sg a k v).liftWorld w
  | parameterEncoded k v => exact (scripted_parameterEncoded cfg sg a k v).liftWorld w
  | oauth p =>
    cases p with
    | callback =>
      refine Scripted.liftWorld (F := fun W wr d => (a.fill W d).callback cfg wr sg) ?_ w
      simp only [Authorizer.callback, Authorizer.fill]
      cases a.options.callback with
      | none => exact .pure a
      | some v => exact scripted_appendInner cfg sg a _ _ _
    | consumerKey =>
      exact (scripted_appendInner cfg sg a b!"oauth_consumer_key" (percentEncodeStr a.consumerKey)
        (sg.consumerKey · (doublePercentEncode cfg (.ofBytes a.consumerKey)))).liftWorld w
    | nonce => exact scripted_nonce cfg sg a w
    | signatureMethod =>
      exact Scripted.liftWorld (F := fun W wr d => (a.fill W d).signatureMethod cfg wr sg)
        (Scripted.bind (G := fun W _ (a : Authorizer S W) => do
            let s ← sg.signatureMethod a.sign
            .ok { a with sign := s })
          (scripted_append cfg sg a b!"oauth_signature_method" (.ofBytes (sg.name a.sign)))
          fun a => scripted_feed a sg.signatureMethod) w
    | timestamp => exact scripted_timestamp cfg sg a w
    | token =>
      refine Scripted.liftWorld (F := fun W wr d => (a.fill W d).tokenM cfg wr sg) ?_ w
      obtain ⟨ck, t, o, data, s, ad, pk⟩ := a
      simp only [Authorizer.tokenM, Authorizer.fill]
      cases t with
      | none => exact .pure (⟨ck, none, o, data, s, ad, pk⟩ : Authorizer S Unit)
      | some v =>
        exact scripted_appendInner cfg sg (⟨ck, some v, o, data, s, ad, pk⟩ : Authorizer S Unit) _ _ _
    | verifier =>
      refine Scripted.liftWorld (F := fun W wr d => (a.fill W d).verifier cfg wr sg) ?_ w
      simp only [Authorizer.verifier, Authorizer.fill]
      cases a.options.verifier with
      | none => exact .pure a
      | some v => exact scripted_appendInner cfg sg a _ _ _
    | version =>
      refine Scripted.liftWorld (F := fun W wr d => (a.fill W d).version cfg wr sg) ?_ w
      simp only [Authorizer.version]
      show Scripted Authorizer.fill (fun W wr d => if a.options.version = true then _ else _)
      cases a.options.version with
      | false => exact .pure a
      | true =>
        exact .bind (scripted_append cfg sg a _ _) fun a => scripted_feed a sg.version

theorem scripted_calls (cfg : Cfg) (sg : Sign S) (cs : List Call) (a : Authorizer S Unit) (w : World) :
    Scripted (fun _ => fillM)
      (fun W wr d => runCalls (Authorizer.serializer cfg wr sg) cs (a.fill W d) w) := by
  induction cs generalizing a w with
  | nil => exact .pure (fill := fun _ => fillM) (a, w)
  | cons c cs ih =>
    exact Scripted.bind (G := fun W wr x => runCalls (Authorizer.serializer cfg wr sg) cs x.1 x.2)
      (scripted_call cfg sg c a w) fun x => ih x.1 x.2

theorem scripted_end (sg : Sign S) (a : Authorizer S Unit) :
    Scripted (R := fun W => W) (fun _ (_ : Unit) d => d) (fun W wr d => (a.fill W d).endM wr sg) := by
  obtain ⟨ck, t, o, data, s, ad, pk⟩ := a
  cases data with
  | authorization u =>
    exact .bind (.write _) fun _ => .lift (sg.end s) fun sig => .write _
  | urlencode e =>
    exact .lift (sg.end s) fun sig =>
      .bind (scripted_encoderParameterEncoded e.nextAppend _ sig) fun n => .pure ()

/-- A whole run. -/
theorem scripted_run (cfg : Cfg) (sg : Sign S) {r : Request} {cs : List Call} (hr : IsTrace r cs)
    (a : Authorizer S Unit) (w : World) :
    Scripted (R := fun W => W × World) (fun _ w d => (d, w))
      (fun W wr d => r.serialize (Authorizer.serializer cfg wr sg) (a.fill W d) w) := by
  refine Scripted.congr (F := fun W wr d =>
      runCalls (Authorizer.serializer cfg wr sg) cs (a.fill W d) w >>= fun x =>
        (x.1.endM wr sg).map fun d => (d, x.2)) ?_ ?_
  · refine Scripted.bind (scripted_calls cfg sg cs a w) fun x => ?_
    exact Scripted.map (g := fun W d => (d, x.2)) (scripted_end sg x.1) (fun _ => x.2)
      fun _ _ _ => rfl
  · intro W wr d
    rw [hr]
    show (runCalls (Authorizer.serializer cfg wr sg) cs (a.fill W d) w >>= fun x =>
      (liftM (x.1.endM wr sg) : M W) x.2) = _
    congr 1

end OAuth
