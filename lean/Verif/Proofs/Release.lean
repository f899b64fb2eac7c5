import Verif.Proofs.Worlds

/-
How a run of an authorizing serializer depends on the build configuration: debug checks only check.
-/

namespace OAuth

open Spec

variable {S W : Type}

/-! ### Encoding -/

theorem doubleLoop_cfg (cfg cfg' : Cfg) (fuel : Nat) (s : Bytes) :
    doubleLoop cfg fuel s = doubleLoop cfg' fuel s := by
  induction fuel generalizing s with
  | zero => cases s <;> rfl
  | succ fuel ih =>
    cases s with
    | nil => rfl
    | cons b rem =>
      simp only [doubleLoop, shouldPercentEncode_eq]
      by_cases hb : unreserved b = true
      · simp only [hb, Bool.not_true, findEncode_spec]
        rcases hd : rem.drop (rem.takeWhile unreserved).length with _ | ⟨b', t⟩
        · simp only
          have hall : ∀ c ∈ b :: rem, unreserved c = true := by
            intro c hc
            rcases List.mem_cons.mp hc with rfl | hc
            · exact hb
            · have := takeWhile_append_drop unreserved rem
              rw [hd, List.append_nil] at this
              rw [← this] at hc
              exact mem_takeWhile hc
          rw [unchecked_ascii hall, unchecked_ascii hall]
        · simp only
          have hall : ∀ c ∈ (b :: rem).take (1 + (rem.takeWhile unreserved).length),
              unreserved c = true := by
            intro c hc
            rw [Nat.add_comm, List.take_succ_cons] at hc
            rcases List.mem_cons.mp hc with rfl | hc
            · exact hb
            · have e := takeWhile_append_drop unreserved rem
              have : rem.take (rem.takeWhile unreserved).length = rem.takeWhile unreserved := by
                have h := congrArg (List.take (rem.takeWhile unreserved).length) e
                rw [List.take_left] at h
                exact h.symm
              rw [this] at hc
              exact mem_takeWhile hc
          rw [unchecked_ascii hall, unchecked_ascii hall, ih]
      · simp only [hb, Bool.not_false, ih]

theorem doublePercentEncode_cfg (cfg cfg' : Cfg) (d : Display) :
    doublePercentEncode cfg d = doublePercentEncode cfg' d := by
  have : (fun c : Bytes => doubleLoop cfg c.length c) = fun c => doubleLoop cfg' c.length c :=
    funext fun c => doubleLoop_cfg cfg cfg' _ c
  unfold doublePercentEncode
  rw [this]

/-! ### States up to the last key -/

/-- Without the field that only some configurations have. -/
def Authorizer.strip (a : Authorizer S W) : Authorizer S W := { a with prevKey := [] }

/-- `y` is `x` without checks. -/
def Unchecked (cfg : Cfg) (x y : Except Panic (Authorizer S W)) : Prop :=
  (cfg.checksOrder = true ∧ x = .error .keyOrder) ∨ y.map Authorizer.strip = x.map Authorizer.strip

/-- The two configurations: the first one with any checks, the second one with none. -/
structure Relaxes (cfg cfg' : Cfg) : Prop where
  debug : cfg'.debug = false
  clock : cfg'.clock = cfg.clock

theorem Unchecked.bind {cfg : Cfg} {x y : Except Panic (Authorizer S W)}
    {f g : Authorizer S W → Except Panic (Authorizer S W)} (h : Unchecked cfg x y)
    (hfg : ∀ a a' : Authorizer S W, a'.strip = a.strip → Unchecked cfg (f a) (g a')) :
    Unchecked cfg (x >>= f) (y >>= g) := by
  rcases h with ⟨hc, rfl⟩ | h
  · exact .inl ⟨hc, rfl⟩
  · cases x with
    | error e => cases y with
      | error e' => right; cases h; rfl
      | ok a' => cases h
    | ok a => cases y with
      | error e' => cases h
      | ok a' =>
        simp only [Except.map, Except.ok.injEq] at h
        exact hfg a a' h

theorem strip_eq {a a' : Authorizer S W} (h : a'.strip = a.strip) :
    a'.consumerKey = a.consumerKey ∧ a'.token = a.token ∧ a'.options = a.options ∧
      a'.data = a.data ∧ a'.sign = a.sign ∧ a'.appendDelimToSign = a.appendDelimToSign := by
  cases a; cases a'
  simpa [Authorizer.strip] using h

/-- Feeding the signer. -/
theorem unchecked_feed {cfg : Cfg} {a a' : Authorizer S W} (h : a'.strip = a.strip) (x : Except Panic S) :
    Unchecked cfg (x >>= fun s => .ok { a with sign := s }) (x >>= fun s => .ok { a' with sign := s }) := by
  right
  cases x with
  | error e => rfl
  | ok s =>
    simp only [bind, Except.bind, Except.map, Except.ok.injEq]
    cases a; cases a'
    simp only [Authorizer.strip, Authorizer.mk.injEq] at h ⊢
    simp_all

theorem unchecked_check {cfg cfg' : Cfg} (hr : Relaxes cfg cfg') {a a' : Authorizer S W}
    (h : a'.strip = a.strip) (k : Bytes) :
    Unchecked cfg (a.checkDictionaryOrder cfg k) (a'.checkDictionaryOrder cfg' k) := by
  have e : a'.checkDictionaryOrder cfg' k = .ok a' := by
    simp [Authorizer.checkDictionaryOrder, Cfg.checksOrder, hr.debug]
  rw [e]
  unfold Authorizer.checkDictionaryOrder
  split
  · next hc =>
    split
    · right
      simp only [Except.map, Except.ok.injEq]
      exact h
    · exact .inl ⟨hc, rfl⟩
  · right
    simp only [Except.map, h]

theorem unchecked_delimiter {cfg : Cfg} (sg : Sign S) {a a' : Authorizer S W} (h : a'.strip = a.strip) :
    Unchecked cfg (a.signDelimiter sg) (a'.signDelimiter sg) := by
  obtain ⟨-, -, -, -, h5, h6⟩ := strip_eq h
  unfold Authorizer.signDelimiter
  cases hb : a.appendDelimToSign with
  | true =>
    rw [hb] at h6
    rw [if_pos h6, h5]
    have := unchecked_feed (cfg := cfg) h (sg.delimiter a.sign)
    rw [hb, h6] at this
    rw [h6]
    exact this
  | false =>
    rw [hb] at h6
    rw [if_neg (by simp [h6])]
    right
    simp only [Except.map, Except.ok.injEq]
    cases a; cases a'
    simp only [Authorizer.strip, Authorizer.mk.injEq] at h ⊢
    simp_all

theorem unchecked_append {cfg cfg' : Cfg} (hr : Relaxes cfg cfg') (wr : Writer W) (sg : Sign S)
    {a a' : Authorizer S W} (h : a'.strip = a.strip) (k : Bytes) (v : Display) :
    Unchecked cfg (a.appendToHeaderEncoded cfg wr sg k v) (a'.appendToHeaderEncoded cfg' wr sg k v) := by
  unfold Authorizer.appendToHeaderEncoded
  refine (unchecked_check hr h k).bind ?_
  intro a a' h
  rw [(strip_eq h).2.2.2.1]
  cases Authorizer.appendData wr a.data k v with
  | error e => exact .inr rfl
  | ok d =>
    refine unchecked_delimiter sg ?_
    cases a; cases a'
    simp only [Authorizer.strip, Authorizer.mk.injEq] at h ⊢
    simp_all

theorem unchecked_appendInner {cfg cfg' : Cfg} (hr : Relaxes cfg cfg') (wr : Writer W) (sg : Sign S)
    {a a' : Authorizer S W} (h : a'.strip = a.strip) (k : Bytes) (v : Display)
    (feed : S → Except Panic S) :
    Unchecked cfg (a.appendInner cfg wr sg k v feed) (a'.appendInner cfg' wr sg k v feed) := by
  unfold Authorizer.appendInner
  refine (unchecked_append hr wr sg h k v).bind ?_
  intro a a' h
  rw [(strip_eq h).2.2.2.2.1]
  exact unchecked_feed h _

/-! ### With the world -/

/-- The same for results with the world left behind. -/
def UncheckedW (cfg : Cfg) (x y : Except Panic (Authorizer S W × World)) : Prop :=
  (cfg.checksOrder = true ∧ x = .error .keyOrder) ∨
    y.map (fun r => (r.1.strip, r.2)) = x.map (fun r => (r.1.strip, r.2))

theorem Unchecked.world {cfg : Cfg} {x y : Except Panic (Authorizer S W)} (h : Unchecked cfg x y) (w : World) :
    UncheckedW cfg ((liftM x : M _) w) ((liftM y : M _) w) := by
  rw [liftM_apply, liftM_apply]
  rcases h with ⟨hc, rfl⟩ | h
  · exact .inl ⟨hc, rfl⟩
  · right
    cases x <;> cases y <;> simp_all [Except.map]

theorem unchecked_call {cfg cfg' : Cfg} (hr : Relaxes cfg cfg') (wr : Writer W) (sg : Sign S)
    {a a' : Authorizer S W} (h : a'.strip = a.strip) (c : Call) (w : World) :
    UncheckedW cfg (c.run (Authorizer.serializer cfg wr sg) a w)
      (c.run (Authorizer.serializer cfg' wr sg) a' w) := by
  obtain ⟨h1, h2, h3, h4, h5, h6⟩ := strip_eq h
  have hd := fun d => doublePercentEncode_cfg cfg' cfg d
  cases c with
  | parameter k v =>
    refine Unchecked.world (x := a.parameter cfg sg k v) (y := a'.parameter cfg' sg k v) ?_ w
    unfold Authorizer.parameter
    refine (unchecked_check hr h k).bind fun a a' h => (unchecked_delimiter sg h).bind fun a a' h => ?_
    rw [(strip_eq h).2.2.2.2.1, hd]
    exact unchecked_feed h _
  | parameterEncoded k v =>
    refine Unchecked.world (x := a.parameterEncoded cfg sg k v)
      (y := a'.parameterEncoded cfg' sg k v) ?_ w
    unfold Authorizer.parameterEncoded
    refine (unchecked_check hr h k).bind fun a a' h => (unchecked_delimiter sg h).bind fun a a' h => ?_
    rw [(strip_eq h).2.2.2.2.1]
    exact unchecked_feed h _
  | oauth p =>
    have keep : Unchecked cfg (.ok a) (.ok a') := .inr (by simp only [Except.map, h])
    cases p with
    | callback =>
      refine Unchecked.world (x := a.callback cfg wr sg) (y := a'.callback cfg' wr sg) ?_ w
      unfold Authorizer.callback
      rw [h3]
      split
      · simp only [hd]
        exact unchecked_appendInner hr wr sg h _ _ _
      · exact keep
    | consumerKey =>
      refine Unchecked.world (x := a.consumerKeyM cfg wr sg) (y := a'.consumerKeyM cfg' wr sg) ?_ w
      unfold Authorizer.consumerKeyM
      rw [h1]
      simp only [hd]
      exact unchecked_appendInner hr wr sg h _ _ _
    | signatureMethod =>
      refine Unchecked.world (x := a.signatureMethod cfg wr sg)
        (y := a'.signatureMethod cfg' wr sg) ?_ w
      unfold Authorizer.signatureMethod
      rw [h5]
      refine (unchecked_append hr wr sg h _ _).bind fun a a' h => ?_
      rw [(strip_eq h).2.2.2.2.1]
      exact unchecked_feed h _
    | token =>
      refine Unchecked.world (x := a.tokenM cfg wr sg) (y := a'.tokenM cfg' wr sg) ?_ w
      unfold Authorizer.tokenM
      rw [h2]
      split
      · simp only [hd]
        exact unchecked_appendInner hr wr sg h _ _ _
      · exact keep
    | verifier =>
      refine Unchecked.world (x := a.verifier cfg wr sg) (y := a'.verifier cfg' wr sg) ?_ w
      unfold Authorizer.verifier
      rw [h3]
      split
      · simp only [hd]
        exact unchecked_appendInner hr wr sg h _ _ _
      · exact keep
    | version =>
      refine Unchecked.world (x := a.version cfg wr sg) (y := a'.version cfg' wr sg) ?_ w
      unfold Authorizer.version
      rw [h3]
      split
      · refine (unchecked_append hr wr sg h _ _).bind fun a a' h => ?_
        rw [(strip_eq h).2.2.2.2.1]
        exact unchecked_feed h _
      · exact keep
    | nonce =>
      change UncheckedW cfg (a.nonce cfg wr sg w) (a'.nonce cfg' wr sg w)
      unfold Authorizer.nonce
      rw [h5, h3]
      split
      · cases a.options.nonce with
        | some n =>
          simp only [hd]
          exact (unchecked_appendInner hr wr sg h _ _ _).world w
        | none =>
          simp only [fillBytes, bind, StateT.bind, Except.bind]
          cases Authorizer.genNonce ((List.range 9).map fun i => w.rng (w.rngPos + i)) with
          | error e => exact .inr rfl
          | ok n =>
            exact (unchecked_appendInner hr wr sg h b!"oauth_nonce" (.ofBytes n)
              (sg.nonce · (.ofBytes n))).world _
      · exact keep.world w
    | timestamp =>
      change UncheckedW cfg (a.timestamp cfg wr sg w) (a'.timestamp cfg' wr sg w)
      unfold Authorizer.timestamp
      have hg : Authorizer.getCurrentTimestamp cfg' = Authorizer.getCurrentTimestamp cfg := by
        unfold Authorizer.getCurrentTimestamp
        rw [hr.clock]
      rw [h5, h3, hg]
      split
      · cases a.options.timestamp with
        | some t => exact (unchecked_appendInner hr wr sg h b!"oauth_timestamp"
            (.ofBytes (decimal t.val)) (sg.timestamp · t.val)).world w
        | none =>
          simp only [bind, StateT.bind, Except.bind]
          cases Authorizer.getCurrentTimestamp cfg w with
          | error e => exact .inr rfl
          | ok t => exact (unchecked_appendInner hr wr sg h b!"oauth_timestamp"
              (.ofBytes (decimal t.1)) (sg.timestamp · t.1)).world t.2
      · exact keep.world w

theorem unchecked_calls {cfg cfg' : Cfg} (hr : Relaxes cfg cfg') (wr : Writer W) (sg : Sign S)
    (cs : List Call) {a a' : Authorizer S W} (h : a'.strip = a.strip) (w : World) :
    UncheckedW cfg (runCalls (Authorizer.serializer cfg wr sg) cs a w)
      (runCalls (Authorizer.serializer cfg' wr sg) cs a' w) := by
  induction cs generalizing a a' w with
  | nil => exact .inr (by simp only [runCalls, pure, StateT.pure, Except.pure, Except.map, h])
  | cons c cs ih =>
    simp only [runCalls, bind, StateT.bind, Except.bind]
    rcases unchecked_call hr wr sg h c w with ⟨hc, e⟩ | e
    · rw [e]; exact .inl ⟨hc, rfl⟩
    · cases hx : c.run (Authorizer.serializer cfg wr sg) a w with
      | error p =>
        rw [hx] at e
        cases hy : c.run (Authorizer.serializer cfg' wr sg) a' w with
        | error p' => rw [hy] at e; cases e; exact .inr rfl
        | ok r => rw [hy] at e; cases e
      | ok r =>
        rw [hx] at e
        cases hy : c.run (Authorizer.serializer cfg' wr sg) a' w with
        | error p' => rw [hy] at e; cases e
        | ok r' =>
          rw [hy] at e
          simp only [Except.map, Except.ok.injEq, Prod.mk.injEq] at e
          simp only [e.2]
          exact ih e.1 _

/-- A run from the start, in two configurations. -/
theorem unchecked_runFrom {cfg cfg' : Cfg} (hrel : Relaxes cfg cfg') (wr : Writer W) (sg : Sign S)
    (start : Except Panic (Authorizer S W)) {r r' : Request} {cs : List Call} (hr : IsTrace r cs)
    (hr' : IsTrace r' cs) (w : World) :
    (cfg.checksOrder = true ∧ runFrom cfg wr sg start r w = .error .keyOrder) ∨
      runFrom cfg wr sg start r w = runFrom cfg' wr sg start r' w := by
  unfold runFrom
  cases start with
  | error p => exact .inr rfl
  | ok a =>
    change (_ ∧ r.serialize _ a w = _) ∨ r.serialize _ a w = r'.serialize _ a w
    rw [hr, hr']
    simp only [bind, StateT.bind, Except.bind]
    rcases unchecked_calls hrel wr sg cs (a := a) (a' := a) rfl w with ⟨hc, e⟩ | e
    · rw [e]; exact .inl ⟨hc, rfl⟩
    · right
      cases hx : runCalls (Authorizer.serializer cfg wr sg) cs a w with
      | error p =>
        rw [hx] at e
        cases hy : runCalls (Authorizer.serializer cfg' wr sg) cs a w with
        | error p' => rw [hy] at e; cases e; rfl
        | ok r => rw [hy] at e; cases e
      | ok x =>
        rw [hx] at e
        cases hy : runCalls (Authorizer.serializer cfg' wr sg) cs a w with
        | error p' => rw [hy] at e; cases e
        | ok y =>
          rw [hy] at e
          simp only [Except.map, Except.ok.injEq, Prod.mk.injEq] at e
          obtain ⟨-, -, -, h4, h5, -⟩ := strip_eq e.1
          simp only [e.2]
          change (liftM (x.1.endM wr sg) : M _) _ = (liftM (y.1.endM wr sg) : M _) _
          unfold Authorizer.endM
          rw [h4, h5]

end OAuth
