import Verif.Proofs.Closed

/-
How a run of an authorizing serializer depends on the world, for every writer and every signing
algorithm.
-/

namespace OAuth

open Spec

variable {S W : Type}

/-- The world after reading random bytes (`r`) or the clock (`c`). -/
def World.move (w : World) (r c : Bool) : World :=
  { w with
    rngPos := if r then w.rngPos + 9 else w.rngPos
    clockPos := if c then w.clockPos + 1 else w.clockPos }

theorem World.move_ff (w : World) : w.move false false = w := rfl

/-- Whether a call reads random bytes in a state. -/
def readsRng (sg : Sign S) (a : Authorizer S W) (c : Call) : Bool :=
  decide (c = .oauth .nonce) && sg.useNonce a.sign && a.options.nonce.isNone

/-- Whether a call reads the clock in a state. -/
def readsClock (sg : Sign S) (a : Authorizer S W) (c : Call) : Bool :=
  decide (c = .oauth .timestamp) && sg.useTimestamp a.sign && a.options.timestamp.isNone

theorem liftM_apply {α : Type} (x : Except Panic α) (w : World) :
    (liftM x : M α) w = x.map fun a => (a, w) := by
  cases x <;> rfl

theorem signDelimiter_options {sg : Sign S} {a a' : Authorizer S W}
    (h : a.signDelimiter sg = .ok a') : a'.options = a.options := by
  unfold Authorizer.signDelimiter at h
  split at h
  · simp only [bind, Except.bind] at h
    split at h
    · cases h
    · cases h; rfl
  · cases h; rfl

theorem checkOrder_options {cfg : Cfg} {a a' : Authorizer S W} {k : Bytes}
    (h : a.checkDictionaryOrder cfg k = .ok a') : a'.options = a.options := by
  unfold Authorizer.checkDictionaryOrder at h
  split at h
  · split at h
    · cases h; rfl
    · cases h
  · cases h; rfl

theorem Except.bind_ok_iff {ε α β : Type} {x : Except ε α} {f : α → Except ε β} {b : β} :
    (x >>= f) = .ok b ↔ ∃ a, x = .ok a ∧ f a = .ok b := by
  cases x with
  | error e => simp [bind, Except.bind]
  | ok a => simp [bind, Except.bind]

theorem append_options {cfg : Cfg} {wr : Writer W} {sg : Sign S} {a a' : Authorizer S W} {k : Bytes}
    {v : Display} (h : a.appendToHeaderEncoded cfg wr sg k v = .ok a') : a'.options = a.options := by
  unfold Authorizer.appendToHeaderEncoded at h
  obtain ⟨a1, h1, h⟩ := Except.bind_ok_iff.mp h
  obtain ⟨d, h2, h⟩ := Except.bind_ok_iff.mp h
  rw [signDelimiter_options h, ← checkOrder_options h1]

theorem appendInner_options {cfg : Cfg} {wr : Writer W} {sg : Sign S} {a a' : Authorizer S W}
    {k : Bytes} {v : Display} {feed : S → Except Panic S}
    (h : a.appendInner cfg wr sg k v feed = .ok a') : a'.options = a.options := by
  unfold Authorizer.appendInner at h
  obtain ⟨a1, h1, h⟩ := Except.bind_ok_iff.mp h
  obtain ⟨s, h2, h⟩ := Except.bind_ok_iff.mp h
  cases h
  exact (append_options h1 : a1.options = a.options)

/-- One call: it reads at most the next nine random bytes and one clock reading, as told by `readsRng`
and `readsClock`, and keeps the options. -/
theorem call_world (cfg : Cfg) (wr : Writer W) (sg : Sign S) (a : Authorizer S W) (c : Call) :
    ∃ x : Bytes → Int → Except Panic (Authorizer S W),
      (∀ w, c.run (Authorizer.serializer cfg wr sg) a w =
        (x w.nonceBytes (w.clock w.clockPos)).map fun a' =>
          (a', w.move (readsRng sg a c) (readsClock sg a c))) ∧
      (readsRng sg a c = false → ∀ n n' t, x n t = x n' t) ∧
      (readsClock sg a c = false → ∀ n t t', x n t = x n t') ∧
      ∀ n t a', x n t = .ok a' → a'.options = a.options := by
  have pure_case : ∀ (c : Call) (x : Except Panic (Authorizer S W)), readsRng sg a c = false →
      readsClock sg a c = false →
      (∀ w, c.run (Authorizer.serializer cfg wr sg) a w = (liftM x : M _) w) →
      (∀ a', x = .ok a' → a'.options = a.options) →
      ∃ x : Bytes → Int → Except Panic (Authorizer S W),
        (∀ w, c.run (Authorizer.serializer cfg wr sg) a w =
          (x w.nonceBytes (w.clock w.clockPos)).map fun a' =>
            (a', w.move (readsRng sg a c) (readsClock sg a c))) ∧
        (readsRng sg a c = false → ∀ n n' t, x n t = x n' t) ∧
        (readsClock sg a c = false → ∀ n t t', x n t = x n t') ∧
        ∀ n t a', x n t = .ok a' → a'.options = a.options := by
    intro c x h1 h2 h3 h4
    refine ⟨fun _ _ => x, fun w => ?_, fun _ _ _ _ => rfl, fun _ _ _ _ => rfl, fun _ _ => h4⟩
    rw [h3, liftM_apply, h1, h2, World.move_ff]
  cases c with
  | parameter k v =>
    refine pure_case _ (a.parameter cfg sg k v) (by simp [readsRng]) (by simp [readsClock])
      (fun _ => rfl) ?_
    intro a' h
    unfold Authorizer.parameter at h
    obtain ⟨a1, h1, h⟩ := Except.bind_ok_iff.mp h
    obtain ⟨a2, h2, h⟩ := Except.bind_ok_iff.mp h
    obtain ⟨s, h3, h⟩ := Except.bind_ok_iff.mp h
    cases h
    rw [← checkOrder_options h1, ← signDelimiter_options h2]
  | parameterEncoded k v =>
    refine pure_case _ (a.parameterEncoded cfg sg k v) (by simp [readsRng]) (by simp [readsClock])
      (fun _ => rfl) ?_
    intro a' h
    unfold Authorizer.parameterEncoded at h
    obtain ⟨a1, h1, h⟩ := Except.bind_ok_iff.mp h
    obtain ⟨a2, h2, h⟩ := Except.bind_ok_iff.mp h
    obtain ⟨s, h3, h⟩ := Except.bind_ok_iff.mp h
    cases h
    rw [← checkOrder_options h1, ← signDelimiter_options h2]
  | oauth p =>
    cases p with
    | callback =>
      refine pure_case _ (a.callback cfg wr sg) (by simp [readsRng]) (by simp [readsClock])
        (fun _ => rfl) ?_
      intro a' h
      unfold Authorizer.callback at h
      split at h
      · exact appendInner_options h
      · cases h; rfl
    | consumerKey =>
      exact pure_case _ (a.consumerKeyM cfg wr sg) (by simp [readsRng]) (by simp [readsClock])
        (fun _ => rfl) (fun a' h => appendInner_options h)
    | signatureMethod =>
      refine pure_case _ (a.signatureMethod cfg wr sg) (by simp [readsRng]) (by simp [readsClock])
        (fun _ => rfl) ?_
      intro a' h
      unfold Authorizer.signatureMethod at h
      obtain ⟨a1, h1, h⟩ := Except.bind_ok_iff.mp h
      obtain ⟨s, h3, h⟩ := Except.bind_ok_iff.mp h
      cases h
      exact (append_options h1 : a1.options = a.options)
    | token =>
      refine pure_case _ (a.tokenM cfg wr sg) (by simp [readsRng]) (by simp [readsClock])
        (fun _ => rfl) ?_
      intro a' h
      unfold Authorizer.tokenM at h
      split at h
      · exact appendInner_options h
      · cases h; rfl
    | verifier =>
      refine pure_case _ (a.verifier cfg wr sg) (by simp [readsRng]) (by simp [readsClock])
        (fun _ => rfl) ?_
      intro a' h
      unfold Authorizer.verifier at h
      split at h
      · exact appendInner_options h
      · cases h; rfl
    | version =>
      refine pure_case _ (a.version cfg wr sg) (by simp [readsRng]) (by simp [readsClock])
        (fun _ => rfl) ?_
      intro a' h
      unfold Authorizer.version at h
      split at h
      · obtain ⟨a1, h1, h⟩ := Except.bind_ok_iff.mp h
        obtain ⟨s, h3, h⟩ := Except.bind_ok_iff.mp h
        cases h
        exact (append_options h1 : a1.options = a.options)
      · cases h; rfl
    | nonce =>
      have hck : readsClock sg a (.oauth .nonce) = false := by simp [readsClock]
      have hdef : ∀ w, Call.run (Authorizer.serializer cfg wr sg) (.oauth .nonce) a w =
          a.nonce cfg wr sg w := fun _ => rfl
      cases hu : sg.useNonce a.sign with
      | false =>
        refine pure_case _ (.ok a) (by simp [readsRng, hu]) hck (fun w => ?_) (fun a' h => by
          cases h; rfl)
        rw [hdef]
        unfold Authorizer.nonce
        rw [hu]
        rfl
      | true =>
        cases hn : a.options.nonce with
        | some n =>
          refine pure_case _ (a.appendInner cfg wr sg b!"oauth_nonce" (percentEncodeStr n)
            (sg.nonce · (doublePercentEncode cfg (.ofBytes n)))) (by simp [readsRng, hn]) hck
            (fun w => ?_) (fun a' h => appendInner_options h)
          rw [hdef]
          unfold Authorizer.nonce
          rw [hu, hn]
          rfl
        | none =>
          have hr : readsRng sg a (.oauth .nonce) = true := by simp [readsRng, hu, hn]
          refine ⟨fun rand _ => Authorizer.genNonce rand >>= fun n =>
            a.appendInner cfg wr sg b!"oauth_nonce" (.ofBytes n) (sg.nonce · (.ofBytes n)),
            fun w => ?_, fun h => (by rw [hr] at h; cases h), fun _ _ _ _ => rfl, ?_⟩
          · rw [hdef, hr, hck]
            unfold Authorizer.nonce
            rw [hu, hn]
            simp only [if_true, fillBytes, bind, StateT.bind, Except.bind]
            rw [show (List.range 9).map (fun i => w.rng (w.rngPos + i)) = w.nonceBytes from rfl]
            cases Authorizer.genNonce w.nonceBytes with
            | error p => rfl
            | ok n =>
              simp only [liftM_apply, Except.map]
              rfl
          · intro n t a' h
            obtain ⟨m, -, h⟩ := Except.bind_ok_iff.mp h
            exact appendInner_options h
    | timestamp =>
      have hrk : readsRng sg a (.oauth .timestamp) = false := by simp [readsRng]
      have hdef : ∀ w, Call.run (Authorizer.serializer cfg wr sg) (.oauth .timestamp) a w =
          a.timestamp cfg wr sg w := fun _ => rfl
      cases hu : sg.useTimestamp a.sign with
      | false =>
        refine pure_case _ (.ok a) hrk (by simp [readsClock, hu]) (fun w => ?_) (fun a' h => by
          cases h; rfl)
        rw [hdef]
        unfold Authorizer.timestamp
        rw [hu]
        rfl
      | true =>
        cases hn : a.options.timestamp with
        | some t =>
          refine pure_case _ (a.appendInner cfg wr sg b!"oauth_timestamp" (.ofBytes (decimal t.val))
            (sg.timestamp · t.val)) hrk (by simp [readsClock, hn])
            (fun w => ?_) (fun a' h => appendInner_options h)
          rw [hdef]
          unfold Authorizer.timestamp
          rw [hu, hn]
          rfl
        | none =>
          have hr : readsClock sg a (.oauth .timestamp) = true := by simp [readsClock, hu, hn]
          refine ⟨fun _ t =>
            let go := fun t => a.appendInner cfg wr sg b!"oauth_timestamp" (.ofBytes (decimal t))
              (sg.timestamp · t)
            match cfg.clock with
            | .js => go (t / 1000000000).toNat
            | .std => if 0 ≤ t then go (t / 1000000000).toNat else go 1
            | .none => .error .noClock,
            fun w => ?_, fun _ _ _ _ => rfl, fun h => (by rw [hr] at h; cases h), ?_⟩
          · rw [hdef, hr, hrk]
            unfold Authorizer.timestamp Authorizer.getCurrentTimestamp
            rw [hu, hn]
            simp only [if_true, bind, StateT.bind, Except.bind]
            cases cfg.clock with
            | none => rfl
            | js => simp only [readClock, StateT.bind, pure, StateT.pure, Except.pure, Except.bind,
                liftM_apply, bind]; rfl
            | std =>
              simp only [readClock, StateT.bind, Except.bind, bind]
              by_cases h0 : 0 ≤ w.clock w.clockPos
              · simp only [h0, if_true, pure, StateT.pure, Except.pure, liftM_apply]; rfl
              · simp only [h0, if_false, pure, StateT.pure, Except.pure, liftM_apply]; rfl
          · intro n t a' h
            simp only [] at h
            split at h
            · exact appendInner_options h
            · split at h
              · exact appendInner_options h
              · exact appendInner_options h
            · cases h

/-- Calls that follow see the same options. -/
theorem call_options {cfg : Cfg} {wr : Writer W} {sg : Sign S} {a a' : Authorizer S W} {c : Call}
    {w w' : World} (h : c.run (Authorizer.serializer cfg wr sg) a w = .ok (a', w')) :
    a'.options = a.options ∧ w' = w.move (readsRng sg a c) (readsClock sg a c) := by
  obtain ⟨x, hx, -, -, ho⟩ := call_world cfg wr sg a c
  rw [hx] at h
  cases hr : x w.nonceBytes (w.clock w.clockPos) with
  | error p => rw [hr] at h; cases h
  | ok a1 =>
    rw [hr] at h
    simp only [Except.map, Except.ok.injEq, Prod.mk.injEq] at h
    obtain ⟨rfl, rfl⟩ := h
    exact ⟨ho _ _ _ hr, rfl⟩

/-- Two worlds that show a run the same random bytes and clock reading, as far as it may look. -/
structure SameView (sg : Sign S) (o : Options) (cs : List Call) (w1 w2 : World) : Prop where
  rng : .oauth .nonce ∈ cs → o.nonce = none → (∃ s, sg.useNonce s = true) →
    w1.nonceBytes = w2.nonceBytes
  clock : .oauth .timestamp ∈ cs → o.timestamp = none → (∃ s, sg.useTimestamp s = true) →
    w1.clock w1.clockPos = w2.clock w2.clockPos

/-- A result without the world left behind. -/
def result {α : Type} (x : Except Panic (α × World)) : Except Panic α := x.map (·.1)

theorem runCalls_sameView (cfg : Cfg) (wr : Writer W) (sg : Sign S) (cs : List Call)
    (hnd : (cs.filterMap Call.proto?).Nodup) (a : Authorizer S W) (w1 w2 : World)
    (h : SameView sg a.options cs w1 w2) :
    result (runCalls (Authorizer.serializer cfg wr sg) cs a w1) =
      result (runCalls (Authorizer.serializer cfg wr sg) cs a w2) := by
  induction cs generalizing a w1 w2 with
  | nil => rfl
  | cons c cs ih =>
    have hnd' : (cs.filterMap Call.proto?).Nodup := by
      cases c with
      | parameter k v => exact hnd
      | parameterEncoded k v => exact hnd
      | oauth p =>
        have : (Call.oauth p :: cs).filterMap Call.proto? = p :: cs.filterMap Call.proto? := rfl
        rw [this] at hnd
        exact (List.nodup_cons.mp hnd).2
    have hnot : ∀ p, c = .oauth p → .oauth p ∉ cs := by
      rintro p rfl hm
      have : (Call.oauth p :: cs).filterMap Call.proto? = p :: cs.filterMap Call.proto? := rfl
      rw [this] at hnd
      exact (List.nodup_cons.mp hnd).1 (List.mem_filterMap.mpr ⟨_, hm, rfl⟩)
    obtain ⟨x, hx, hr, hc, ho⟩ := call_world cfg wr sg a c
    have hxe : x w1.nonceBytes (w1.clock w1.clockPos) = x w2.nonceBytes (w2.clock w2.clockPos) := by
      have e1 : x w1.nonceBytes (w1.clock w1.clockPos) = x w2.nonceBytes (w1.clock w1.clockPos) := by
        cases hb : readsRng sg a c with
        | false => exact hr hb _ _ _
        | true =>
          simp only [readsRng, Bool.and_eq_true, decide_eq_true_eq, Option.isNone_iff_eq_none] at hb
          rw [h.rng (by simp [hb.1.1]) hb.2 ⟨_, hb.1.2⟩]
      have e2 : x w2.nonceBytes (w1.clock w1.clockPos) = x w2.nonceBytes (w2.clock w2.clockPos) := by
        cases hb : readsClock sg a c with
        | false => exact hc hb _ _ _
        | true =>
          simp only [readsClock, Bool.and_eq_true, decide_eq_true_eq, Option.isNone_iff_eq_none] at hb
          rw [h.clock (by simp [hb.1.1]) hb.2 ⟨_, hb.1.2⟩]
      rw [e1, e2]
    simp only [runCalls, bind, StateT.bind, Except.bind, hx, hxe]
    cases hres : x w2.nonceBytes (w2.clock w2.clockPos) with
    | error p => rfl
    | ok a' =>
      simp only [Except.map]
      refine ih hnd' a' _ _ ?_
      rw [ho _ _ _ hres]
      constructor
      · intro hm h1 h2
        have hne : readsRng sg a c = false := by
          unfold readsRng
          by_cases hc : c = .oauth .nonce
          · exact absurd hm (hnot _ hc)
          · simp [hc]
        simp only [World.nonceBytes, World.move, hne]
        exact h.rng (by simp [hm]) h1 h2
      · intro hm h1 h2
        have hne : readsClock sg a c = false := by
          unfold readsClock
          by_cases hc : c = .oauth .timestamp
          · exact absurd hm (hnot _ hc)
          · simp [hc]
        simp only [World.move, hne]
        exact h.clock (by simp [hm]) h1 h2

/-- What a run consumes, for algorithms whose use of nonce and timestamp is constant. -/
theorem runCalls_consumes {cfg : Cfg} {wr : Writer W} {sg : Sign S} {e : Env}
    (hsg : ConstSign sg e.name e.useNonce e.useTimestamp) {cs : List Call} {a a' : Authorizer S W}
    {w w' : World} (ha : a.options = e.options)
    (h : runCalls (Authorizer.serializer cfg wr sg) cs a w = .ok (a', w')) :
    w' = cs.foldl (advance e) w := by
  induction cs generalizing a w with
  | nil => cases h; rfl
  | cons c cs ih =>
    simp only [runCalls] at h
    obtain ⟨a1, w1, h1, h2⟩ := M.bind_ok.mp h
    obtain ⟨ho, rfl⟩ := call_options h1
    rw [ih (ho.trans ha) h2, List.foldl_cons]
    congr 1
    have e1 : readsRng sg a c = needsRng e c := by
      simp only [readsRng, needsRng, hsg.useNonce, ha]
    have e2 : readsClock sg a c = needsClock e c := by
      simp only [readsClock, needsClock, hsg.useTimestamp, ha]
    rw [e1, e2]
    rfl

/-- A run with nonce and timestamp pinned consumes nothing. -/
theorem runCalls_pinned {cfg : Cfg} {wr : Writer W} {sg : Sign S} {cs : List Call}
    {a a' : Authorizer S W} {w w' : World} (hn : a.options.nonce ≠ none)
    (ht : a.options.timestamp ≠ none)
    (h : runCalls (Authorizer.serializer cfg wr sg) cs a w = .ok (a', w')) : w' = w := by
  induction cs generalizing a w with
  | nil => cases h; rfl
  | cons c cs ih =>
    simp only [runCalls] at h
    obtain ⟨a1, w1, h1, h2⟩ := M.bind_ok.mp h
    obtain ⟨ho, rfl⟩ := call_options h1
    rw [ih (by rw [ho]; exact hn) (by rw [ho]; exact ht) h2]
    have r1 : readsRng sg a c = false := by
      unfold readsRng
      cases hx : a.options.nonce with
      | none => exact absurd hx hn
      | some x => simp
    have r2 : readsClock sg a c = false := by
      unfold readsClock
      cases hx : a.options.timestamp with
      | none => exact absurd hx ht
      | some x => simp
    rw [r1, r2, World.move_ff]

/-- A run started from some state: all functions of `Builder` that authorize are of this form. -/
def runFrom (cfg : Cfg) (wr : Writer W) (sg : Sign S) (start : Except Panic (Authorizer S W))
    (r : Request) : M W := do
  let s ← (liftM start : M (Authorizer S W))
  r.serialize (Authorizer.serializer cfg wr sg) s

theorem runFrom_sameView (cfg : Cfg) (wr : Writer W) (sg : Sign S)
    (start : Except Panic (Authorizer S W)) (o : Options) (ho : ∀ a, start = .ok a → a.options = o)
    {r : Request} {cs : List Call} (hr : IsTrace r cs) (hnd : (cs.filterMap Call.proto?).Nodup)
    (w1 w2 : World) (h : SameView sg o cs w1 w2) :
    result (runFrom cfg wr sg start r w1) = result (runFrom cfg wr sg start r w2) := by
  unfold runFrom
  cases start with
  | error p => rfl
  | ok a =>
    simp only [bind, StateT.bind, Except.bind, liftM_apply, Except.map]
    rw [hr]
    simp only [bind, StateT.bind, Except.bind]
    have := runCalls_sameView cfg wr sg cs hnd a w1 w2 (by rw [ho a rfl]; exact h)
    revert this
    cases runCalls (Authorizer.serializer cfg wr sg) cs a w1 with
    | error p =>
      cases runCalls (Authorizer.serializer cfg wr sg) cs a w2 with
      | error q => intro this; simpa [result, Except.map] using this
      | ok y => intro this; simp [result, Except.map] at this
    | ok x =>
      cases runCalls (Authorizer.serializer cfg wr sg) cs a w2 with
      | error q => intro this; simp [result, Except.map] at this
      | ok y =>
        intro this
        simp only [result, Except.map, Except.ok.injEq] at this
        simp only [this]
        show result ((liftM (y.1.endM wr sg) : M W) x.2) = result ((liftM (y.1.endM wr sg) : M W) y.2)
        rw [liftM_apply, liftM_apply]
        cases y.1.endM wr sg <;> rfl

theorem runFrom_world {cfg : Cfg} {wr : Writer W} {sg : Sign S}
    {start : Except Panic (Authorizer S W)} {r : Request} {cs : List Call} (hr : IsTrace r cs)
    {w w' : World} {out : W} (h : runFrom cfg wr sg start r w = .ok (out, w')) :
    ∃ a a', start = .ok a ∧ runCalls (Authorizer.serializer cfg wr sg) cs a w = .ok (a', w') := by
  unfold runFrom at h
  rw [M.bind_ok] at h
  obtain ⟨a, w1, h1, h2⟩ := h
  obtain ⟨hs, rfl⟩ := M.lift_ok.mp h1
  rw [hr, M.bind_ok] at h2
  obtain ⟨a', w2, h2, h3⟩ := h2
  obtain ⟨h3, rfl⟩ := M.lift_ok.mp (h3 : (liftM (a'.endM wr sg) : M W) _ = _)
  exact ⟨a, a', hs, h2⟩

end OAuth
