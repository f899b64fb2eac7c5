import Verif.Proofs.Authorize

/-
Runs of an authorizing serializer with two signing algorithms that behave alike.
-/

namespace OAuth

open Spec

/-- Both panic alike, or both succeed with related values. -/
def Alike {α β : Type} (R : α → β → Prop) : Except Panic α → Except Panic β → Prop
  | .ok a, .ok b => R a b
  | .error p, .error q => p = q
  | _, _ => False

theorem Alike.bind {α β α' β' : Type} {R : α → β → Prop} {R' : α' → β' → Prop}
    {x : Except Panic α} {y : Except Panic β} {f : α → Except Panic α'} {g : β → Except Panic β'}
    (h : Alike R x y) (hf : ∀ a b, R a b → Alike R' (f a) (g b)) :
    Alike R' (x >>= f) (y >>= g) := by
  cases x <;> cases y <;> first | exact h.elim | skip
  · exact h
  · exact hf _ _ h

theorem Alike.refl {α : Type} {R : α → α → Prop} (hR : ∀ a, R a a) (x : Except Panic α) : Alike R x x := by
  cases x <;> simp [Alike, hR]

theorem Alike.mono {α β : Type} {R R' : α → β → Prop} (h : ∀ a b, R a b → R' a b)
    {x : Except Panic α} {y : Except Panic β} (hxy : Alike R x y) : Alike R' x y := by
  cases x <;> cases y <;> first | exact hxy.elim | skip
  · exact hxy
  · exact h _ _ hxy

/-- The same on both sides of an equation between results. -/
theorem Alike.eq {α : Type} {x y : Except Panic α} (h : Alike (· = ·) x y) : x = y := by
  cases x <;> cases y <;> simp_all [Alike]

/-- Two signing algorithms whose calls, but for `end`, keep their states related. -/
structure SignRel {S T : Type} (sg : Sign S) (tg : Sign T) (R : S → T → Prop) : Prop where
  name : ∀ s t, R s t → sg.name s = tg.name t
  useNonce : ∀ s t, R s t → sg.useNonce s = tg.useNonce t
  useTimestamp : ∀ s t, R s t → sg.useTimestamp s = tg.useTimestamp t
  parameter : ∀ s t, R s t → ∀ k v, Alike R (sg.parameter s k v) (tg.parameter t k v)
  delimiter : ∀ s t, R s t → Alike R (sg.delimiter s) (tg.delimiter t)
  callback : ∀ s t, R s t → ∀ v, Alike R (sg.callback s v) (tg.callback t v)
  consumerKey : ∀ s t, R s t → ∀ v, Alike R (sg.consumerKey s v) (tg.consumerKey t v)
  nonce : ∀ s t, R s t → ∀ v, Alike R (sg.nonce s v) (tg.nonce t v)
  signatureMethod : ∀ s t, R s t → Alike R (sg.signatureMethod s) (tg.signatureMethod t)
  timestamp : ∀ s t, R s t → ∀ n, Alike R (sg.timestamp s n) (tg.timestamp t n)
  token : ∀ s t, R s t → ∀ v, Alike R (sg.token s v) (tg.token t v)
  verifier : ∀ s t, R s t → ∀ v, Alike R (sg.verifier s v) (tg.verifier t v)
  version : ∀ s t, R s t → Alike R (sg.version s) (tg.version t)

/-- Serializers that differ in the state of the signing algorithm only. -/
structure SameBut {S T W : Type} (R : S → T → Prop) (a : Authorizer S W) (b : Authorizer T W) : Prop where
  consumerKey : a.consumerKey = b.consumerKey
  token : a.token = b.token
  options : a.options = b.options
  data : a.data = b.data
  sign : R a.sign b.sign
  delim : a.appendDelimToSign = b.appendDelimToSign
  prevKey : a.prevKey = b.prevKey

section
variable {S T W : Type} {R : S → T → Prop} {sg : Sign S} {tg : Sign T} (h : SignRel sg tg R) (cfg : Cfg)
  (wr : Writer W)

theorem sim_setSign {a : Authorizer S W} {b : Authorizer T W} (hab : SameBut R a b) {x : Except Panic S}
    {y : Except Panic T} (hxy : Alike R x y) :
    Alike (SameBut R) (x >>= fun s => .ok { a with sign := s }) (y >>= fun t => .ok { b with sign := t }) :=
  hxy.bind fun _ _ hst => ⟨hab.1, hab.2, hab.3, hab.4, hst, hab.6, hab.7⟩

theorem sim_check {a : Authorizer S W} {b : Authorizer T W} (hab : SameBut R a b) (k : Bytes) :
    Alike (SameBut R) (a.checkDictionaryOrder cfg k) (b.checkDictionaryOrder cfg k) := by
  unfold Authorizer.checkDictionaryOrder
  rw [hab.prevKey]
  split
  · split
    · exact ⟨hab.1, hab.2, hab.3, hab.4, hab.5, hab.6, rfl⟩
    · exact (rfl : Panic.keyOrder = .keyOrder)
  · exact hab

include h

theorem sim_delimiter {a : Authorizer S W} {b : Authorizer T W} (hab : SameBut R a b) :
    Alike (SameBut R) (a.signDelimiter sg) (b.signDelimiter tg) := by
  unfold Authorizer.signDelimiter
  cases hd : a.appendDelimToSign <;> have hd' := hab.delim ▸ hd
  · rw [hd']
    exact ⟨hab.1, hab.2, hab.3, hab.4, hab.5, rfl, hab.7⟩
  · rw [hd']
    exact (h.delimiter _ _ hab.sign).bind fun _ _ hst => ⟨hab.1, hab.2, hab.3, hab.4, hst, rfl, hab.7⟩

theorem sim_append {a : Authorizer S W} {b : Authorizer T W} (hab : SameBut R a b) (k : Bytes) (v : Display) :
    Alike (SameBut R) (a.appendToHeaderEncoded cfg wr sg k v) (b.appendToHeaderEncoded cfg wr tg k v) := by
  unfold Authorizer.appendToHeaderEncoded
  refine (sim_check cfg hab k).bind fun a b hab => ?_
  rw [hab.data]
  refine Alike.bind (R := (· = ·)) (Alike.refl (fun _ => rfl) _) fun d e hde => ?_
  exact sim_delimiter h ⟨hab.1, hab.2, hab.3, hde, hab.5, hab.6, hab.7⟩

theorem sim_inner {a : Authorizer S W} {b : Authorizer T W} (hab : SameBut R a b) (k : Bytes) (v : Display)
    {f : S → Except Panic S} {g : T → Except Panic T} (hfg : ∀ s t, R s t → Alike R (f s) (g t)) :
    Alike (SameBut R) (a.appendInner cfg wr sg k v f) (b.appendInner cfg wr tg k v g) := by
  unfold Authorizer.appendInner
  exact (sim_append h cfg wr hab k v).bind fun a b hab => sim_setSign hab (hfg _ _ hab.sign)

/-- Results with an environment: the environments are the same afterwards. -/
def withWorld {α β : Type} (R : α → β → Prop) (x : α × World) (y : β × World) : Prop := R x.1 y.1 ∧ x.2 = y.2

omit h in
theorem sim_lift {α β : Type} {Q : α → β → Prop} {x : Except Panic α} {y : Except Panic β} (hxy : Alike Q x y)
    (w : World) : Alike (withWorld Q) ((liftM x : M α) w) ((liftM y : M β) w) := by
  cases x <;> cases y <;> first | exact hxy.elim | skip
  · exact hxy
  · exact ⟨hxy, rfl⟩

omit h in
theorem sim_bind {α β α' β' : Type} {Q : α → β → Prop} {Q' : α' → β' → Prop} {x : M α} {y : M β} {f : α → M α'}
    {g : β → M β'} {w : World} (hxy : Alike (withWorld Q) (x w) (y w))
    (hfg : ∀ a b w, Q a b → Alike (withWorld Q') (f a w) (g b w)) :
    Alike (withWorld Q') ((x >>= f) w) ((y >>= g) w) := by
  show Alike _ (x w >>= fun p => f p.1 p.2) (y w >>= fun p => g p.1 p.2)
  exact hxy.bind fun p q hpq => by
    obtain ⟨h1, h2⟩ := hpq
    rw [h2]
    exact hfg _ _ _ h1

theorem sim_call (c : Call) {a : Authorizer S W} {b : Authorizer T W} (hab : SameBut R a b) (w : World) :
    Alike (withWorld (SameBut R)) (c.run (Authorizer.serializer cfg wr sg) a w)
      (c.run (Authorizer.serializer cfg wr tg) b w) := by
  cases c with
  | parameter k v =>
    exact sim_lift ((sim_check cfg hab k).bind fun a b hab => (sim_delimiter h hab).bind fun a b hab =>
      sim_setSign hab (h.parameter _ _ hab.sign _ _)) w
  | parameterEncoded k v =>
    exact sim_lift ((sim_check cfg hab k).bind fun a b hab => (sim_delimiter h hab).bind fun a b hab =>
      sim_setSign hab (h.parameter _ _ hab.sign _ _)) w
  | oauth p =>
    cases p with
    | callback =>
      refine sim_lift (Q := SameBut R) ?_ w
      unfold Authorizer.callback
      rw [hab.options]
      split
      · exact sim_inner h cfg wr hab _ _ fun s t hst => h.callback s t hst _
      · exact hab
    | consumerKey =>
      refine sim_lift (Q := SameBut R) ?_ w
      unfold Authorizer.consumerKeyM
      rw [hab.consumerKey]
      exact sim_inner h cfg wr hab _ _ fun s t hst => h.consumerKey s t hst _
    | nonce =>
      show Alike _ ((a.nonce cfg wr sg) w) ((b.nonce cfg wr tg) w)
      unfold Authorizer.nonce
      rw [hab.options, h.useNonce _ _ hab.sign]
      split
      · cases b.options.nonce with
        | some n => exact sim_lift (sim_inner h cfg wr hab _ _ fun s t hst => h.nonce s t hst _) w
        | none =>
          refine sim_bind (Q := (· = ·)) (Alike.refl (fun _ => ⟨rfl, rfl⟩) _) fun r r' w hr => ?_
          subst hr
          refine sim_bind (Q := (· = ·)) (Alike.refl (fun _ => ⟨rfl, rfl⟩) _) fun n n' w hn => ?_
          subst hn
          exact sim_lift (sim_inner h cfg wr hab _ _ fun s t hst => h.nonce s t hst _) w
      · exact ⟨hab, rfl⟩
    | signatureMethod =>
      refine sim_lift (Q := SameBut R) ?_ w
      unfold Authorizer.signatureMethod
      rw [h.name _ _ hab.sign]
      exact (sim_append h cfg wr hab _ _).bind fun a b hab => sim_setSign hab (h.signatureMethod _ _ hab.sign)
    | timestamp =>
      show Alike _ ((a.timestamp cfg wr sg) w) ((b.timestamp cfg wr tg) w)
      unfold Authorizer.timestamp
      rw [hab.options, h.useTimestamp _ _ hab.sign]
      split
      · cases b.options.timestamp with
        | some n => exact sim_lift (sim_inner h cfg wr hab _ _ fun s t hst => h.timestamp s t hst _) w
        | none =>
          refine sim_bind (Q := (· = ·)) (Alike.refl (fun _ => ⟨rfl, rfl⟩) _) fun r r' w hr => ?_
          subst hr
          exact sim_lift (sim_inner h cfg wr hab _ _ fun s t hst => h.timestamp s t hst _) w
      · exact ⟨hab, rfl⟩
    | token =>
      refine sim_lift (Q := SameBut R) ?_ w
      unfold Authorizer.tokenM
      rw [hab.token]
      split
      · exact sim_inner h cfg wr hab _ _ fun s t hst => h.token s t hst _
      · exact hab
    | verifier =>
      refine sim_lift (Q := SameBut R) ?_ w
      unfold Authorizer.verifier
      rw [hab.options]
      split
      · exact sim_inner h cfg wr hab _ _ fun s t hst => h.verifier s t hst _
      · exact hab
    | version =>
      refine sim_lift (Q := SameBut R) ?_ w
      unfold Authorizer.version
      rw [hab.options]
      split
      · exact (sim_append h cfg wr hab _ _).bind fun a b hab => sim_setSign hab (h.version _ _ hab.sign)
      · exact hab

theorem sim_calls (cs : List Call) {a : Authorizer S W} {b : Authorizer T W} (hab : SameBut R a b) (w : World) :
    Alike (withWorld (SameBut R)) (runCalls (Authorizer.serializer cfg wr sg) cs a w)
      (runCalls (Authorizer.serializer cfg wr tg) cs b w) := by
  induction cs generalizing a b w with
  | nil => exact ⟨hab, rfl⟩
  | cons c cs ih => exact sim_bind (sim_call h cfg wr c hab w) fun a b w hab => ih hab w

/-- Whole runs. -/
theorem sim_serialize {r : Request} {cs : List Call} (hr : IsTrace r cs) {Q : W → W → Prop}
    (hend : ∀ a b, SameBut R a b → Alike Q (a.endM wr sg) (b.endM wr tg))
    {a : Authorizer S W} {b : Authorizer T W} (hab : SameBut R a b) (w : World) :
    Alike (withWorld Q) (r.serialize (Authorizer.serializer cfg wr sg) a w)
      (r.serialize (Authorizer.serializer cfg wr tg) b w) := by
  rw [hr, hr]
  exact sim_bind (sim_calls h cfg wr cs hab w) fun a b w hab => sim_lift (hend a b hab) w

end

/-- The closed form of `end` on strings. -/
theorem endM_string {S : Type} (sg : Sign S) (a : Authorizer S Bytes) :
    a.endM stringWriter sg = sg.end a.sign >>= fun sig => sig.outcome.check (a.data.finish sig.text) := by
  cases hs : sg.end a.sign with
  | error p =>
    unfold Authorizer.endM
    cases a.data with
    | authorization hd => simp [hs, bind, Except.bind, stringWriter_writeUnwrap, Display.ofBytes, Outcome.check]
    | urlencode u => simp [hs, bind, Except.bind]
  | ok sig =>
    have hq : (Display.concat [.ofBytes b!"\"", sig, .ofBytes b!"\""]).outcome = sig.outcome := by
      simp only [Display.concat_cons, Display.concat_nil]
      rw [Display.outcome_append_ok (by rfl)]
      cases hso : sig.outcome with
      | ok => rw [Display.outcome_append_ok hso]; rfl
      | err => rw [Display.append_not_ok (by simp [hso]), hso]
      | panic p => rw [Display.append_not_ok (by simp [hso]), hso]
    cases hso : sig.outcome with
    | ok =>
      rw [(endM_ok_iff sg a _).mpr ⟨sig, hs, hso, rfl⟩]
      simp only [bind, Except.bind, hso, Outcome.check]
    | err =>
      unfold Authorizer.endM
      cases a.data with
      | authorization hd =>
        simp only [hs, bind, Except.bind, stringWriter_writeUnwrap, hq, hso]
        simp [Display.ofBytes, Outcome.check]
      | urlencode u =>
        simp only [hs, bind, Except.bind, Urlencoder.parameterEncoded_string, hso]
        simp [Outcome.check]
    | panic p =>
      unfold Authorizer.endM
      cases a.data with
      | authorization hd =>
        simp only [hs, bind, Except.bind, stringWriter_writeUnwrap, hq, hso]
        simp [Display.ofBytes, Outcome.check]
      | urlencode u =>
        simp only [hs, bind, Except.bind, Urlencoder.parameterEncoded_string, hso]
        simp [Outcome.check]

end OAuth
