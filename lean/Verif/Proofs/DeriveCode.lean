import Verif.Spec.DeriveCode
import Verif.Proofs.Derive

namespace OAuth
namespace Derive

open Spec

theorem Code.append_nil (c : Code) : c.append .nil = c := by
  induction c <;> simp_all [Code.append]

theorem Code.append_assoc (a b c : Code) : (a.append b).append c = a.append (b.append c) := by
  induction a <;> simp_all [Code.append]

/-! ### Shape of the generated code -/

/-- Calls for protocol parameters, followed by `rest`. -/
def oauthCodes : List Proto → Code → Code
  | [], rest => rest
  | q :: ps, rest => .oauth serId (paramOf q) (oauthCodes ps rest)

theorem oauthCodes_append (ps qs : List Proto) (d : Code) :
    oauthCodes (ps ++ qs) d = oauthCodes ps (oauthCodes qs d) := by
  induction ps <;> simp_all [oauthCodes]

theorem append_oauthCodes (ps : List Proto) (c d : Code) :
    (oauthCodes ps c).append d = oauthCodes ps (c.append d) := by
  induction ps <;> simp_all [oauthCodes, Code.append]

theorem cursor_code (p : OAuthParameter) (hp : p ≠ .none) :
    ∃ q ps, protoFrom p = q :: ps ∧ oauthCode p = .ok (oauthCodes [q] .nil) := by
  cases p
  case none => exact absurd rfl hp
  all_goals exact ⟨_, _, rfl, rfl⟩

theorem codeLess_eq (cfg : Cfg) (k : Bytes) (fuel : Nat) (p : OAuthParameter) (tokens : Code)
    (hf : (protoFrom p).length < fuel) :
    codeLess cfg k fuel p tokens =
      .ok (cursorOf ((protoFrom p).dropWhile (fun q => cmpBytes q.name k == .lt)),
        tokens.append (oauthCodes ((protoFrom p).takeWhile (fun q => cmpBytes q.name k == .lt)) .nil)) := by
  induction fuel generalizing p tokens with
  | zero => omega
  | succ fuel ih =>
    by_cases hp : p = .none
    · subst hp
      simp [codeLess, OAuthParameter.ltStr, OAuthParameter.cmpStr, OAuthParameter.asStr, protoFrom,
        cursorOf, oauthCodes, Code.append_nil]
    · obtain ⟨q, p', h1, h2, h3, -⟩ := cursor_step cfg p hp
      obtain ⟨q', ps, h1', ht⟩ := cursor_code p hp
      rw [h1] at h1'; cases h1'
      simp only [codeLess, h3, h2, h1, List.takeWhile_cons, List.dropWhile_cons, ht, Except.ok_bind']
      split
      · rw [ih p' _ (by rw [h1] at hf; simp at hf; omega)]
        simp [oauthCodes, Code.append_assoc, Code.append]
      · rw [← h1, cursorOf_protoFrom]; simp [oauthCodes, Code.append_nil]

theorem codeRest_eq (cfg : Cfg) (fuel : Nat) (p : OAuthParameter) (tokens : Code)
    (hf : (protoFrom p).length < fuel) :
    codeRest cfg fuel p tokens = .ok (tokens.append (oauthCodes (protoFrom p) .nil)) := by
  induction fuel generalizing p tokens with
  | zero => omega
  | succ fuel ih =>
    by_cases hp : p = .none
    · subst hp; simp [codeRest, protoFrom, oauthCodes, Code.append_nil]
    · obtain ⟨q, p', h1, h2, -, -⟩ := cursor_step cfg p hp
      obtain ⟨q', ps, h1', ht⟩ := cursor_code p hp
      rw [h1] at h1'; cases h1'
      simp only [codeRest, if_pos hp, h2, h1, ht, Except.ok_bind']
      rw [ih p' _ (by rw [h1] at hf; simp at hf; omega)]
      simp [oauthCodes, Code.append_assoc, Code.append]

/-- The code for the fields when the remaining protocol parameters are `ps`, and then `d`. -/
def weaveCode (sp : Spans) : List Proto → List Field → Code → Code
  | ps, [], d => oauthCodes ps d
  | ps, f :: fs, d =>
    oauthCodes (ps.takeWhile (fun q => cmpBytes q.name f.name == .lt))
      ((fieldCode sp f).append
        (weaveCode sp (ps.dropWhile (fun q => cmpBytes q.name f.name == .lt)) fs d))

theorem append_weaveCode (sp : Spans) (ps : List Proto) (fs : List Field) (c d : Code) :
    (weaveCode sp ps fs c).append d = weaveCode sp ps fs (c.append d) := by
  induction fs generalizing ps with
  | nil => simp [weaveCode, append_oauthCodes]
  | cons f fs ih => simp [weaveCode, append_oauthCodes, Code.append_assoc, ih]

theorem code_eq (cfg : Cfg) (sp : Spans) (fs : List Field) (p : OAuthParameter) (tokens : Code) :
    (do let (p, tokens) ← codeFields cfg sp fs p tokens
        let tokens ← codeRest cfg 9 p tokens
        .ok (tokens.append (.fin serId))) =
      Except.ok (ε := Panic)
        (tokens.append (weaveCode sp (protoFrom p) (kept fs) (.fin serId))) := by
  induction fs generalizing p tokens with
  | nil => simp [codeFields, Except.ok_bind', codeRest_eq cfg 9 p tokens (protoFrom_length p), kept,
      weaveCode, Code.append_assoc, append_oauthCodes, Code.append]
  | cons f fs ih =>
    by_cases hs : f.info.skip = true
    · simp only [codeFields, hs, if_true, ih]
      simp [kept, hs]
    · have hk : kept (f :: fs) = f :: kept fs := by simp [kept, hs]
      simp only [codeFields, hs, codeLess_eq cfg f.name 9 p tokens (protoFrom_length p),
        Except.ok_bind', Bool.false_eq_true, if_false]
      rw [ih, protoFrom_dropWhile, hk]
      simp [weaveCode, Code.append_assoc, append_oauthCodes, Code.append]

/-- The prologue of the method body. -/
def prologue (fs : List Field) (rest : Code) : Code :=
  if fs.any (fun f => f.info.fmt.isSome) || fs.any (fun f => f.info.skipIf.isSome) then
    .letS helperId (.newHelper (fs.any (fun f => f.info.fmt.isSome))
      (fs.any (fun f => f.info.skipIf.isSome))) rest
  else rest

theorem methodCode_eq (cfg : Cfg) (sp : Spans) (fs : List Field) :
    methodCode cfg sp fs = .ok (prologue fs (weaveCode sp allProto (kept fs) (.fin serId))) := by
  unfold methodCode
  refine (code_eq cfg sp fs .default _).trans ?_
  simp only [prologue, OAuthParameter.default, protoFrom]
  split <;> rfl

/-! ### Scopes -/

/-- Only the expansion's own variables are in scope. -/
def Own {α : Type} (env : Env α) : Prop := ∀ n c, c ≠ 0 → env.get ⟨n, c⟩ = none

theorem Own.nil {α : Type} : Own ([] : Env α) := fun _ _ _ => rfl

theorem Own.cons {α : Type} {env : Env α} (h : Own env) (n : Bytes) (v : α) :
    Own ((mixedSite n, v) :: env) := by
  intro m c hc
  have : (⟨m, c⟩ : Id) ≠ mixedSite n := fun e => hc (congrArg Id.ctx e)
  simp [Env.get, this, h m c hc]

theorem Env.get_self {α : Type} (env : Env α) (x : Id) (v : α) : Env.get ((x, v) :: env) x = some v := by
  simp [Env.get]

theorem Env.get_ne {α : Type} (env : Env α) (x y : Id) (v : α) (h : x.name ≠ y.name) :
    Env.get ((y, v) :: env) x = Env.get env x := by
  have : x ≠ y := fun e => h (congrArg Id.name e)
  simp [Env.get, this]

/-! ### Running it -/

section Run

variable {V σ ω : Type}

/-- What the code for a field relies on. -/
structure Ready (env : Env (RVal V)) (f : Field) : Prop where
  own : Own env
  ser : env.get serId = some .ser
  this : env.get this = some .this
  fmt : f.info.fmt ≠ none → ∃ b, env.get helperId = some (.helper true b)
  skipIf : f.info.skipIf ≠ none → ∃ a, env.get helperId = some (.helper a true)

theorem Ready.bind {env : Env (RVal V)} {f : Field} (h : Ready env f) (v : RVal V) :
    Ready ((bindId, v) :: env) f where
  own := h.own.cons _ _
  ser := by rw [Env.get_ne _ _ _ _ (by decide)]; exact h.ser
  this := by rw [Env.get_ne _ _ _ _ (by decide)]; exact h.this
  fmt := by rw [Env.get_ne _ _ _ _ (by decide)]; exact h.fmt
  skipIf := by rw [Env.get_ne _ _ _ _ (by decide)]; exact h.skipIf

/-- The statements that send a field, once its value is at hand. -/
def sendCode (sp : Spans) (f : Field) (unwrapped : RExpr) : Code :=
  match f.info.fmt with
  | some p => .letS (mixedSite b!"fmt") (.fmtImplsFn helperId (.path p (sp.fmt f)))
      (.letS ⟨b!"tmp", sp.ty f⟩ unwrapped
        (.parameter serId f.info.encoded f.name
          (.fmt helperId (.var (mixedSite b!"fmt")) (.var ⟨b!"tmp", sp.ty f⟩)) .nil))
  | none => .letS ⟨b!"tmp", sp.ty f⟩ unwrapped
      (.parameter serId f.info.encoded f.name (.var ⟨b!"tmp", sp.ty f⟩) .nil)

/-- The condition on which a field is sent. -/
def condCode (sp : Spans) (f : Field) (p : ExprPath) (unwrapped : RExpr) : RExpr :=
  .not (.call (.skipIfImplsFn helperId (.path p (sp.skipIf f)))
    (.letIn ⟨b!"tmp", sp.ty f⟩ unwrapped (.var ⟨b!"tmp", sp.ty f⟩)))

/-- The same on a condition. -/
def guardCode (sp : Spans) (f : Field) (unwrapped : RExpr) : Code :=
  match f.info.skipIf with
  | some p => .ite (condCode sp f p unwrapped) (sendCode sp f unwrapped) .nil
  | none => sendCode sp f unwrapped

theorem fieldCode_eq (sp : Spans) (f : Field) : fieldCode sp f =
    if f.info.option.getD (isOption f.ty) then
      .ifLet bindId (.letIn ⟨b!"tmp", sp.ty f⟩ (.addrOfField this f.ident)
        (.asRef (.var ⟨b!"tmp", sp.ty f⟩))) (guardCode sp f (.var bindId)) .nil
    else match f.info.skipIf with
      | some _ => guardCode sp f (.addrOfField this f.ident)
      | none => .block (guardCode sp f (.addrOfField this f.ident)) .nil := by
  unfold fieldCode guardCode sendCode condCode
  cases f.info.option.getD (isOption f.ty) <;> cases f.info.skipIf <;> cases f.info.fmt <;> rfl

variable (sc : Scope V) (self : Bytes → V) (S : Serializer σ ω)

/-- The unwrapped value is `u`, also inside the bindings of the code for the field. -/
def Evals (e : RExpr) (env : Env (RVal V)) (u : V) : Prop :=
  e.eval sc self env = .ok (.ref u) ∧ ∀ v, e.eval sc self ((mixedSite b!"fmt", v) :: env) = .ok (.ref u)

theorem evals_bind (env : Env (RVal V)) (u : V) :
    Evals sc self (.var bindId) ((bindId, .ref u) :: env) u := by
  constructor
  · simp [RExpr.eval, Env.get_self]
  · intro v
    simp only [RExpr.eval]
    rw [Env.get_ne _ _ _ _ (by decide), Env.get_self]

theorem evals_field {env : Env (RVal V)} (h : env.get this = some .this) (i : Bytes) :
    Evals sc self (.addrOfField this i) env (self i) := by
  constructor
  · simp [RExpr.eval, h]
  · intro v
    simp only [RExpr.eval]
    rw [Env.get_ne _ _ _ _ (by decide), h]

theorem exec_send {sp : Spans} (hsp : Foreign sp) {f : Field} {env : Env (RVal V)} (h : Ready env f)
    {e : RExpr} {u : V} (he : Evals sc self e env u) (s : σ) :
    (sendCode sp f e).exec sc self S env s = (do
      let s ← Call.run S (if f.info.encoded then .parameterEncoded f.name (shownBy sc f u)
        else .parameter f.name (shownBy sc f u)) s
      pure (s, false)) := by
  unfold sendCode shownBy
  cases hf : f.info.fmt with
  | none =>
    have hser : Env.get ((⟨b!"tmp", sp.ty f⟩, .ref u) :: env) serId = some (RVal.ser (V := V)) := by
      rw [Env.get_ne _ _ _ _ (by show _ ≠ b!"tmp"; decide)]; exact h.ser
    simp only [Code.exec, he.1, liftOk, pure_bind, Env.isSer, hser, RExpr.eval, Env.get_self, RVal.shown]
    cases f.info.encoded <;> rfl
  | some p =>
    obtain ⟨b, hh⟩ := h.fmt (by simp [hf])
    have hpath := h.own p (sp.fmt f) (hsp.fmt f)
    simp only [Code.exec, RExpr.eval, hpath, Except.ok_bind', hh, liftOk, pure_bind, he.2]
    have hser : Env.get ((⟨b!"tmp", sp.ty f⟩, .ref u) :: (mixedSite b!"fmt", .fmtFn (sc.fmt p)) :: env)
        serId = some (RVal.ser (V := V)) := by
      rw [Env.get_ne _ _ _ _ (by show _ ≠ b!"tmp"; decide), Env.get_ne _ _ _ _ (by decide)]; exact h.ser
    have hhelper : Env.get ((⟨b!"tmp", sp.ty f⟩, .ref u) ::
        (mixedSite b!"fmt", .fmtFn (sc.fmt p)) :: env) helperId = some (RVal.helper (V := V) true b) := by
      rw [Env.get_ne _ _ _ _ (by show _ ≠ b!"tmp"; decide), Env.get_ne _ _ _ _ (by decide)]; exact hh
    have hfmt : Env.get ((⟨b!"tmp", sp.ty f⟩, .ref u) ::
        (mixedSite b!"fmt", .fmtFn (sc.fmt p)) :: env) (mixedSite b!"fmt") =
          some (RVal.fmtFn (sc.fmt p)) := by
      rw [Env.get_ne _ _ _ _ (by show _ ≠ b!"tmp"; decide), Env.get_self]
    simp only [Env.isSer, hser, hhelper, hfmt, Env.get_self, liftOk, pure_bind, Except.ok_bind', RVal.shown]
    cases f.info.encoded <;> rfl

theorem exec_ite {sp : Spans} (hsp : Foreign sp) {f : Field} {env : Env (RVal V)} (h : Ready env f)
    {e : RExpr} {u : V} (he : Evals sc self e env u) (p : ExprPath) (hp : f.info.skipIf = some p)
    (d : Code) (s : σ) :
    (Code.ite (condCode sp f p e) (sendCode sp f e) d).exec sc self S env s =
      if sc.pred p u then d.exec sc self S env s
      else (do
        let s ← Call.run S (if f.info.encoded then .parameterEncoded f.name (shownBy sc f u)
          else .parameter f.name (shownBy sc f u)) s
        d.exec sc self S env s) := by
  obtain ⟨a, hh⟩ := h.skipIf (by simp [hp])
  have hpath := h.own p (sp.skipIf f) (hsp.skipIf f)
  simp only [Code.exec, condCode, RExpr.eval, hpath, Except.ok_bind', hh, he.1, Env.get_self, liftOk,
    pure_bind]
  cases hu : sc.pred p u with
  | true => simp
  | false =>
    simp only [Bool.not_false, exec_send sc self S hsp h he]
    simp

theorem exec_guard {sp : Spans} (hsp : Foreign sp) {f : Field} {env : Env (RVal V)} (h : Ready env f)
    {e : RExpr} {u : V} (he : Evals sc self e env u) (s : σ) :
    (guardCode sp f e).exec sc self S env s =
      if (f.info.skipIf.map (fun p => sc.pred p u)).getD false then pure (s, false)
      else (do
        let s ← Call.run S (if f.info.encoded then .parameterEncoded f.name (shownBy sc f u)
          else .parameter f.name (shownBy sc f u)) s
        pure (s, false)) := by
  unfold guardCode
  cases hp : f.info.skipIf with
  | none => simpa using exec_send sc self S hsp h he s
  | some p => simpa [Code.exec] using exec_ite sc self S hsp h he p hp .nil s

/-- The code for a field makes the calls of the field, and binds nothing for what follows. -/
theorem exec_fieldCode {sp : Spans} (hsp : Foreign sp) {f : Field} {env : Env (RVal V)} (h : Ready env f)
    (d : Code) (s : σ) :
    ((fieldCode sp f).append d).exec sc self S env s = (do
      let s ← runCalls S (fieldCall sc self f).toList s
      d.exec sc self S env s) := by
  rw [fieldCode_eq]
  unfold fieldCall
  cases ho : f.info.option.getD (isOption f.ty) with
  | true =>
    have hthis : Env.get ((⟨b!"tmp", sp.ty f⟩, .ref (self f.ident)) :: env) ⟨b!"tmp", sp.ty f⟩ =
      some (RVal.ref (self f.ident)) := Env.get_self _ _ _
    simp only [if_true, Code.append, Code.exec, RExpr.eval, h.this, Except.ok_bind', hthis, liftOk,
      pure_bind]
    cases hv : sc.asRef (self f.ident) with
    | none => simp [runCalls]
    | some u =>
      simp only [Option.bind_some]
      rw [exec_guard sc self S hsp (h.bind (.ref u)) (evals_bind sc self env u)]
      split
      · simp [runCalls]
      · simp [runCalls]
  | false =>
    simp only [Bool.false_eq_true, if_false, Option.bind_some]
    have hg := exec_guard sc self S hsp h (evals_field sc self h.this f.ident)
    cases hp : f.info.skipIf with
    | none =>
      simp only [Code.append, Code.exec, hg, hp]
      simp [runCalls]
    | some p =>
      simp only [guardCode, hp, Code.append, Option.map_some, Option.getD_some,
        exec_ite sc self S hsp h (evals_field sc self h.this f.ident) p hp]
      split <;> simp [runCalls]

theorem exec_oauthCodes {env : Env (RVal V)} (h : env.get serId = some .ser) (ps : List Proto) (d : Code)
    (s : σ) : (oauthCodes ps d).exec sc self S env s = (do
      let s ← runCalls S (ps.map .oauth) s
      d.exec sc self S env s) := by
  induction ps generalizing s with
  | nil => simp [oauthCodes, runCalls]
  | cons q ps ih =>
    have : ∀ s, (paramOf q).serialize S s = Call.run S (.oauth q) s := by intro s; cases q <;> rfl
    simp only [oauthCodes, Code.exec, Env.isSer, h, liftOk, pure_bind, this, ih, List.map_cons, runCalls]
    simp

theorem exec_weaveCode {sp : Spans} (hsp : Foreign sp) {env : Env (RVal V)}
    (hser : env.get serId = some .ser) (fs : List Field) (h : ∀ f ∈ fs, Ready env f)
    (ps : List Proto) (d : Code) (s : σ) :
    (weaveCode sp ps fs d).exec sc self S env s = (do
      let s ← runCalls S (weaveCalls sc self ps fs) s
      d.exec sc self S env s) := by
  induction fs generalizing ps s with
  | nil => exact exec_oauthCodes sc self S hser ps d s
  | cons f fs ih =>
    simp only [weaveCode, weaveCalls, exec_oauthCodes sc self S hser,
      exec_fieldCode sc self S hsp (h f (by simp)), ih (fun g hg => h g (by simp [hg])), runCalls_append]
    simp

theorem ready_any {fs : List Field} {env : Env (RVal V)} (hown : Own env)
    (hser : env.get serId = some .ser) (hthis : env.get this = some .this)
    (hh : fs.any (fun f => f.info.fmt.isSome) = true ∨ fs.any (fun f => f.info.skipIf.isSome) = true →
      env.get helperId = some (.helper (fs.any (fun f => f.info.fmt.isSome))
        (fs.any (fun f => f.info.skipIf.isSome)))) (f : Field) (hf : f ∈ fs) : Ready env f where
  own := hown
  ser := hser
  this := hthis
  fmt h := by
    have : fs.any (fun f => f.info.fmt.isSome) = true :=
      List.any_eq_true.mpr ⟨f, hf, by simpa [Option.isSome_iff_ne_none] using h⟩
    exact ⟨_, by rw [hh (.inl this), this]⟩
  skipIf h := by
    have : fs.any (fun f => f.info.skipIf.isSome) = true :=
      List.any_eq_true.mpr ⟨f, hf, by simpa [Option.isSome_iff_ne_none] using h⟩
    exact ⟨_, by rw [hh (.inr this), this]⟩

theorem own_start : Own [(serId, RVal.ser), (this, (RVal.this : RVal V))] :=
  (Own.nil.cons _ _).cons _ _

theorem mem_of_mem_kept {f : Field} {fs : List Field} (h : f ∈ kept fs) : f ∈ fs :=
  (List.mem_filter.mp h).1

/-- The method body makes the calls woven from the fields, and ends. -/
theorem exec_method {sp : Spans} (hsp : Foreign sp) (fs : List Field) (s : σ) :
    (prologue fs (weaveCode sp allProto (kept fs) (.fin serId))).exec sc self S
      [(serId, .ser), (this, .this)] s = (do
      let s ← runCalls S (weaveCalls sc self allProto (kept fs)) s
      pure (s, true)) := by
  have hfin : ∀ (env : Env (RVal V)), env.get serId = some .ser → ∀ s,
      (Code.fin serId).exec sc self S env s = pure (s, true) := by
    intro env h s
    simp [Code.exec, Env.isSer, h, liftOk]
  unfold prologue
  split
  · next ha =>
    have ha : fs.any (fun f => f.info.fmt.isSome) = true ∨ fs.any (fun f => f.info.skipIf.isSome) = true :=
      by simpa using ha
    simp only [Code.exec, RExpr.eval, liftOk, pure_bind]
    have hser : Env.get [(helperId, RVal.helper (V := V) (fs.any (fun f => f.info.fmt.isSome))
        (fs.any (fun f => f.info.skipIf.isSome))), (serId, .ser), (this, .this)] serId = some .ser := by
      rw [Env.get_ne _ _ _ _ (by decide)]; rfl
    rw [exec_weaveCode sc self S hsp hser _ (fun f hf => ready_any (own_start.cons _ _) hser
      (by rw [Env.get_ne _ _ _ _ (by decide)]; rfl) (fun _ => Env.get_self _ _ _) f
      (mem_of_mem_kept hf))]
    simp only [hfin _ hser]
  · next ha =>
    rw [exec_weaveCode sc self S hsp (by rfl) _ (fun f hf => ready_any own_start (by rfl) (by rfl)
      (fun h => absurd (by simpa using h) ha) f (mem_of_mem_kept hf))]
    simp only [hfin [(serId, .ser), (this, .this)] rfl]

end Run

/-! ### Type checking it -/

section Check

variable {T : Type}

/-- What the code for a field relies on. -/
structure ReadyT (env : Env (TVal T)) (f : Field) : Prop where
  own : Own env
  ser : env.get serId = some .ser
  this : env.get this = some .this
  fmt : f.info.fmt ≠ none → ∃ b, env.get helperId = some (.helper true b)
  skipIf : f.info.skipIf ≠ none → ∃ a, env.get helperId = some (.helper a true)

theorem ReadyT.bind {env : Env (TVal T)} {f : Field} (h : ReadyT env f) (v : TVal T) :
    ReadyT ((bindId, v) :: env) f where
  own := h.own.cons _ _
  ser := by rw [Env.get_ne _ _ _ _ (by decide)]; exact h.ser
  this := by rw [Env.get_ne _ _ _ _ (by decide)]; exact h.this
  fmt := by rw [Env.get_ne _ _ _ _ (by decide)]; exact h.fmt
  skipIf := by rw [Env.get_ne _ _ _ _ (by decide)]; exact h.skipIf

variable (Γ : Typing T)

/-- The unwrapped value has type `&t`, also inside the bindings of the code for the field. -/
def Types (e : RExpr) (env : Env (TVal T)) (t : T) : Prop :=
  e.type Γ env = some (.ref t) ∧ ∀ v, e.type Γ ((mixedSite b!"fmt", v) :: env) = some (.ref t)

theorem types_bind (env : Env (TVal T)) (t : T) :
    Types Γ (.var bindId) ((bindId, .ref t) :: env) t := by
  constructor
  · simp [RExpr.type, Env.get_self]
  · intro v
    simp only [RExpr.type]
    rw [Env.get_ne _ _ _ _ (by decide), Env.get_self]

theorem types_field {env : Env (TVal T)} (h : env.get this = some .this) (i : Bytes) :
    Types Γ (.addrOfField this i) env (Γ.field i) := by
  constructor
  · simp [RExpr.type, h]
  · intro v
    simp only [RExpr.type]
    rw [Env.get_ne _ _ _ _ (by decide), h]

theorem check_send {sp : Spans} (hsp : Foreign sp) {f : Field} {env : Env (TVal T)} (h : ReadyT env f)
    {e : RExpr} {t : T} (he : Types Γ e env t) :
    (sendCode sp f e).check Γ env = true ↔
      Γ.constant b!"tmp" = false ∧ (f.info.fmt ≠ none → Γ.constant b!"fmt" = false) ∧
      (∀ p, f.info.fmt = some p → Γ.fmtOk p t = true) ∧ (f.info.fmt = none → Γ.display t = true) := by
  unfold sendCode
  cases hf : f.info.fmt with
  | none =>
    have hser : Env.get ((⟨b!"tmp", sp.ty f⟩, .ref t) :: env) serId = some (TVal.ser (T := T)) := by
      rw [Env.get_ne _ _ _ _ (by show _ ≠ b!"tmp"; decide)]; exact h.ser
    simp [Code.check, he.1, Env.hasSer, hser, RExpr.type, Env.get_self, TVal.shown]
  | some p =>
    obtain ⟨b, hh⟩ := h.fmt (by simp [hf])
    have hpath := h.own p (sp.fmt f) (hsp.fmt f)
    have hser : Env.get ((⟨b!"tmp", sp.ty f⟩, .ref t) :: (mixedSite b!"fmt", .fmtFn p) :: env)
        serId = some (TVal.ser (T := T)) := by
      rw [Env.get_ne _ _ _ _ (by show _ ≠ b!"tmp"; decide), Env.get_ne _ _ _ _ (by decide)]; exact h.ser
    have hhelper : Env.get ((⟨b!"tmp", sp.ty f⟩, .ref t) ::
        (mixedSite b!"fmt", .fmtFn p) :: env) helperId = some (TVal.helper (T := T) true b) := by
      rw [Env.get_ne _ _ _ _ (by show _ ≠ b!"tmp"; decide), Env.get_ne _ _ _ _ (by decide)]; exact hh
    have hfmt : Env.get ((⟨b!"tmp", sp.ty f⟩, .ref t) ::
        (mixedSite b!"fmt", .fmtFn p) :: env) (mixedSite b!"fmt") = some (TVal.fmtFn (T := T) p) := by
      rw [Env.get_ne _ _ _ _ (by show _ ≠ b!"tmp"; decide), Env.get_self]
    simp only [Code.check, RExpr.type, hpath, hh, he.2, Env.hasSer, hser, hhelper, hfmt, Env.get_self]
    cases hok : Γ.fmtOk p t <;> simp [TVal.shown, mixedSite, hok, and_comm]

theorem type_cond {sp : Spans} (hsp : Foreign sp) {f : Field} {env : Env (TVal T)} (h : ReadyT env f)
    {e : RExpr} {t : T} (he : Types Γ e env t) (p : ExprPath) (hp : f.info.skipIf = some p) :
    (condCode sp f p e).type Γ env =
      if Γ.constant b!"tmp" = false ∧ Γ.predOk p t = true then some .bool else none := by
  obtain ⟨a, hh⟩ := h.skipIf (by simp [hp])
  have hpath := h.own p (sp.skipIf f) (hsp.skipIf f)
  simp only [condCode, RExpr.type, hpath, hh, he.1]
  cases Γ.constant b!"tmp" <;> simp [Env.get_self]
  cases Γ.predOk p t <;> simp

/-- What the code for a field asks for, once the type of the value is known. -/
def Asks (f : Field) (t : T) : Prop :=
  Γ.constant b!"tmp" = false ∧ (f.info.fmt ≠ none → Γ.constant b!"fmt" = false) ∧ Suits Γ f t

theorem check_guard {sp : Spans} (hsp : Foreign sp) {f : Field} {env : Env (TVal T)} (h : ReadyT env f)
    {e : RExpr} {t : T} (he : Types Γ e env t) :
    (guardCode sp f e).check Γ env = true ↔ Asks Γ f t := by
  unfold guardCode Asks Suits
  have hs := check_send Γ hsp h he
  cases hp : f.info.skipIf with
  | none =>
    simp only [hs]
    simp
  | some p =>
    simp only [Code.check, type_cond Γ hsp h he p hp, Bool.and_eq_true, hs]
    by_cases hc : Γ.constant b!"tmp" = false
    · cases hq : Γ.predOk p t <;> simp [hc, hq]
    · simp [hc]

theorem check_fieldCode {sp : Spans} (hsp : Foreign sp) {f : Field} {env : Env (TVal T)}
    (h : ReadyT env f) (d : Code) :
    ((fieldCode sp f).append d).check Γ env = true ↔
      (Γ.constant b!"tmp" = false ∧ (f.info.fmt ≠ none → Γ.constant b!"fmt" = false) ∧
        (TreatedAsOption f → Γ.constant b!"value" = false) ∧ WellTyped Γ f) ∧
      d.check Γ env = true := by
  rw [fieldCode_eq]
  unfold WellTyped
  rw [← treatedAsOption_iff]
  cases ho : f.info.option.getD (isOption f.ty) with
  | true =>
    simp only [if_true, Code.append, Code.check, RExpr.type, h.this, Env.get_self]
    cases hc : Γ.constant b!"tmp" with
    | true => simp
    | false =>
      cases hu : Γ.unOption (Γ.field f.ident) with
      | none => simp
      | some t =>
        have hg := check_guard Γ hsp (h.bind (.ref t)) (types_bind Γ env t)
        simp only [Bool.false_eq_true, if_false, Option.map_some, Bool.and_eq_true, hg, Asks, hc]
        simp [bindId, mixedSite]
        grind
  | false =>
    have hg := check_guard Γ hsp h (types_field Γ h.this f.ident)
    cases hp : f.info.skipIf with
    | none =>
      simp only [Bool.false_eq_true, if_false, Code.append, Code.check, Bool.and_eq_true, hg, Asks]
      simp
    | some p =>
      simp only [guardCode, hp, Code.check, Bool.and_eq_true] at hg
      simp only [Bool.false_eq_true, if_false, guardCode, hp, Code.append, Code.check, Bool.and_eq_true]
      simp only [and_true] at hg
      rw [hg]
      simp [Asks]

theorem check_oauthCodes {env : Env (TVal T)} (h : env.get serId = some .ser) (ps : List Proto)
    (d : Code) : (oauthCodes ps d).check Γ env = d.check Γ env := by
  induction ps with
  | nil => rfl
  | cons q ps ih => simp [oauthCodes, Code.check, Env.hasSer, h, ih]

theorem check_weaveCode {sp : Spans} (hsp : Foreign sp) {env : Env (TVal T)}
    (hser : env.get serId = some .ser) (fs : List Field) (h : ∀ f ∈ fs, ReadyT env f)
    (ps : List Proto) (d : Code) :
    (weaveCode sp ps fs d).check Γ env = true ↔
      (∀ f ∈ fs, Γ.constant b!"tmp" = false ∧ (f.info.fmt ≠ none → Γ.constant b!"fmt" = false) ∧
        (TreatedAsOption f → Γ.constant b!"value" = false) ∧ WellTyped Γ f) ∧
      d.check Γ env = true := by
  induction fs generalizing ps with
  | nil => simp [weaveCode, check_oauthCodes Γ hser]
  | cons f fs ih =>
    simp only [weaveCode, check_oauthCodes Γ hser, check_fieldCode Γ hsp (h f (by simp)),
      ih (fun g hg => h g (by simp [hg])), List.forall_mem_cons]
    rw [← and_assoc]

theorem readyT_any {fs : List Field} {env : Env (TVal T)} (hown : Own env)
    (hser : env.get serId = some .ser) (hthis : env.get this = some .this)
    (hh : fs.any (fun f => f.info.fmt.isSome) = true ∨ fs.any (fun f => f.info.skipIf.isSome) = true →
      env.get helperId = some (.helper (fs.any (fun f => f.info.fmt.isSome))
        (fs.any (fun f => f.info.skipIf.isSome)))) (f : Field) (hf : f ∈ fs) : ReadyT env f where
  own := hown
  ser := hser
  this := hthis
  fmt h := by
    have : fs.any (fun f => f.info.fmt.isSome) = true :=
      List.any_eq_true.mpr ⟨f, hf, by simpa [Option.isSome_iff_ne_none] using h⟩
    exact ⟨_, by rw [hh (.inl this), this]⟩
  skipIf h := by
    have : fs.any (fun f => f.info.skipIf.isSome) = true :=
      List.any_eq_true.mpr ⟨f, hf, by simpa [Option.isSome_iff_ne_none] using h⟩
    exact ⟨_, by rw [hh (.inr this), this]⟩

theorem own_startT : Own [(serId, TVal.ser), (this, (TVal.this : TVal T))] :=
  (Own.nil.cons _ _).cons _ _

theorem any_helper (fs : List Field) :
    (fs.any (fun f => f.info.fmt.isSome) || fs.any (fun f => f.info.skipIf.isSome)) = true ↔
      ∃ f ∈ fs, f.info.fmt ≠ none ∨ f.info.skipIf ≠ none := by
  simp only [Bool.or_eq_true, List.any_eq_true, Option.isSome_iff_ne_none]
  grind

/-- Exactly when the method body type-checks. -/
theorem check_method {sp : Spans} (hsp : Foreign sp) (fs : List Field) :
    (prologue fs (weaveCode sp allProto (kept fs) (.fin serId))).typechecks Γ = true ↔
      (∀ n, Binds (· ∈ fs) n → Γ.constant n = false) ∧
      ∀ f ∈ fs, f.info.skip = false → WellTyped Γ f := by
  have hk : ∀ f, f ∈ kept fs ↔ f ∈ fs ∧ f.info.skip = false := by simp [kept]
  have key : (prologue fs (weaveCode sp allProto (kept fs) (.fin serId))).check Γ
      [(serId, .ser), (this, .this)] = true ↔
      (((∃ f ∈ fs, f.info.fmt ≠ none ∨ f.info.skipIf ≠ none) →
          Γ.constant b!"helper" = false ∧ Γ.constant b!"f" = false) ∧
        ((∃ f ∈ fs, f.info.fmt ≠ none) → Γ.constant b!"t" = false)) ∧
      ∀ f ∈ kept fs, Γ.constant b!"tmp" = false ∧ (f.info.fmt ≠ none → Γ.constant b!"fmt" = false) ∧
        (TreatedAsOption f → Γ.constant b!"value" = false) ∧ WellTyped Γ f := by
    unfold prologue
    split
    · next ha =>
      have ha' := (any_helper fs).mp ha
      have hser : Env.get [(helperId, TVal.helper (T := T) (fs.any (fun f => f.info.fmt.isSome))
          (fs.any (fun f => f.info.skipIf.isSome))), (serId, .ser), (this, .this)] serId = some .ser := by
        rw [Env.get_ne _ _ _ _ (by decide)]; rfl
      have hfmt : fs.any (fun f => f.info.fmt.isSome) = true ↔ ∃ f ∈ fs, f.info.fmt ≠ none := by
        simp only [List.any_eq_true, Option.isSome_iff_ne_none]
      simp only [Code.check, RExpr.type, ha, Bool.true_and]
      split
      · next t ht =>
        split at ht
        · cases ht
        next hn =>
        cases ht
        rw [Bool.and_eq_true, check_weaveCode Γ hsp hser _ (fun f hf => readyT_any
          (own_startT.cons _ _) hser (by rw [Env.get_ne _ _ _ _ (by decide)]; rfl)
          (fun _ => Env.get_self _ _ _) f (mem_of_mem_kept hf))]
        simp only [Code.check, Env.hasSer, hser, and_true, ha', true_implies]
        rw [← hfmt]
        simp only [Bool.or_eq_true, Bool.and_eq_true, not_or, not_and, Bool.not_eq_true] at hn
        simp [helperId, mixedSite, hn.1]
        exact fun _ _ x hx h => hn.2 (List.any_eq_true.mpr ⟨x, hx, h⟩)
      · next ht =>
        replace ht : ¬ _ → _ = _ := ite_eq_left_iff.mp ht
        simp only [Bool.false_eq_true, false_iff, not_and, ha', true_implies, ← hfmt]
        rintro ⟨⟨-, h1⟩, h2⟩
        have : ¬ (Γ.constant b!"f" = true ∨ fs.any (fun f => f.info.fmt.isSome) = true ∧
            Γ.constant b!"t" = true) := by
          rintro (h | ⟨h, h'⟩)
          · rw [h1] at h; cases h
          · rw [h2 h] at h'; cases h'
        have := ht (by simpa only [Bool.or_eq_true, Bool.and_eq_true] using this)
        cases this
    · next ha =>
      have ha' := fun h => ha ((any_helper fs).mpr h)
      have hser : Env.get [(serId, TVal.ser), (this, (TVal.this : TVal T))] serId = some .ser := rfl
      rw [check_weaveCode Γ hsp hser _ (fun f hf => readyT_any own_startT hser (by rfl)
        (fun h => absurd (by simpa using h) ha) f (mem_of_mem_kept hf))]
      simp only [Code.check, Env.hasSer, hser, and_true]
      exact ⟨fun h => ⟨⟨fun h' => absurd h' ha',
        fun ⟨f, hf, h'⟩ => absurd ⟨f, hf, .inl h'⟩ ha'⟩, h⟩, fun h => h.2⟩
  unfold Code.typechecks
  rw [Bool.and_eq_true, key]
  constructor
  · rintro ⟨hs, hh, hf⟩
    refine ⟨?_, fun f hm hs => (hf f ((hk f).mpr ⟨hm, hs⟩)).2.2.2⟩
    intro n hn
    cases hn with
    | serializer => simpa [serId, mixedSite] using hs
    | helper hm h => exact (hh.1 ⟨_, hm, h⟩).1
    | f hm h => exact (hh.1 ⟨_, hm, h⟩).2
    | t hm h => exact hh.2 ⟨_, hm, h⟩
    | tmp hm hs => exact (hf _ ((hk _).mpr ⟨hm, hs⟩)).1
    | value hm hs ho => exact (hf _ ((hk _).mpr ⟨hm, hs⟩)).2.2.1 ho
    | fmt hm hs ho => exact (hf _ ((hk _).mpr ⟨hm, hs⟩)).2.1 ho
  · rintro ⟨hb, hf⟩
    refine ⟨by simpa [serId, mixedSite] using hb _ .serializer, ?_, ?_⟩
    · exact ⟨fun ⟨f, hm, h⟩ => ⟨hb _ (.helper hm h), hb _ (.f hm h)⟩,
        fun ⟨f, hm, h⟩ => hb _ (.t hm h)⟩
    · intro f hm
      obtain ⟨hm, hs⟩ := (hk f).mp hm
      exact ⟨hb _ (.tmp hm hs), fun h => hb _ (.fmt hm hs h), fun h => hb _ (.value hm hs h), hf f hm hs⟩

end Check

end Derive

open Derive Spec

variable {τ : Type}

/-- The two renderings of the macro accept the same structs; and what is generated. -/
theorem expandCode_impl_iff (cfg : Cfg) {S : Syn τ} (hS : Lawful S) (sp : Spans) (lookup : CrateLookup)
    (isIdent : Bytes → Bool) (attrs : List (Attribute τ)) (fs : List (SynField τ)) (i : Import)
    (code : Code) :
    expandCode cfg S sp lookup isIdent ⟨attrs, some fs⟩ = .ok (.impl i code) ↔
      (∃ body, expand cfg S lookup isIdent ⟨attrs, some fs⟩ = .ok (.impl i body)) ∧
      code = prologue (sortByName (fs.map (understood S)))
        (weaveCode sp allProto (kept (sortByName (fs.map (understood S)))) (.fin serId)) := by
  obtain ⟨info, es, hc⟩ := container_eq hS attrs
  unfold expandCode expand
  simp only [newFields_eq hS, Except.ok_bind', hc]
  rcases importOf_cx lookup isIdent info with ⟨e, he⟩ | ⟨j, es', hi⟩
  · simp only [he, Except.error_bind']
    simp
  · simp only [hi, Except.ok_bind', methodCode_eq, methodBody_eq]
    split
    · simp
    · simp [eq_comm]

end OAuth
