import Verif.Proofs.Release
import Verif.Properties.Panics
import Verif.Properties.TwoRuns

/-
C54: build configurations give the same output.
-/

namespace OAuth

open Spec

variable {S W : Type}

/-- `x` is what a build with checks does, `y` a build without them: the same, unless a check fails. -/
def OnlyChecks (cfg : Cfg) (uri : Display) {α : Type} (x y : Except Panic α) : Prop :=
  x = y ∨ (cfg.debug = true ∧ (0x3F : UInt8) ∈ uri.text ∧ x = .error .uriQuery) ∨
    (cfg.alloc = true ∧ cfg.debug = true ∧ x = .error .keyOrder)

theorem makeSign_checks {cfg cfg' : Cfg} (h : cfg'.debug = false) (sm : SignatureMethod S)
    (method : Bytes) {uri : Display} (huri : uri.outcome = .ok) (client : Credentials Bytes)
    (token : Option (Credentials Bytes)) :
    makeSign cfg sm method uri client token = makeSign cfg' sm method uri client token ∨
      (cfg.debug = true ∧ (0x3F : UInt8) ∈ uri.text ∧
        makeSign cfg sm method uri client token = .error .uriQuery) := by
  cases hd : cfg.debug with
  | false => left; simp [makeSign, hd, h]
  | true =>
    by_cases hq : (0x3F : UInt8) ∈ uri.text
    · right
      exact ⟨rfl, hq, by simp [makeSign, hd, assertNotContainQuestion_eq, hq, bind, Except.bind]⟩
    · left
      simp [makeSign, hd, h, assertNotContainQuestion_eq, hq, huri, Outcome.check, bind, Except.bind]

theorem runFrom_checks {cfg cfg' : Cfg} (hrel : Relaxes cfg cfg') (wr : Writer W) (sg : Sign S)
    {uri : Display} {start start' : Except Panic (Authorizer S W)}
    (hs : start = start' ∨
      (cfg.debug = true ∧ (0x3F : UInt8) ∈ uri.text ∧ start = .error .uriQuery))
    {r r' : Request} {cs : List Call} (hr : IsTrace r cs) (hr' : IsTrace r' cs) (w : World) :
    OnlyChecks cfg uri (runFrom cfg wr sg start r w) (runFrom cfg' wr sg start' r' w) := by
  rcases hs with rfl | ⟨h1, h2, rfl⟩
  · rcases unchecked_runFrom hrel wr sg start hr hr' w with ⟨hc, h⟩ | h
    · right; right
      simp only [Cfg.checksOrder, Bool.and_eq_true] at hc
      exact ⟨hc.1, hc.2, h⟩
    · exact .inl h
  · exact .inr (.inl ⟨h1, h2, rfl⟩)

/-- C54: for every signature method (also user-defined), writer, request, URI, in every build, each
entry point does exactly what the release build with the same clock does, text or panic, and leaves
the same world behind; unless one of two checks fails: the URI contains `?` (debug builds), or a key is
misordered (debug builds with `alloc`). `r` and `r'` are the request as compiled in either build. -/
theorem C54_only_checks {cfg release : Cfg} (hdebug : release.debug = false)
    (hclock : release.clock = cfg.clock) (wr : Writer W) (display : W → Display) (b : Builder S)
    {r r' : Request} {cs : List Call} (hr : IsTrace r cs) (hr' : IsTrace r' cs) (method : Bytes)
    (w : World) :
    (∀ uri : Display, uri.outcome = .ok →
      OnlyChecks cfg uri (b.authorize cfg method uri r w) (b.authorize release method uri r' w) ∧
      OnlyChecks cfg uri (b.toForm cfg method uri r w) (b.toForm release method uri r' w) ∧
      ∀ buf, OnlyChecks cfg uri (b.authorizeWithBuf cfg wr buf method uri r w)
          (b.authorizeWithBuf release wr buf method uri r' w) ∧
        OnlyChecks cfg uri (b.toFormWithBuf cfg wr buf method uri r w)
          (b.toFormWithBuf release wr buf method uri r' w)) ∧
    (∀ uri : W, (display uri).outcome = .ok →
      OnlyChecks cfg (display uri) (b.toQuery cfg wr display method uri r w)
        (b.toQuery release wr display method uri r' w)) := by
  have hrel : Relaxes cfg release := ⟨hdebug, hclock⟩
  have hauth : ∀ {W : Type} (wr : Writer W) (buf : W) (uri : Display), uri.outcome = .ok →
      OnlyChecks cfg uri (b.authorizeWithBuf cfg wr buf method uri r w)
        (b.authorizeWithBuf release wr buf method uri r' w) := by
    intro W wr buf uri huri
    refine runFrom_checks hrel wr b.signatureMethod.sign ?_ hr hr' w
    unfold Authorizer.authorizationWithBuf
    cases wr.writeUnwrap buf (.ofBytes b!"OAuth ") with
    | error e => exact .inl rfl
    | ok buf =>
      rcases makeSign_checks (cfg := cfg) hdebug b.signatureMethod method huri (Builder.asRefStr b.client)
        (b.token.map Builder.asRefStr) with h | ⟨h1, h2, h3⟩
      · left
        simp only [h]
      · exact .inr ⟨h1, h2, by simp only [h3]; rfl⟩
  have hform : ∀ {W : Type} (wr : Writer W) (buf : W) (uri : Display), uri.outcome = .ok →
      OnlyChecks cfg uri (b.toFormWithBuf cfg wr buf method uri r w)
        (b.toFormWithBuf release wr buf method uri r' w) := by
    intro W wr buf uri huri
    refine runFrom_checks hrel wr b.signatureMethod.sign ?_ hr hr' w
    unfold Authorizer.formWithBuf
    rcases makeSign_checks (cfg := cfg) hdebug b.signatureMethod method huri (Builder.asRefStr b.client)
      (b.token.map Builder.asRefStr) with h | ⟨h1, h2, h3⟩
    · left
      simp only [h]
    · exact .inr ⟨h1, h2, by simp only [h3]; rfl⟩
  refine ⟨fun uri huri => ⟨hauth stringWriter [] uri huri, hform stringWriter [] uri huri,
    fun buf => ⟨hauth wr buf uri huri, hform wr buf uri huri⟩⟩, fun uri huri => ?_⟩
  refine runFrom_checks hrel wr b.signatureMethod.sign ?_ hr hr' w
  unfold Authorizer.query
  rcases makeSign_checks (cfg := cfg) hdebug b.signatureMethod method huri (Builder.asRefStr b.client)
    (b.token.map Builder.asRefStr) with h | ⟨h1, h2, h3⟩
  · left
    simp only [h]
  · exact .inr ⟨h1, h2, by simp only [h3]; rfl⟩

/-- The shared case, in a debug build and without. -/
example := C54_only_checks (cfg := Case.cfg) (release := { Case.cfg with debug := false }) rfl rfl
  stringWriter Display.ofBytes (Case.builder hmacSha1) Case.trace
  (isTrace_parameterList { Case.cfg with debug := false } Case.pairs) b!"GET" Case.world

/-- C54: two builds with the same clock that both return, return the same. -/
theorem C54_same_output {cfg cfg' : Cfg} (hclock : cfg'.clock = cfg.clock) (b : Builder S)
    {r r' : Request} {cs : List Call} (hr : IsTrace r cs) (hr' : IsTrace r' cs) (method : Bytes)
    {uri : Display} (huri : uri.outcome = .ok) (w : World) {x x' : Bytes × World} :
    (b.authorize cfg method uri r w = .ok x → b.authorize cfg' method uri r' w = .ok x' → x = x') ∧
    (b.toForm cfg method uri r w = .ok x → b.toForm cfg' method uri r' w = .ok x' → x = x') := by
  have key : ∀ {x x' : Bytes × World} {m m' y : Except Panic (Bytes × World)},
      OnlyChecks cfg uri m y → OnlyChecks cfg' uri m' y → m = .ok x → m' = .ok x' → x = x' := by
    rintro x x' m m' y (h | ⟨-, -, h⟩ | ⟨-, -, h⟩) (h' | ⟨-, -, h'⟩ | ⟨-, -, h'⟩) rfl rfl
    all_goals first | cases h | cases h' | skip
    all_goals first | cases h' | skip
    rfl
  let release : Cfg := { cfg with debug := false }
  have h1 := (C54_only_checks (release := release) (cfg := cfg) rfl rfl stringWriter .ofBytes b hr hr
    method w).1 uri huri
  have h2 := (C54_only_checks (release := release) (cfg := cfg') rfl hclock.symm stringWriter .ofBytes b
    hr' hr method w).1 uri huri
  exact ⟨key h1.1 h2.1, key h1.2.1 h2.2.1⟩

/-- Sorted keys and no `?`: all builds return the same header. A misordered key: only builds that check
panic. -/
example : ([⟨true, true, .std⟩, ⟨true, false, .std⟩, ⟨false, true, .std⟩].map fun cfg : Cfg =>
      ((exampleBuilder hmacSha1).authorize cfg b!"GET" (.ofBytes b!"https://example.com/")
        (AssertSorted.request cfg examplePairs) World.example).toOption.map (·.1)).Pairwise
        (fun x y => x = y ∧ x ≠ none) := by decide +kernel
example : [⟨true, true, .std⟩, ⟨true, false, .std⟩, ⟨false, true, .std⟩].map (fun cfg : Cfg =>
      ((exampleBuilder hmacSha1).authorize cfg b!"GET" (.ofBytes b!"https://example.com/")
        (requestOf [.parameter b!"b" (.ofBytes b!"1"), .parameter b!"a" (.ofBytes b!"2")])
        World.example).toOption.isSome) = [false, true, true] := by decide +kernel

end OAuth
